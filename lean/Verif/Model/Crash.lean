import Verif.Model.Net
/-!
# The whole process, when threads panic

The process of `Verif.Model.Net`, in which a source, a filter or a sink may panic at any time.  The release and development
profiles unwind (Cargo.toml:60-64 sets no `panic`), so that a panic ends the thread and nothing else; `main` learns of it when it joins
the thread, and then panics itself (`ThreadHandle::join`, src/thread.rs:34-37), which ends the process.
Simplifications: a thread panics between two of its steps, having lost nothing that it has not sent by then; a panic of `main` ends the process at once; the
flush timer and the clock thread do not panic.
-/
namespace Verif
namespace Crash
section
variable {F : Type} [F64 F]

/-- The threads `main` holds handles of: sources, by position, and filters and sinks, by name — src/bin/cernan.rs:123-125. -/
inductive Thread where
  | source (i : Nat)
  | node (n : Str)
deriving DecidableEq

/-- The process, the threads that have panicked, and whether `main` has.  The threads are those of src/bin/cernan.rs:77-807; `join` on a panicked thread is src/thread.rs:27. -/
structure State (F : Type) [F64 F] : Type 1 where
  net : Net.State F
  dead : List Thread := []
  aborted : Bool := false

/-- What happens next: what happens in a process without panics, or a thread panics.  The threads are those of src/bin/cernan.rs:77-807; `join` on a panicked thread is src/thread.rs:27. -/
inductive Label (F : Type) [F64 F] where
  | net (l : Net.Label F)
  | crash (x : Thread)

/-- Which thread performs the action; none for the timer, signals and `main`.  The threads are those of src/bin/cernan.rs:77-807; `join` on a panicked thread is src/thread.rs:27. -/
def actor : Net.Label F → Option Thread
  | .act n _ => some (.node n)
  | .emit i _ | .stop i => some (.source i)
  | .pulse _ | .signal | .main => none

/-- The thread `main` is blocked on in `handle.join()` — src/thread.rs:34-48: a source it has told to shut down, or a sink or
filter. -/
def awaited (s : Net.State F) : Option Thread :=
  match s.main with
  | .stopping (i :: _) => if i ∈ s.told then some (.source i) else none
  | .joining (n :: _) => some (.node n)
  | _ => none

/-- Is the thread still running?  A thread that has returned cannot panic any more.  The threads are those of src/bin/cernan.rs:77-807; `join` on a panicked thread is src/thread.rs:27. -/
def running (p : Net.Setup F) (s : Net.State F) : Thread → Bool
  | .source i => i < p.wiring.sources.length && !s.ended.contains i
  | .node n => match s.nodes n with
    | some nd => !nd.returned
    | none => false

/-- One step.  A thread that has panicked does nothing any more; `main` panics when it joins one (`.expect("Failed to join child thread!")`,
src/thread.rs:36); and then nothing happens any more. -/
def step (p : Net.Setup F) (s : State F) (l : Label F) : State F :=
  if s.aborted then s
  else match l with
  | .crash x => if running p s.net x then { s with dead := x :: s.dead } else s
  | .net .main =>
    if (awaited s.net).any (s.dead.contains ·) then { s with aborted := true }
    else { s with net := Net.step p s.net .main }
  | .net l =>
    if (actor l).any (s.dead.contains ·) then s
    else { s with net := Net.step p s.net l }

/-- The process after `t` steps of a schedule.  The threads are those of src/bin/cernan.rs:77-807; `join` on a panicked thread is src/thread.rs:27. -/
def run (p : Net.Setup F) (ls : Nat → Label F) : Nat → State F
  | 0 => { net := Net.initial p }
  | t + 1 => step p (run p ls t) (ls t)

end
end Crash
end Verif
