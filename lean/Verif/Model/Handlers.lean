import Verif.Model.Crash
import Verif.Model.Thread
/-!
# The whole process, with the stream handlers of its sources

The process of `Verif.Model.Crash`, in which every source owns a pool of handler threads (`Verif.Model.Thread`): src/source/tcp.rs, of which the graphite, native
and avro sources are instances.  A source that has been told to shut down first shuts its pool down, and only then sends `Shutdown` and returns
(src/source/tcp.rs:148-151).  Simplifications: a source without handlers (statsd, file, internal) is one that never spawns any; the accept loop is any sequence of
`spawn` and `joinReady` (what it does exactly is in `Verif.Model.Tcp`); what handlers send is among what their source sends.
-/
namespace Verif
namespace Handlers
section
variable {F : Type} [F64 F]

/-- What is fixed at the start: the process, and the order in which the map of a pool yields the handles when it is drained (external) — src/thread.rs:148-151. -/
structure Setup (F : Type) [F64 F] where
  proc : Net.Setup F
  drain : Nat → List Nat → List Nat

/-- The process and the pool of each source, by position — src/bin/cernan.rs:655-762, src/source/tcp.rs:55-61. -/
structure State (F : Type) [F64 F] : Type 1 where
  proc : Crash.State F
  pools : Nat → Thread.State := fun _ => {}

/-- What happens next: a step of the process, where `stop i` stands for any step of a source that has been told to shut down; or a source spawns or joins handlers, or one
of its handlers returns or panics — src/source/tcp.rs:140-222. -/
inductive Label (F : Type) [F64 F] where
  | proc (l : Crash.Label F)
  | pool (i : Nat) (l : Thread.Label)

/-- The source has been told to shut down and has neither returned nor panicked, and the process is not over — src/source/tcp.rs:147-152. -/
def stopping (s : Crash.State F) (i : Nat) : Bool :=
  !s.aborted && s.net.told.contains i && !s.net.ended.contains i && !s.dead.contains (.source i)

/-- The next step of a source in `self.handlers.shutdown()` — src/source/tcp.rs:149, src/thread.rs:148-151; none once that has returned or panicked. -/
def next (drain : List Nat → List Nat) (t : Thread.State) : Option Thread.Label :=
  match t.phase with
  | .serving => some (.shutdown (drain t.pool.threads))
  | .draining (_ :: _) => some .signal
  | .draining [] | .joining _ _ => some .join
  | .returned _ | .panicked => none

/-- May this step of the pool happen on its own?  Handlers return and panic at any time; the source spawns and joins them while it lives — src/source/tcp.rs:153-170. -/
def may (p : Setup F) (s : Crash.State F) (i : Nat) : Thread.Label → Bool
  | .finish _ | .crash _ => !s.aborted && i < p.proc.wiring.sources.length
  | .spawn | .joinReady => !s.aborted && i < p.proc.wiring.sources.length && !s.dead.contains (.source i)
  | .shutdown _ | .signal | .join => false

/-- The pool of a source performs a step, if it can — src/thread.rs:76-152. -/
def State.poolStep (s : State F) (i : Nat) (l : Thread.Label) : State F :=
  match Thread.step (s.pools i) l with
  | some t => { s with pools := fun j => if j = i then t else s.pools j }
  | none => s

/-- One step; a label that is not possible changes nothing.  A source that is stopping shuts its pool down; if that panics, so does the source; if it returns, the source sends
`Shutdown` and returns — src/source/tcp.rs:148-151. -/
def step (p : Setup F) (s : State F) : Label F → State F
  | .proc (.net (.stop i)) =>
    if stopping s.proc i then
      match next (p.drain i) (s.pools i) with
      | some l => s.poolStep i l
      | none => match (s.pools i).phase with
        | .panicked => { s with proc := Crash.step p.proc s.proc (.crash (.source i)) }
        | _ => { s with proc := Crash.step p.proc s.proc (.net (.stop i)) }
    else s
  | .proc l => { s with proc := Crash.step p.proc s.proc l }
  | .pool i l => if may p s.proc i l then s.poolStep i l else s

/-- The process after `t` steps of a schedule — src/bin/cernan.rs:77-807. -/
def run (p : Setup F) (ls : Nat → Label F) : Nat → State F
  | 0 => { proc := { net := Net.initial p.proc } }
  | t + 1 => step p (run p ls t) (ls t)

end
end Handlers
end Verif
