import Verif.Model.Pipeline
import Verif.Model.Topology
import Verif.Model.Tags
/-!
# The whole process, from start to exit

The threads `main` starts (src/bin/cernan.rs:422-791), for every wiring: sources, filters and sinks
connected by queues, the flush timer, and `main` itself, which waits for a signal, shuts the sources down and
joins the others (src/bin/cernan.rs:793-807).  A schedule is an infinite sequence of labels.
Queues may be full at any time, in which case `util::send` drops the event; when they are is external.
Simplifications: a queue that fails otherwise, on which `util::send` tries again, is the subject of `Verif.Model.Send`;
`util::send` puts an event in all queues in one step; a receive that times out changes nothing; no thread panics (for that see `Verif.Model.Crash`).
-/
namespace Verif
namespace Net
open Pipeline (FilterCode)
open Topology (Wiring)

/-- A sink thread's code: its state type, its implementation and its state at the start.  The threads and their wiring are made at src/bin/cernan.rs:77-807. -/
structure SinkCode (F : Type) [F64 F] where
  κ : Type
  impl : SinkImpl F κ
  start : κ

/-- A running filter or sink: its code, the number of its upstreams (`sources.len()`), for a filter its
channels and queue, and the state of its run-loop — src/filter/mod.rs:70-78, src/sink/mod.rs:60-84. -/
inductive Node (F : Type) [F64 F] : Type 1 where
  | filter (f : FilterCode F) (upstreams : Nat) (channels : List Str) (queue : List (Event F))
      (r : FilterRun F f.σ)
  | sink (k : SinkCode F) (upstreams : Nat) (r : SinkRun F k.κ)

section
variable {F : Type} [F64 F]

/-- The node's queue accepts an event — the sending half of src/util.rs:28-68. -/
def Node.push (e : Event F) : Node F → Node F
  | .filter f n ch q r => .filter f n ch (q ++ [e]) r
  | .sink k n r => .sink k n { r with queue := r.queue ++ [some e] }

/-- Has the node's thread returned?.  The threads and their wiring are made at src/bin/cernan.rs:77-807. -/
def Node.returned : Node F → Bool
  | .filter _ _ _ _ r => r.finished
  | .sink _ _ r => r.returned

/-- Where the node sends to.  The threads and their wiring are made at src/bin/cernan.rs:77-807. -/
def Node.channels : Node F → List Str
  | .filter _ _ ch _ _ => ch
  | .sink _ _ _ => []

/-- The node's thread performs a step, the clock showing `now`: a filter receives one event
(`FilterRun.step`, src/filter/mod.rs:79-113), a sink performs a step of its run-loop (`SinkRun.step`,
src/sink/mod.rs:89-195).  The node afterwards, and what it has sent. -/
def Node.act (now : Int) : Node F → Node F × List (Event F)
  | .filter f n ch q r => match q with
    | [] => (.filter f n ch [] r, [])
    | e :: q =>
      if r.finished then (.filter f n ch (e :: q) r, [])
      else
        let r' := r.step f.process n (some (now, e))
        (.filter f n ch q r', r'.sent.drop r.sent.length)
  | .sink k n r => (.sink k n (r.step k.impl n), [])

/-- Who put an event in a queue: a source (by position), a filter (by name) or the flush timer.  The threads and their wiring are made at src/bin/cernan.rs:77-807. -/
inductive Sender where
  | source (i : Nat)
  | filter (n : Str)
  | timer
deriving DecidableEq

/-- What `main` is doing — src/bin/cernan.rs:793-807. -/
inductive Main where
  /-- `signal.recv()` -/
  | waiting
  /-- shutting down sources; those left, by position -/
  | stopping (todo : List Nat)
  /-- joining sinks and filters; those left, by name -/
  | joining (todo : List Str)
  /-- `main` has returned: the process exits -/
  | exited
deriving DecidableEq

/-- The process.  The threads and their wiring are made at src/bin/cernan.rs:77-807. -/
structure State (F : Type) [F64 F] : Type 1 where
  nodes : Str → Option (Node F)
  /-- a record of what each node's queue has accepted, and from whom -/
  log : Str → List (Sender × Event F) := fun _ => []
  /-- a record of what was sent to each node's queue and dropped because the queue was full, and by whom -/
  lost : Str → List (Sender × Event F) := fun _ => []
  /-- a signal has arrived — src/bin/cernan.rs:112-117 -/
  signalled : Bool := false
  /-- the sources that have been told to shut down, by position -/
  told : List Nat := []
  /-- the sources that have returned -/
  ended : List Nat := []
  main : Main := .waiting

/-- What is fixed at the start: the wiring, the code of the nodes, and the order in which the hash maps of
`main` yield the handles of sources, sinks and filters (external); and whether the `k`-th send to a queue (from 0) finds
its memory and disk space used up (`hopper::Error::Full`, external).  The threads and their wiring are made at src/bin/cernan.rs:77-807. -/
structure Setup (F : Type) [F64 F] where
  wiring : Wiring
  filter : Str → FilterCode F
  sink : Str → SinkCode F
  stopOrder : List Nat
  joinOrder : List Str
  full : Str → Nat → Bool := fun _ _ => false

/-- The map `sources` — src/bin/cernan.rs:655-762: from the name of a source to its handle, here its position.  Where
two sources have the same name, the later `insert` replaces the handle of the earlier. -/
def handles (w : Wiring) : List (Str × Nat) :=
  w.sources.zipIdx.foldl (fun m si => Assoc.put m si.1.1 si.2) []

/-- The process when `main` reaches `signal.recv()` — src/bin/cernan.rs:791. -/
def initial (p : Setup F) : State F where
  nodes n :=
    match p.wiring.filters.find? (·.1 == n) with
    | some (_, ups, downs) => some (.filter (p.filter n) ups.length downs [] { state := (p.filter n).start })
    | none => match p.wiring.sinks.find? (·.1 == n) with
      | some (_, ups) => some (.sink (p.sink n) ups.length { state := (p.sink n).start, queue := [] })
      | none => none

/-- Replace one value of a function.  For the steps of the threads of src/bin/cernan.rs:77-807. -/
def put {α : Type u} (f : Str → α) (n : Str) (x : α) : Str → α := fun m => if m = n then x else f m

/-- How often something has been sent to the node's queue.  For src/util.rs:28-68. -/
def State.tries (s : State F) (n : Str) : Nat := (s.log n).length + (s.lost n).length

/-- An event is sent to one queue — src/util.rs:38-53, 56-67: it is dropped if the queue is full. -/
def State.accept (p : Setup F) (s : State F) (x : Sender) (n : Str) (e : Event F) : State F :=
  match s.nodes n with
  | none => s
  | some nd =>
    if p.full n (s.tries n) then { s with lost := put s.lost n (s.lost n ++ [(x, e)]) }
    else { s with nodes := put s.nodes n (nd.push e), log := put s.log n (s.log n ++ [(x, e)]) }

/-- `util::send` — src/util.rs:28-68: an event to every channel.  Simplification: the first channel comes last in the code. -/
def State.send (p : Setup F) (s : State F) (x : Sender) (chans : List Str) (e : Event F) : State F :=
  chans.foldl (fun s n => s.accept p x n e) s

/-- Several events one after the other.  For src/util.rs:28-68. -/
def State.sendAll (p : Setup F) (s : State F) (x : Sender) (chans : List Str) (es : List (Event F)) : State F :=
  es.foldl (fun s e => s.send p x chans e) s

/-- What happens next.  The threads and their wiring are made at src/bin/cernan.rs:77-807. -/
inductive Label (F : Type) [F64 F] where
  /-- a filter or sink performs a step -/
  | act (n : Str) (now : Int)
  /-- a source sends an event -/
  | emit (i : Nat) (e : Event F)
  /-- the flush timer sends a pulse -/
  | pulse (idx : Nat)
  /-- a source that has been told to shut down sends `Shutdown` and returns -/
  | stop (i : Nat)
  /-- SIGTERM or SIGINT arrives -/
  | signal
  /-- `main` performs a step -/
  | main

/-- What a source sends while it serves: no `Shutdown`, no pulse — src/source/. -/
def Event.isServed : Event F → Bool
  | .shutdown | .timerFlush _ => false
  | _ => true

/-- `main` performs a step — src/bin/cernan.rs:793-807.  `Stoppable::shutdown` (src/thread.rs:43-48) tells the thread
and then waits for it. -/
def State.mainStep (p : Setup F) (s : State F) : State F :=
  match s.main with
  | .waiting => if s.signalled then { s with main := .stopping p.stopOrder } else s
  | .stopping [] => { s with main := .joining p.joinOrder }
  | .stopping (i :: is) =>
    if i ∈ s.told then
      if i ∈ s.ended then { s with main := .stopping is } else s
    else { s with told := i :: s.told }
  | .joining [] => { s with main := .exited }
  | .joining (n :: ns) => match s.nodes n with
    | some nd => if nd.returned then { s with main := .joining ns } else s
    | none => { s with main := .joining ns }
  | .exited => s

/-- One step; a label that is not possible changes nothing.  The threads and their wiring are made at src/bin/cernan.rs:77-807. -/
def step (p : Setup F) (s : State F) : Label F → State F
  | .act n now => match s.nodes n with
    | none => s
    | some nd =>
      { s with nodes := put s.nodes n (nd.act now).1 }.sendAll p (.filter n) nd.channels (nd.act now).2
  | .emit i e => match p.wiring.sources[i]? with
    | none => s
    | some (_, chans) => if Event.isServed e ∧ i ∉ s.ended then s.send p (.source i) chans e else s
  | .pulse idx => s.send p .timer p.wiring.flush (.timerFlush idx)
  | .stop i => match p.wiring.sources[i]? with
    | none => s
    | some (_, chans) =>
      if i ∈ s.told ∧ i ∉ s.ended then
        { s.send p (.source i) chans .shutdown with ended := i :: s.ended }
      else s
  | .signal => { s with signalled := true }
  | .main => s.mainStep p

/-- The process after `t` steps of a schedule.  The threads and their wiring are made at src/bin/cernan.rs:77-807. -/
def run (p : Setup F) (ls : Nat → Label F) : Nat → State F
  | 0 => initial p
  | t + 1 => step p (run p ls t) (ls t)

end
end Net
end Verif
