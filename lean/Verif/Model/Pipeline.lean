import Verif.Model.Filter
import Verif.Model.Sink
/-!
# Sources, filters and a sink connected by queues

Threads connected as in `main` (src/bin/cernan.rs:280-806): some sources feed the first of a chain
of filters, which ends in one sink; the flush timer feeds the same first stage.  Every schedule of the
threads is a list of labels.  Simplification: queues are unbounded and lossless (a full or failing
queue is the subject of `Verif.Model.Send`); a receive that times out changes nothing.
-/
namespace Verif
namespace Pipeline

/-- A filter thread's code: its state type, its `process` and its state at the start — src/filter/mod.rs:69-114. -/
structure FilterCode (F : Type) [F64 F] where
  σ : Type
  process : Process F σ
  start : σ

/-- A chain from one stage to the sink.  Each filter has a queue, a number of upstreams
(`sources.len()`, src/filter/mod.rs:70-105) and the state of its run-loop; the sink has its own
queue. -/
inductive Pipe (F : Type) [F64 F] (κ : Type) : Type 1 where
  | sink (r : SinkRun F κ)
  | filter (f : FilterCode F) (upstreams : Nat) (queue : List (Event F)) (r : FilterRun F f.σ)
      (rest : Pipe F κ)

section
variable {F : Type} [F64 F] {κ : Type}

/-- An event accepted by the queue of the first stage.  The sending half of src/util.rs:28-68. -/
def Pipe.push (e : Event F) : Pipe F κ → Pipe F κ
  | .sink r => .sink { r with queue := r.queue ++ [some e] }
  | .filter f n q r rest => .filter f n (q ++ [e]) r rest

/-- Events accepted in order.  The sending half of src/util.rs:28-68. -/
def Pipe.pushAll (es : List (Event F)) (p : Pipe F κ) : Pipe F κ := es.foldl (fun p e => p.push e) p

/-- The stage with this number performs a step, the clock showing `now`: a filter receives one
event and passes on what it sends (`FilterRun.step`, src/filter/mod.rs:79-113); the sink performs a
step of its run-loop (`SinkRun.step`, src/sink/mod.rs:89-195; its only upstream is the stage before
it). -/
def Pipe.step (k : SinkImpl F κ) (sinkUpstreams : Nat) (now : Int) : Nat → Pipe F κ → Option (Pipe F κ)
  | 0, .sink r => some (.sink (r.step k sinkUpstreams))
  | _ + 1, .sink _ => none
  | 0, .filter f n q r rest => match q with
    | [] => none
    | e :: q =>
      if r.finished then none
      else
        let r' := r.step f.process n (some (now, e))
        some (.filter f n q r' (rest.pushAll (r'.sent.drop r.sent.length)))
  | i + 1, .filter f n q r rest => (rest.step k sinkUpstreams now i).map (.filter f n q r ·)

/-- The run-loop of the sink at the end — src/sink/mod.rs:80-196. -/
def Pipe.theSink : Pipe F κ → SinkRun F κ
  | .sink r => r
  | .filter _ _ _ _ rest => rest.theSink

/-- A chain of filters, of which the first has `n` upstreams and the others one, before anything has
happened — `Filter::run`, src/filter/mod.rs:70-78. -/
def Pipe.initial (st : κ) : Nat → List (FilterCode F) → Pipe F κ
  | _, [] => .sink { state := st, queue := [] }
  | n, f :: fs => .filter f n [] { state := f.start } (initial st 1 fs)

/-- The number of upstreams the sink knows of.  The threads and their wiring are made at src/bin/cernan.rs:77-807. -/
def sinkUpstreams (n : Nat) : List (FilterCode F) → Nat
  | [] => n
  | _ :: _ => 1

/-- The whole process: what each source has still to send, and the chain.  The threads and their wiring are made at src/bin/cernan.rs:77-807. -/
structure State (F : Type) [F64 F] (κ : Type) where
  sources : List (List (Event F))
  pipe : Pipe F κ

/-- What happens next: source `i` sends its next event, the flush timer sends a pulse, or the stage
with this number performs a step.  The threads and their wiring are made at src/bin/cernan.rs:77-807. -/
inductive Label where
  | source (i : Nat)
  | pulse (idx : Nat)
  | stage (i : Nat) (now : Int)
deriving DecidableEq

/-- One step; `none` if the label is not possible.  The threads and their wiring are made at src/bin/cernan.rs:77-807. -/
def step (k : SinkImpl F κ) (up : Nat) (s : State F κ) : Label → Option (State F κ)
  | .source i => match s.sources[i]? with
    | some (e :: es) => some { sources := s.sources.set i es, pipe := s.pipe.push e }
    | _ => none
  | .pulse idx => some { s with pipe := s.pipe.push (.timerFlush idx) }
  | .stage i now => (s.pipe.step k up now i).map fun p => { s with pipe := p }

/-- A schedule.  The threads and their wiring are made at src/bin/cernan.rs:77-807. -/
def run (k : SinkImpl F κ) (up : Nat) (s : State F κ) : List Label → Option (State F κ)
  | [] => some s
  | l :: ls => match step k up s l with
    | none => none
    | some s' => run k up s' ls

/-- The process at the start — the sources of the first stage are `evs.length` many.  The threads and their wiring are made at src/bin/cernan.rs:77-807. -/
def initial (st : κ) (fs : List (FilterCode F)) (evs : List (List (Event F))) : State F κ :=
  { sources := evs, pipe := Pipe.initial st evs.length fs }

end
end Pipeline
end Verif
