import Verif.Model.Event
/-!
# The sink run-loop

Models `RunnableSink::consume` (src/sink/mod.rs:80-196) as a machine that performs one
`recv.next()` or one pass of the inner loop per step.
-/
namespace Verif

/-- A `Sink` implementation with state `σ` — src/sink/mod.rs:200-246.  Anything a sink
does besides changing its state (network traffic) is part of `σ`. -/
structure SinkImpl (F : Type) [F64 F] (σ : Type) where
  /-- `valve_state() == Valve::Open` -/
  valveOpen : σ → Bool
  flushInterval : σ → Option Nat
  deliver : σ → Telemetry F → σ
  deliverLine : σ → LogLine → σ
  deliverRaw : σ → RawEvent → σ
  flush : σ → σ
  shutdown : σ → σ

/-- A call made by the run-loop on the sink, with the sink's state just before it — src/sink/mod.rs:80-196. -/
inductive SinkCall (F : Type) [F64 F] (σ : Type) where
  | deliver (before : σ) (e : Event F)
  /-- a flush caused by the timer pulse `idx` -/
  | pulseFlush (before : σ) (idx : Nat)
  /-- a flush caused by a closed valve -/
  | valveFlush (before : σ)
  | shutdown (before : σ)

/-- The local variables of `consume` — src/sink/mod.rs:81-84, 97 — and a log of the
calls made.  `queue` lists the results of the coming `recv.next()` calls; `current` is
the event held by the inner loop. -/
structure SinkRun (F : Type) [F64 F] (σ : Type) where
  state : σ
  queue : List (Option (Event F))
  current : Option (Event F) := none
  lastFlushIdx : Nat := 0
  totalShutdowns : Nat := 0
  returned : Bool := false
  calls : List (SinkCall F σ) := []

section
variable {F : Type} [F64 F] {σ : Type}

/-- One pass of the inner loop with the valve open — src/sink/mod.rs:114-188. -/
def SinkRun.handle (k : SinkImpl F σ) (sources : Nat) (r : SinkRun F σ) :
    Event F → SinkRun F σ
  | .timerFlush idx =>
    if idx > r.lastFlushIdx then
      match k.flushInterval r.state with
      | some i =>
        if i = 0 ∨ idx % i = 0 then
          { r with state := k.flush r.state, lastFlushIdx := idx, current := none,
                   calls := r.calls ++ [.pulseFlush r.state idx] }
        else { r with lastFlushIdx := idx, current := none }
      | none => { r with lastFlushIdx := idx, current := none }
    else { r with current := none }
  | .telemetry m =>
    { r with state := k.deliver r.state m, current := none,
             calls := r.calls ++ [.deliver r.state (.telemetry m)] }
  | .log l =>
    { r with state := k.deliverLine r.state l, current := none,
             calls := r.calls ++ [.deliver r.state (.log l)] }
  | .raw m =>
    { r with state := k.deliverRaw r.state m, current := none,
             calls := r.calls ++ [.deliver r.state (.raw m)] }
  | .shutdown =>
    if r.totalShutdowns + 1 ≥ sources then
      { r with state := k.shutdown r.state, totalShutdowns := r.totalShutdowns + 1,
               returned := true, calls := r.calls ++ [.shutdown r.state] }
    -- no `break` here: the inner loop comes round with the same event
    else { r with totalShutdowns := r.totalShutdowns + 1 }

/-- One step of `consume` — src/sink/mod.rs:89-195.  An empty `queue` stands for a
receive that has not returned yet; delays are not modelled. -/
def SinkRun.step (k : SinkImpl F σ) (sources : Nat) (r : SinkRun F σ) : SinkRun F σ :=
  if r.returned then r
  else match r.current with
    | none =>
      match r.queue with
      | [] => r
      | none :: q => { r with queue := q }
      | some e :: q => { r with queue := q, current := some e }
    | some e =>
      if k.valveOpen r.state then r.handle k sources e
      else { r with state := k.flush r.state, calls := r.calls ++ [.valveFlush r.state] }

/-- `n` steps — src/sink/mod.rs:80-196. -/
def SinkRun.steps (k : SinkImpl F σ) (sources : Nat) : Nat → SinkRun F σ → SinkRun F σ
  | 0, r => r
  | n + 1, r => steps k sources n (r.step k sources)

end
end Verif
