import Verif.Model.Sink
import Verif.Spec.Filter
/-!
# Specification vocabulary for the sink loop (C24-C26)
-/
namespace Verif

section
variable {F : Type} [F64 F] {σ : Type}

/-- Telemetry, log lines and raw events are what a sink is given. -/
def Event.isPayload : Event F → Bool
  | .telemetry _ | .log _ | .raw _ => true
  | .timerFlush _ | .shutdown => false

/-- The events that arrive over a sequence of receives. -/
def arrivals (recv : List (Option (Event F))) : List (Event F) := recv.filterMap id

/-- The events handed to the sink, in order. -/
def deliveredBy (calls : List (SinkCall F σ)) : List (Event F) :=
  calls.filterMap fun c => match c with
    | .deliver _ e => some e
    | _ => none

/-- The pulse indices that caused a flush, in order. -/
def flushedBy (calls : List (SinkCall F σ)) : List Nat :=
  calls.filterMap fun c => match c with
    | .pulseFlush _ i => some i
    | _ => none

/-- How often the sink was shut down. -/
def shutdownsBy (calls : List (SinkCall F σ)) : Nat :=
  calls.countP fun c => match c with
    | .shutdown _ => true
    | _ => false

/-- The pulse indices among some events. -/
def pulses (es : List (Event F)) : List Nat := es.filterMap Event.flushIdx

/-- Is a sink with this flush interval due at this pulse? (`none` never flushes.) -/
def dueAt (interval : Option Nat) (idx : Nat) : Bool :=
  match interval with
  | none => false
  | some i => i = 0 ∨ i ∣ idx

/-- `n` flushes one after the other. -/
def flushes {κ : Type} (k : SinkImpl F κ) : Nat → κ → κ
  | 0, s => s
  | n + 1, s => flushes k n (k.flush s)

/-- The states a sink can get into: what calls can make of its state at the start. -/
inductive Reaches {κ : Type} (k : SinkImpl F κ) (start : κ) : κ → Prop where
  | start : Reaches k start start
  | deliver (s m) : Reaches k start s → Reaches k start (k.deliver s m)
  | deliverLine (s l) : Reaches k start s → Reaches k start (k.deliverLine s l)
  | deliverRaw (s m) : Reaches k start s → Reaches k start (k.deliverRaw s m)
  | flush (s) : Reaches k start s → Reaches k start (k.flush s)
  | shutdown (s) : Reaches k start s → Reaches k start (k.shutdown s)

/-- Whatever happens, the sink's valve can be opened again by flushing often enough. -/
def Reopens {κ : Type} (k : SinkImpl F κ) (start : κ) : Prop :=
  ∀ s, Reaches k start s → ∃ n, k.valveOpen (flushes k n s) = true

end
end Verif
