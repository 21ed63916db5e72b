import Verif.Spec.Net
import Verif.Spec.Sink
/-!
# Specification vocabulary for a process that is not told to stop (C146)
-/
namespace Verif
namespace Net
open Topology
section
variable {F : Type} [F64 F]

/-- The thread of this filter or sink gets its turn again and again. -/
def Busy (ls : Nat → Label F) (n : Str) : Prop := ∀ t, ∃ t' ≥ t, ∃ now, ls t' = .act n now

/-- The flush timer: the numbers of its pulses go up one by one from 1, and there is always a next pulse. -/
structure Ticks (ls : Nat → Label F) (number : Nat → Nat) : Prop where
  /-- `number t` is how many pulses there have been by time `t`. -/
  start : number 0 = 0
  pulse : ∀ t idx, ls t = .pulse idx → idx = number t + 1 ∧ number (t + 1) = number t + 1
  other : ∀ t, (∀ idx, ls t ≠ .pulse idx) → number (t + 1) = number t
  next : ∀ t, ∃ t' ≥ t, ∃ idx, ls t' = .pulse idx

/-- The filter passes on every pulse whose number is higher than those of all the pulses before it, in order, and makes up none. -/
def PassesPulses (f : Pipeline.FilterCode F) : Prop := ∀ ins : List (Int × Event F), (∀ i ∈ ins, i.2.isShutdown = false) →
  records 0 (pulses (expectedSent f.process f.start (ins.map some))) = records 0 (pulses (ins.map (·.2)))

/-- However far the process has got, flushing the sink often enough opens its valve. -/
def ValveReopens (p : Setup F) (ls : Nat → Label F) (n : Str) : Prop :=
  ∀ t m r, (run p ls t).nodes n = some (.sink (p.sink n) m r) → ∃ N, (p.sink n).impl.valveOpen (flushes (p.sink n).impl N r.state) = true

/-- The sink has been flushed at a pulse of the timer after it was given these events. -/
def Node.flushedSince : Node F → List (Event F) → Prop
  | .filter _ _ _ _ _, _ => False
  | .sink _ _ r, es => ∃ before s idx after, r.calls = before ++ .pulseFlush s idx :: after ∧ es <+: deliveredBy before

end
end Net
end Verif
