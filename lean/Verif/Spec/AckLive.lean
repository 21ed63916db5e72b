import Verif.Spec.Ack
/-!
# Specification vocabulary for executions of synchronous publishes that go on for ever (C147)
-/
namespace Verif.Ack

/-- An execution that does not end: what is done at each moment (`none`: nothing that concerns connections or acknowledgements) and the state before it. -/
structure Exec (acts : Nat → Option Act) (w : Nat → World) : Prop where
  start : w 0 = {}
  step : ∀ t a, acts t = some a → (w t).step a = some (w (t + 1))
  idle : ∀ t, acts t = none → w (t + 1) = w t

/-- What the thread of connection `c` does to finish a synchronous publish it has begun. -/
def Act.finishes (c : Nat) : Act → Prop
  | .send c' _ | .poll c' | .remove c' | .answer c' => c' = c
  | _ => False

/-- The thread of connection `c` gets its turn again and again while it is handling a synchronous publish. -/
def Scheduled (acts : Nat → Option Act) (w : Nat → World) (c : Nat) : Prop :=
  ∀ t, ((w t).threads c).pc ≠ .idle → ∃ t' ≥ t, ∃ a, acts t' = some a ∧ a.finishes c

/-- Every message of connection `c` the channels have taken is acknowledged in the end. -/
def AllAcked (acts : Nat → Option Act) (w : Nat → World) (c : Nat) : Prop :=
  ∀ t n, (c, n) ∈ (w t).inflight → ∃ t' ≥ t, acts t' = some (.sinkAck c n)

/-- Every synchronous publish of connection `c` goes to some channel. -/
def HasChannel (acts : Nat → Option Act) (c : Nat) : Prop := ∀ t copies, acts t = some (.send c copies) → 0 < copies

end Verif.Ack
