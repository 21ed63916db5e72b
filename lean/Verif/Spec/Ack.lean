import Verif.Model.Ack
/-! # Specification vocabulary for synchronous publishes -/
namespace Verif.Ack

/-- Each connection only makes synchronous publishes, to at most one channel. -/
def Act.simple : Act → Prop
  | .publishAsync _ _ => False
  | .send _ copies => copies ≤ 1
  | _ => True

/-- In the history `pre` the last registration by connection `c` is that of its frame
`n`, and after it the message of frame `m` of the same connection was acknowledged. -/
def AckedSinceRegistered (pre : List AckEvent) (c n m : Nat) : Prop :=
  ∃ a b, pre = a ++ .registered c n :: b ∧ (∀ k, .registered c k ∉ b) ∧ .acked c m ∈ b

end Verif.Ack
