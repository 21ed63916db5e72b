import Verif.Spec.Stream
import Verif.Spec.Wire
/-! # Specification of what a native or Avro client sends -/
namespace Verif.Stream

/-- What follows the good payloads on the wire: nothing, or a length that is too large and then anything. -/
def oversized : Option (Nat × Bytes) → Bytes
  | none => []
  | some (n, junk) => Wire.be 4 n ++ junk

/-- `n` bytes into the stream of these payloads, one is inside a length prefix. -/
def InsidePrefix (ps : List Bytes) (n : Nat) : Prop :=
  ∃ i, i ≤ ps.length ∧ ((ps.take i).flatMap Wire.frame).length < n ∧ n < ((ps.take i).flatMap Wire.frame).length + 4

/-- `taken` are the payloads of which every byte is among the first `n` of the stream. -/
def AllComplete (ps taken : List Bytes) (n : Nat) : Prop :=
  ∃ rest, ps = taken ++ rest ∧ ∀ p more, rest = p :: more → n < ((taken ++ [p]).flatMap Wire.frame).length

end Verif.Stream
