import Verif.Spec.Native
/-!
# Two processes in a row: specification
-/
namespace Verif
variable {F : Type} [F64 F]

/-- The network has carried, over one connection, what the native sink wrote last in each of its flushes, in order and whole: `net` is what
the other end of the connection sees, cut up in any way and blocking anywhere but inside a length.  No payload is larger than the source takes. -/
def Carried (log : List (List (Event F) × List Native.Act)) (net : List Wire.NetItem) : Prop :=
  Wire.NonEmptyReads net ∧ ∃ ps, Native.Each (fun b p => b.2.getLast? = some (.write (Wire.frame p))) log ps ∧
    (∀ p ∈ ps, p.length ≤ Native.maxPayload) ∧ Wire.Framed ps (Wire.symsOf net)

/-- The batches before the first empty one. -/
def untilIdle (log : List (List (Event F) × List Native.Act)) : List (List (Event F)) := (log.map (·.1)).takeWhile fun b => !b.isEmpty

/-- Flushes with nothing to send come last. -/
def IdleLast (log : List (List (Event F) × List Native.Act)) : Prop :=
  ∀ b ∈ (log.map (·.1)).dropWhile (fun b => !b.isEmpty), b = []

end Verif
