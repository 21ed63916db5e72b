import Verif.Model.Proto
/-! # Specification vocabulary for the native protocol's messages -/
namespace Verif.Proto

/-- The range of an `i64`. -/
def InI64 (v : Int) : Prop := -9223372036854775808 ≤ v ∧ v ≤ 9223372036854775807

instance (v : Int) : Decidable (InI64 v) := inferInstanceAs (Decidable (_ ∧ _))

/-- A point as a program can hold it: its metadata is a map, its time an `i64`. -/
def Point.Valid (p : Point) : Prop := p.metadata.Ok ∧ ∀ t, p.timestampMs = some t → InI64 t

def Line.Valid (l : Line) : Prop := l.metadata.Ok ∧ ∀ t, l.timestampMs = some t → InI64 t

/-- A payload as a program can hold it, below 4 GiB on the wire. -/
def Payload.Valid (p : Payload) : Prop :=
  (∀ x ∈ p.points, x.Valid) ∧ (∀ x ∈ p.lines, x.Valid) ∧ p.write.length < 4294967296

/-- The numbers of samples a point can have without its size being computed one byte short. -/
def GoodCount (n : Nat) : Prop :=
  n < 16 ∨ (128 ≤ n ∧ n < 2048) ∨ (16384 ≤ n ∧ n < 262144) ∨ (2097152 ≤ n ∧ n < 33554432) ∨
    268435456 ≤ n

instance (n : Nat) : Decidable (GoodCount n) := inferInstanceAs (Decidable (_ ∨ _))

/-- A field of a kind the messages do not have, as a later version of the protocol may write it: a number, eight bytes, text or a
nested message, or four bytes. -/
inductive Extra where
  | number (v : Nat)
  | eight (b : Bytes)
  | text (b : Bytes)
  | four (b : Bytes)

/-- Its form on the wire, after the protocol buffers' documentation: the field number and the wire type, and then the contents. -/
def Extra.write (f : Nat) : Extra → Bytes
  | .number v => putTag f 0 ++ varint v
  | .eight b => putTag f 1 ++ b
  | .text b => putTag f 2 ++ (varint b.length ++ b)
  | .four b => putTag f 5 ++ b

/-- What fits. -/
def Extra.Valid : Extra → Prop
  | .number v => v < 18446744073709551616
  | .eight b => b.length = 8
  | .text b => b.length < 4294967296
  | .four b => b.length = 4

/-- Several of them, with their field numbers. -/
def writeExtras (xs : List (Nat × Extra)) : Bytes := xs.flatMap fun x => x.2.write x.1

end Verif.Proto
