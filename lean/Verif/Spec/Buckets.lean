import Verif.Model.Buckets
/-!
# Vocabulary for the bucket properties

Series, bins, histories of operations, and totals: everything the statements of
C08–C13 use beside the store's own API (`add`, `reset`, `iter`, `count`, `len`,
`is_empty`).
-/
namespace Verif
section
variable {F : Type} [F64 F]

/-- Two points belong to the same series: same name and same tags (no tag map and
an empty one are the same tags). -/
def SameSeries (a b : Telemetry F) : Prop := a.name = b.name ∧ a.tags.getD [] = b.tags.getD []

/-- Two timestamps in the same time bin of width `w` (integer division). -/
def SameBin (w : Int) (a b : Telemetry F) : Prop := a.timestamp.tdiv w = b.timestamp.tdiv w

instance (a b : Telemetry F) : Decidable (SameSeries a b) := inferInstanceAs (Decidable (_ ∧ _))
instance (w : Int) (a b : Telemetry F) : Decidable (SameBin w a b) :=
  inferInstanceAs (Decidable (_ = _))

/-- An operation on a bucket store, with the clock reading it makes. -/
inductive BucketOp (F : Type) [F64 F] where
  | add (now : Int) (v : Telemetry F)
  | reset (now : Int)

/-- Run operations; `none` is a panic. -/
def runBucket (hash : Str × TagMap → Nat) (b : Buckets F) : List (BucketOp F) → Option (Buckets F)
  | [] => some b
  | .add now v :: ops => match b.add hash now v with
    | none => none
    | some b' => runBucket hash b' ops
  | .reset now :: ops => runBucket hash (b.reset now) ops

/-- The points a history adds, in order. -/
def addedPoints : List (BucketOp F) → List (Telemetry F)
  | [] => []
  | .add _ v :: ops => v :: addedPoints ops
  | .reset _ :: ops => addedPoints ops

/-- The 64-bit hash happens to distinguish the series that occur in a history. -/
def Separates (hash : Str × TagMap → Nat) (vs : List (Telemetry F)) : Prop :=
  ∀ a ∈ vs, ∀ b ∈ vs, hash a.hashInput = hash b.hashInput → SameSeries a b

/-- Laws of exact addition, for statements about totals (IEEE addition rounds). -/
class LawfulAdd (F : Type) [F64 F] : Prop where
  zero_add : ∀ x : F, F64.add F64.zero x = x
  add_comm : ∀ x y : F, F64.add x y = F64.add y x
  add_assoc : ∀ x y z : F, F64.add (F64.add x y) z = F64.add x (F64.add y z)

instance : LawfulAdd Int where
  zero_add := Int.zero_add
  add_comm := Int.add_comm
  add_assoc := Int.add_assoc

/-- Total of the SUM values in a list of points. -/
def sumTotal : List (Telemetry F) → F
  | [] => F64.zero
  | t :: ts => match t.sum with
    | some x => F64.add x (sumTotal ts)
    | none => sumTotal ts

/-- Run operations, recording what iteration yields just before every reset (what
a sink emits on flush) and at the end. -/
def runEmitting (hash : Str × TagMap → Nat) (b : Buckets F) :
    List (BucketOp F) → Option (List (List (Telemetry F)))
  | [] => b.iter.map fun pts => [pts]
  | .add now v :: ops => match b.add hash now v with
    | none => none
    | some b' => runEmitting hash b' ops
  | .reset now :: ops => match b.iter, runEmitting hash (b.reset now) ops with
    | some pts, some rest => some (pts :: rest)
    | _, _ => none

end
end Verif
