import Verif.Spec.Buckets
/-!
# Vocabulary for a bin width of zero (C110)
-/
namespace Verif
section
variable {F : Type} [F64 F]

/-- A history adds a point of a series of which the store still has a point: the earlier point persists, or there is no reset
between the two. -/
def AddsAgain (ops : List (BucketOp F)) : Prop :=
  ∃ pre now u mid now' v post, ops = pre ++ .add now u :: (mid ++ .add now' v :: post) ∧ SameSeries u v ∧
    (u.persist = true ∨ ∀ t, .reset t ∉ mid)

end
end Verif
