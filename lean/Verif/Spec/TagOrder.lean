import Verif.Spec.Buckets
/-! # Series up to the order of their tags -/
namespace Verif
section
variable {F : Type} [F64 F]

/-- The points carry the same tags: every key has the same value in both, or is in neither. -/
def SameTags (a b : Telemetry F) : Prop := ∀ k, (a.tags.getD []).get k = (b.tags.getD []).get k

end
end Verif
