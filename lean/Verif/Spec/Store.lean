import Verif.Spec.Buckets
/-!
# What a bucket store holds, as a plain collection of points

A specification of the store without keys, hashes, rows, sorting or searching: a collection of
points in no particular order.  C104 says that the store of src/buckets.rs holds exactly these.
-/
namespace Verif.Store
section
variable {F : Type} [F64 F]

/-- The number of the time bin a point falls into. -/
def binOf (w : Int) (t : Telemetry F) : Int := t.timestamp.tdiv w

/-- `q` is the latest of the points of `v`'s series that lie in an earlier bin than `v`. -/
def Latest (w : Int) (pts : List (Telemetry F)) (v q : Telemetry F) : Prop :=
  SameSeries q v ∧ binOf w q < binOf w v ∧
    ∀ r ∈ pts, SameSeries r v → binOf w r < binOf w v → binOf w r ≤ binOf w q

instance (w : Int) (pts : List (Telemetry F)) (v q : Telemetry F) : Decidable (Latest w pts v q) :=
  inferInstanceAs (Decidable (_ ∧ _ ∧ _))

/-- A point arrives.  If its series has a point in its bin, the two are combined.  Else, if it is
persistent and its series has an earlier point, it is combined with what the latest of these was.
Else it is stored as it is. -/
def add (w : Int) (pts : List (Telemetry F)) (v : Telemetry F) : List (Telemetry F) :=
  if ∃ p ∈ pts, SameSeries p v ∧ SameBin w p v then
    pts.map fun p => if SameSeries p v ∧ SameBin w p v then p.addAssign v else p
  else match (if v.persist then pts.find? fun q => Latest w pts v q else none) with
    | some q =>
      let carried : Telemetry F :=
        { name := q.name, tags := q.tags, value := q.value, timestamp := v.timestamp, persist := true,
          overrideCount := none, overrideSampleSum := none }
      pts ++ [carried.addAssign v]
    | none => pts ++ [v]

/-- A reset: of each series only the point in the last bin stays, and only if it is persistent; it is
moved to the present. -/
def reset (w : Int) (now : Int) (pts : List (Telemetry F)) : List (Telemetry F) :=
  (pts.filter fun q => q.persist && decide (∀ r ∈ pts, SameSeries r q → binOf w r ≤ binOf w q)).map
    fun q => { q with timestamp := now }

/-- The points after a history, from an empty store. -/
def run (w : Int) (pts : List (Telemetry F)) : List (BucketOp F) → List (Telemetry F)
  | [] => pts
  | .add _ v :: ops => run w (add w pts v) ops
  | .reset now :: ops => run w (reset w now pts) ops

end
end Verif.Store
