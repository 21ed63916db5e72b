import Verif.Spec.Totals
import Verif.Spec.Prometheus
/-!
# Vocabulary for gauges (C114)
-/
namespace Verif
section
variable {F : Type} [F64 F]

/-- A point of the series with this name and these tags. -/
def OfSeries (n : Str) (tags : TagMap) (t : Telemetry F) : Prop := t.name = n ∧ t.tags.getD [] = tags

instance (n : Str) (tags : TagMap) (t : Telemetry F) : Decidable (OfSeries n tags t) := inferInstanceAs (Decidable (_ ∧ _))

/-- What a gauge stands at after one more report: an absolute one replaces, a relative one is added. -/
def gaugeStep : Option F → Value F → Option F
  | _, .set v => some v
  | none, .sum v => some v
  | some x, .sum v => some (F64.add x v)
  | x, _ => x

/-- What a gauge stands at after these reports. -/
def gaugeLevel (vs : List (Value F)) : Option F := vs.foldl gaugeStep none

/-- The bins of the times at which a history touches a series: the points of it that are added, and the resets. -/
def seriesBins (n : Str) (tags : TagMap) (w : Int) : List (BucketOp F) → List Int
  | [] => []
  | .add _ v :: ops => if OfSeries n tags v then v.timestamp.tdiv w :: seriesBins n tags w ops else seriesBins n tags w ops
  | .reset now :: ops => now.tdiv w :: seriesBins n tags w ops

end

namespace Statsd
variable {F : Type} [F64 F]

/-- The report a gauge reading makes, if its value is a number: relative if it is signed. -/
def Reading.gauge (cfg : Config F) (r : Reading) : Option (Value F) :=
  (r.number cfg).map fun v => if r.value.head? = some '+' ∨ r.value.head? = some '-' then .sum v else .set v

/-- The reports made under a name, in order. -/
def gaugesOf (cfg : Config F) (n : Str) (rs : List Reading) : List (Value F) :=
  (rs.filter fun r => r.name = n).filterMap fun r => r.gauge cfg

end Statsd
end Verif
