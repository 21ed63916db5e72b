import Verif.Spec.Totals
/-!
# Vocabulary for timers from a statsd packet to Wavefront (C134)
-/
namespace Verif
variable {F : Type} [F64 F]

/-- How many samples the points with this name count, together. -/
def countNamed (n : Str) (pts : List (Telemetry F)) : Nat :=
  (pts.filter fun t => t.name = n).foldr (fun t acc => t.count + acc) 0

/-- The samples of the points with this name, added up. -/
def samplesNamed (n : Str) (pts : List (Telemetry F)) : F :=
  (pts.filter fun t => t.name = n).foldr (fun t acc => F64.add (t.samplesSum.getD F64.zero) acc) F64.zero

/-- How many points have this name. -/
def pointsNamed (n : Str) (pts : List (Telemetry F)) : Nat := pts.countP fun t => t.name = n

namespace Statsd

/-- How many readings there are under a name. -/
def readingsNamed (n : Str) (rs : List Reading) : Nat := rs.countP fun r => r.name = n

/-- Every reading under the name is a timer or a histogram, and no mapping to a histogram matches the name. -/
def Timed (cfg : Config F) (n : Str) (rs : List Reading) : Prop :=
  (∀ r ∈ rs, r.name = n → r.ty = .timer ∨ r.ty = .histogram) ∧ cfg.histogramMasks.find? (fun mb => mb.1 n) = none

/-- The same, where the first mapping that matches the name makes histograms of its readings. -/
def Binned (cfg : Config F) (n : Str) (rs : List Reading) : Prop :=
  (∀ r ∈ rs, r.name = n → r.ty = .timer ∨ r.ty = .histogram) ∧ (cfg.histogramMasks.find? fun mb => mb.1 n).isSome

end Statsd
end Verif
