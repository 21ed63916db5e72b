import Verif.Model.Internal
/-! # Specification vocabulary for the internal source -/
namespace Verif.Internal

variable {F : Type} [F64 F]

/-- Everything added to a static. -/
def added (atom : String) : List (Label F) → Nat
  | [] => 0
  | .add a n :: ls => (if a = atom then n else 0) + added atom ls
  | _ :: ls => added atom ls

/-- Nothing writes to the static except by adding. -/
def OnlyAdded (atom : String) (ls : List (Label F)) : Prop := ∀ n, Label.store atom n ∉ ls

/-- No point of that name is pushed by hand. -/
def NotPushed (name : Str) (ls : List (Label F)) : Prop :=
  ∀ now v md, Label.push now name v md ∉ ls

/-- The points of a name among the events. -/
def pointsOf (name : Str) : List (Event F) → List (Telemetry F)
  | [] => []
  | .telemetry t :: es => if t.name = name then t :: pointsOf name es else pointsOf name es
  | _ :: es => pointsOf name es

/-- The counters that are levels, not counts of things that happened. -/
def gauges : List String :=
  ["cernan.sinks.wavefront.aggregations.total_stored", "cernan.sinks.prometheus.aggregation.reportable"]

/-- Nothing writes to the static except by storing. -/
def OnlyStored (atom : String) (ls : List (Label F)) : Prop := ∀ n, Label.add atom n ∉ ls

/-- A gauge of a value, at a time. -/
def setPoint (name : Str) (v : Nat × Int) : Telemetry F :=
  { name := name, value := .set (F64.ofNat v.1), persist := false, tags := none, timestamp := v.2,
    overrideCount := none, overrideSampleSum := none }

/-- A sum over a count, at a time. -/
def sumPoint (name : Str) (v : Nat × Int) : Telemetry F :=
  { name := name, value := .sum (F64.ofNat v.1), persist := false, tags := none, timestamp := v.2,
    overrideCount := none, overrideSampleSum := none }

/-- Points pushed by hand: sums of the value with the given tags. -/
def pushed : List (Label F) → List (Telemetry F)
  | [] => []
  | .push now name v md :: ls =>
    md.foldl (fun acc kv => acc.overlayTag kv.1 kv.2)
      { name := name, value := .sum v, persist := false, tags := none, timestamp := now,
        overrideCount := none, overrideSampleSum := none } :: pushed ls
  | _ :: ls => pushed ls

/-- The name of a counter. -/
def CounterName (name : Str) : Prop := ∃ c ∈ counters, c.name.toList = name

instance (name : Str) : Decidable (CounterName name) :=
  inferInstanceAs (Decidable (∃ c ∈ counters, c.name.toList = name))

/-- The points among the events that do not bear the name of a counter. -/
def handMade : List (Event F) → List (Telemetry F)
  | [] => []
  | .telemetry t :: es => if CounterName t.name then handMade es else t :: handMade es
  | _ :: es => handMade es

end Verif.Internal
