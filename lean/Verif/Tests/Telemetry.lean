import Verif.Model.Order
import Verif.Tests.Fix
/-!
# The unit tests of src/metric/telemetry.rs, run on the model

Each `example` is one `#[test]` of /repo with its inputs and its assertions.  The QuickCheck
tests become statements for all inputs.
-/
namespace Verif.Tests

/-- The point of the first three tests. -/
def l6 : Option (Telemetry Fix) :=
  unwrap ((({ ({ soft "l6" 0.7913855 .histogram with error := some 0.01 } : SoftTelemetry Fix) with
    error := none } : SoftTelemetry Fix).setBounds [0.01, 1.0, 2.0, 4.0]).harden 0)

/-- `tag_iter_single` — src/metric/telemetry.rs:933-954. -/
example : l6.map (·.iterTags [("source".toList, "test-src".toList)]) =
    some [("source".toList, "test-src".toList)] := by decide +kernel

/-- `tag_iter_double` — src/metric/telemetry.rs:956-984. -/
example : l6.map (fun t => (t.overlayTagsFromMap [("filter".toList, "test-filter-mod".toList)]).iterTags
      [("source".toList, "test-src".toList)]) =
    some [("filter".toList, "test-filter-mod".toList), ("source".toList, "test-src".toList)] := by
  decide +kernel

/-- `set_bounds_no_crash` — src/metric/telemetry.rs:986-998. -/
example : l6.isSome = true := by decide +kernel

/-- the point the tests of the order compare -/
private def at_ (v : Fix) (k : Kind) (ts : Int) (persist : Bool := false) : Option (Telemetry Fix) :=
  (unwrap (({ soft "l6" v k with persist := persist } : SoftTelemetry Fix).harden 0)).map fun t => { t with timestamp := ts }

/-- `partial_ord_equal` — src/metric/telemetry.rs:1000-1018. -/
example : ((at_ 0.7913855 .sum 47).bind fun mc => (at_ 0.9683 .set 47).bind fun mg => mc.partialCmp mg) = some .eq := by
  decide +kernel

/-- `partial_ord_distinct` — src/metric/telemetry.rs:1020-1038. -/
example : ((at_ 0.7913855 .sum 7).bind fun mc => (at_ 0.9683 .set 47).bind fun mg => mc.partialCmp mg) = some .lt := by
  decide +kernel

/-- `partial_ord_gauges` — src/metric/telemetry.rs:1040-1060. -/
example : ((at_ 0.7913855 .set 47 true).bind fun mdg => (at_ 0.9683 .set 47).bind fun mg =>
    (mg.partialCmp mdg).bind fun x => (mdg.partialCmp mg).map fun y => (x, y)) = some (.eq, .eq) := by
  decide +kernel

/-- `test_metric_within` — src/metric/telemetry.rs:1115-1133, for every pair of points without
tags and every span, zero apart. -/
example (span : Int) (l r : Telemetry Fix) (hn : l.name = r.name)
    (hl : l.tags = none) (hr : r.tags = none) :
    l.within span r = compare (l.timestamp.tdiv span) (r.timestamp.tdiv span) := by
  have h : ∀ s : Str, cmpStr s s = .eq := by
    intro s
    induction s with
    | nil => rfl
    | cons c s ih => simp [cmpStr, ih]
  simp [Telemetry.within, hn, h, hl, hr, cmpTagmap]

/-- `test_metric_add_assign` — src/metric/telemetry.rs:1135-1185 — for every pair of values and
the two kinds whose value does not pass through a sketch. -/
example (l r : Fix) :
    ((do let a ← unwrap ((soft "foo" l .set).harden 0)
         let b ← unwrap ((soft "foo" r .set).harden 0)
         value (a.addAssign b)) = some r) ∧
    ((do let a ← unwrap ((soft "foo" l .sum).harden 0)
         let b ← unwrap ((soft "foo" r .sum).harden 0)
         value (a.addAssign b)) = some ⟨l.v + r.v⟩) := ⟨rfl, rfl⟩

/-- The same test, for sketches, on a pair of values. -/
example :
    ((do let a ← unwrap ((soft "foo" 3.5 .summarize).harden 0)
         let b ← unwrap ((soft "foo" 1.25 .summarize).harden 0)
         value (a.addAssign b)) = some 3.5) ∧
    ((do let a ← unwrap ((soft "foo" 3.5 .histogram).harden 0)
         let b ← unwrap ((soft "foo" 1.25 .histogram).harden 0)
         value (a.addAssign b)) = some 4.75) := by decide +kernel

/-- `test_negative_timer` — src/metric/telemetry.rs:1187-1199. -/
example : (unwrap ((soft "timer" (-1.0) .summarize).harden 0)).map (fun m => (m.kind, m.query 1.0, m.name)) =
    some (.summarize, some (-1.0), "timer".toList) := by decide +kernel

/-- `test_postive_delta_gauge` — src/metric/telemetry.rs:1201-1214. -/
example : (unwrap (({ soft "dgauge" 1.0 .set with persist := some true } : SoftTelemetry Fix).harden 0)).map
      (fun m => (m.kind, value m, m.name)) =
    some (.set, some 1.0, "dgauge".toList) := by decide +kernel

end Verif.Tests
