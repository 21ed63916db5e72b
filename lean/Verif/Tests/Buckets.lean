import Verif.Tests.Fix
import Verif.Model.Buckets
/-!
# The unit tests of src/buckets.rs, run on the model

Each `example` is one `#[test]` of /repo with its inputs and its assertions.  The clock is a
parameter: `now` stands for `time::now()`.  The QuickCheck tests are theorems instead, for every
input: `unique_names_preserved`, `same_names_in_and_out` and `correct_bin_count` by
`C104_occupied_bins` (with `C08_bucket_bookkeeping`), `test_reset_clears_space` and
`test_reset_clears_not_all_space_if_persistent` by `C104_reset_extremes`,
`test_reset_maintains_persist` by `C104_reset_reset` and `C12_reset_keeps_persistent`,
`variable_size_bins` and `test_all_insertions` by `C104_store_is_collection`.
-/
namespace Verif.Tests

/-- `buckets.add` for a list of points that may have failed to be built. -/
def adds (now : Int) (b : Buckets Fix) : List (Option (Telemetry Fix)) → Option (Buckets Fix)
  | [] => some b
  | none :: _ => none
  | some t :: ts => match b.add hash now t with
    | some b => adds now b ts
    | none => none

/-- `Buckets::get`, compiled only for tests — src/buckets.rs:180-187 — of the series with a name
and tags. -/
def get (b : Buckets Fix) (name : String) (tags : TagMap := []) : List (Telemetry Fix) :=
  match b.keys.idxOf? (hash (name.toList, tags)) with
  | some i => b.values[i]?.getD []
  | none => []

/-- The store of the next test: what has been added before the first reset. -/
def fitness : Option (Buckets Fix) :=
  adds 50 (.new 1) [point "lO" 1.0 .set 0, point "lO" 2.0 .sum 1 true]

/-- `fitness_for_statsd_gauge` — src/buckets.rs:240-309: before the reset, after it, and once the last
point has been added. -/
example :
    (fitness.map fun b => (get b "lO").map fun t => (t.timestamp, t.set, t.sum)) =
      some [(0, some 1.0, none), (1, none, some 3.0)] ∧
    (fitness.map fun b => (b.reset 50).isEmpty) = some false ∧
    (do let b ← fitness
        let b' ← adds 50 (b.reset 50) [point "lO" 0.0 .set 50]
        some ((get b' "lO").map (·.set), (b'.reset 51).isEmpty)) = some ([some 0.0], true) := by
  decide +kernel

/-- `raw_test_variable` — src/buckets.rs:311-348. -/
example :
    (do let b ← adds 0 (.new 66) [point "lO" 0.807 .set 18, point "lO" 0.361 .set 75,
          point "lO" 0.291 .set 42]
        (get b "lO")[0]?.map fun t => (t.timestamp, value t)) = some (18, some 0.291) := by
  decide +kernel

/-- `test_gauge_small_bin_width` — src/buckets.rs:350-384. -/
example :
    (do let b ← adds 0 (.new 1) [point "lO" 3.211 .set 645181811, point "lO" 4.322 .set 645181812,
          point "lO" 5.433 .set 645181813]
        some (get b "lO").length) = some 3 := by decide +kernel

/-- `test_add_gauge_metric_distinct_tags` — src/buckets.rs:457-481. -/
example :
    (do let b ← adds 0 (.new 1)
          [(point "some.metric" 1.0 .set 10).map (·.overlayTag "foo".toList "bar".toList),
           (point "some.metric" 1.0 .set 10).map (·.overlayTag "foo".toList "bingo".toList)]
        some b.count) = some 2 := by decide +kernel

/-- `test_add_counter_metric` — src/buckets.rs:483-502. -/
example :
    (do let b ← adds 5 (.new 1) [point "some.metric" 1.0 .sum 5]
        let b' ← adds 5 b [point "some.metric" 1.0 .sum 5]
        some ((get b "some.metric").map value, (get b' "some.metric").map value, b'.count)) =
    some ([some 1.0], [some 2.0], 1) := by decide +kernel

/-- `test_reset_add_counter_metric` — src/buckets.rs:504-528. -/
example :
    (do let b ← adds 5 (.new 1) [point "some.metric" 1.0 .sum 101, point "some.metric" 1.0 .sum 101]
        some ((get b "some.metric").map value, b.count, (b.reset 6).isEmpty)) =
    some ([some 2.0], 1, true) := by decide +kernel

/-- `test_true_histogram` — src/buckets.rs:530-595. -/
example :
    (do let b ← adds 5 (.new 1) [point "some.metric" 1.0 .summarize 844683071,
          point "some.metric" 2.0 .summarize 844683072, point "some.metric" 3.0 .summarize 844683073]
        some ((get b "some.metric").map fun t => (t.count, t.query 1.0, t.query 0.0))) =
    some [(1, some 1.0, some 1.0), (1, some 2.0, some 2.0), (1, some 3.0, some 3.0)] := by
  decide +kernel

/-- `test_add_histogram_metric_reset` — src/buckets.rs:597-610 (and `test_add_timer_metric_reset` —
src/buckets.rs, which is the same). -/
example :
    (do let b ← adds 5 (.new 1) [point "some.metric" 1.0 .summarize 5]
        some (b.isEmpty, (b.reset 6).isEmpty)) = some (false, true) := by decide +kernel

/-- `test_add_gauge_metric` — src/buckets.rs:627-641. -/
example :
    (do let b ← adds 5 (.new 1) [point "some.metric" 11.5 .set 5]
        some ((get b "some.metric").map value, b.count)) = some ([some 11.5], 1) := by decide +kernel

/-- `test_add_delta_gauge_metric` — src/buckets.rs:643-673. -/
example :
    (do let b ← adds 5 (.new 1) [point "some.metric" 100.0 .set 0,
          point "some.metric" (-11.5) .sum 0 true]
        some ((get b "some.metric").map value, b.count, (b.reset 6).count)) =
    some ([some 88.5], 1, 1) := by decide +kernel

/-- `test_reset_add_delta_gauge_metric` — src/buckets.rs:675-704. -/
example :
    (do let b ← adds 5 (.new 1) [point "some.metric" 100.0 .set 5,
          point "some.metric" (-11.5) .sum 5 true, point "some.metric" 2007.3 .set 5]
        some ((get b "some.metric").map value, b.count)) = some ([some 2007.3], 1) := by
  decide +kernel

/-- `test_add_timer_metric` — src/buckets.rs:706-736. -/
example :
    (do let b ← adds 5 (.new 1) [point "some.metric" 11.5 .summarize 5]
        let b' ← adds 5 b [point "some.metric" 99.5 .summarize 5, point "other.metric" 811.5 .summarize 5]
        some ((get b "some.metric").map (·.query 0.0), (get b' "other.metric").map (·.query 0.0))) =
    some ([some 11.5], [some 811.5]) := by decide +kernel

/-- `test_raws_store_one_point_per_second` — src/buckets.rs:738-789. -/
example :
    (do let b ← adds 5 (.new 1) [point "some.metric" 1.0 .set 1473766200,
          point "some.metric" 2.0 .set 1473766200, point "some.metric" 3.0 .set 1473766200,
          point "some.metric" 4.0 .set 1473766201]
        some ((get b "some.metric").map fun t => (t.timestamp, value t))) =
    some [(1473766200, some 3.0), (1473766201, some 4.0)] := by decide +kernel

/-- `test_gauge_insertion` — src/buckets.rs:944-965, and `test_counter_insertion` — src/buckets.rs:967-988. -/
example :
    ([Kind.set, Kind.sum].map fun k => do
        let m0 ← point "test.gauge_0" 1.0 k 5
        let m1 ← point "test.gauge_1" 1.0 k 5
        let b ← adds 5 (.new 1) [some m0, some m1]
        some (decide ((get b "test.gauge_0")[0]? = some m0) &&
          decide ((get b "test.gauge_1")[0]? = some m1))) = [some true, some true] := by decide +kernel

end Verif.Tests
