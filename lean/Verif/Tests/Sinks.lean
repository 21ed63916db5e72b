import Verif.Tests.Buckets
import Verif.Model.Wavefront
import Verif.Model.Influxdb
import Verif.Model.Prometheus
/-!
# The unit tests of the Wavefront, InfluxDB and Prometheus sinks, run on the model

Each `example` is one `#[test]` of /repo with its inputs and its assertions.
-/
namespace Verif.Tests
open Wavefront (Pad PadControl padding)

/-- The hash of name, tags and kind used in the tests. -/
def kindHash (d : (Str × TagMap) × Kind) : Nat :=
  hash d.1 * 4 + match d.2 with | .sum => 0 | .set => 1 | .summarize => 2 | .histogram => 3

/-- What the sinks take from outside. -/
def ext : Wavefront.Ext Fix :=
  { nameTagHash := hash, hash := kindHash, cmp := fun a b => some (compare a.v b.v),
    showF := Fix.text, showI := Fix.intText, showN := Fix.natText }

/-- `Pad::is_zeroed`, compiled only for tests — src/sink/wavefront.rs:175-181 — and
`Telemetry::is_zeroed` — src/metric/telemetry.rs:830-838. -/
def isZeroed : Pad Fix → Bool
  | .zero _ _ => true
  | .telem t => match t.value with
    | .set x | .sum x => x = 0.0
    | .histogram h => F64.histCount h == 0
    | .quantiles c _ => F64.ckmsCount c == 0

/-- Pads all kinds, or none. -/
def allPads (b : Bool) : PadControl := ⟨b, b, b, b⟩

/-- `padding(bucket.iter(), 1, &last_seen, pad_control)` after the points have been added, with the
series of the first last seen at 10: which of the pads are zeroed, and their times. -/
def padded (pads : Bool) (pts : List (Option (Telemetry Fix))) : Option (List (Bool × Int)) := do
  let b ← adds 0 (.new 1) pts
  let its ← b.iter
  let m0 ← pts.head?.join
  some ((padding ext its 1 (fun h => if h = Wavefront.telemHash ext m0 then some 10 else none)
    (allPads pads)).map fun p => (isZeroed p, p.timestamp))

/-- `test_pad_across_flush` — src/sink/wavefront.rs:675-704, with the times given there in comments. -/
example : padded true [point "" 0.5 .set 100] = some [(true, 11), (true, 99), (false, 100)] := by
  decide +kernel

/-- `test_no_pad_across_flush` — src/sink/wavefront.rs:706-733. -/
example : padded false [point "" 0.5 .set 100] = some [(false, 100)] := by decide +kernel

/-- `test_pad_across_multiple_flush` — src/sink/wavefront.rs:735-792. -/
example : padded true [point "" 0.5 .set 0, point "" 0.5 .set 10, point "" 0.5 .set 11,
      point "" 0.5 .set 100] =
    some [(false, 0), (false, 10), (false, 11), (true, 12), (true, 99), (false, 100)] := by
  decide +kernel

/-- The tags of the sinks under test. -/
def sourceTags : TagMap := [("source".toList, "test-src".toList)]

/-- The points delivered in `test_format_wavefront` and `test_format_influxdb`. -/
def formatPoints : List (Option (Telemetry Fix)) :=
  [(point "test.counter" (-1.0) .sum 645181811).map
      (·.overlayTagsFromMap [("filter".toList, "test-filter-mod".toList)]),
   point "test.counter" 2.0 .sum 645181811,
   point "test.counter" 3.0 .sum 645181812,
   point "test.gauge" 3.211 .set 645181811,
   point "test.gauge" 4.322 .set 645181812,
   point "test.gauge" 5.433 .set 645181813,
   point "test.timer" 12.101 .summarize 645181811,
   point "test.timer" 1.101 .summarize 645181811,
   point "test.timer" 3.101 .summarize 645181811,
   point "test.raw" 1.0 .set 645181811,
   point "test.raw" 2.0 .set 645181812]

/-- The percentiles configured in the Wavefront tests. -/
def percentiles : List (Str × Fix) :=
  [("min".toList, 0.0), ("max".toList, 1.0), ("2".toList, 0.02), ("9".toList, 0.09),
   ("25".toList, 0.25), ("50".toList, 0.5), ("75".toList, 0.75), ("90".toList, 0.90),
   ("91".toList, 0.91), ("95".toList, 0.95), ("98".toList, 0.98), ("99".toList, 0.99),
   ("999".toList, 0.999)]

/-- A Wavefront sink as configured in the tests. -/
def wavefront (binWidth : Int) : Wavefront.State Fix :=
  .init binWidth percentiles none false (allPads true) sourceTags

/-- `format_retain_bin_width` — src/sink/wavefront.rs:964-1004. -/
example : ((wavefront 1024).formatStats ext 7).map (fun s => (s.binWidth, s.aggrs.binWidth)) =
    some (1024, 1024) := by decide +kernel

/-- Deliver points to a Wavefront sink. -/
def deliverAll (s : Wavefront.State Fix) : List (Option (Telemetry Fix)) → Option (Wavefront.State Fix)
  | [] => some s
  | none :: _ => none
  | some t :: ts => match s.deliver ext 7 t with
    | some s => deliverAll s ts
    | none => none

/-- The lines of a text. -/
def linesOf (s : Str) : List Str :=
  s.foldr (fun c acc => if c = '\n' then [] :: acc else match acc with
    | [] => [[c]]
    | l :: ls => (c :: l) :: ls) []

/-- `test_format_wavefront` — src/sink/wavefront.rs:1006-1186.  The mean here has nine decimals
(Rust prints `5.434333333333334`). -/
example :
    ((do let s ← deliverAll (wavefront 1) formatPoints
         let s ← s.formatStats ext 7
         let ls := linesOf s.stats
         some ([
            "test.counter -1 645181811 filter=test-filter-mod source=test-src",
            "test.counter 2 645181811 source=test-src",
            "test.counter 3 645181812 source=test-src",
            "test.gauge 3.211 645181811 source=test-src",
            "test.gauge 4.322 645181812 source=test-src",
            "test.gauge 5.433 645181813 source=test-src",
            "test.timer.min 1.101 645181811 source=test-src",
            "test.timer.max 12.101 645181811 source=test-src",
            "test.timer.2 1.101 645181811 source=test-src",
            "test.timer.9 1.101 645181811 source=test-src",
            "test.timer.25 1.101 645181811 source=test-src",
            "test.timer.50 3.101 645181811 source=test-src",
            "test.timer.75 3.101 645181811 source=test-src",
            "test.timer.90 12.101 645181811 source=test-src",
            "test.timer.91 12.101 645181811 source=test-src",
            "test.timer.95 12.101 645181811 source=test-src",
            "test.timer.98 12.101 645181811 source=test-src",
            "test.timer.99 12.101 645181811 source=test-src",
            "test.timer.999 12.101 645181811 source=test-src",
            "test.timer.count 3 645181811 source=test-src",
            "test.timer.mean 5.434333333 645181811 source=test-src",
            "test.raw 1 645181811 source=test-src"].filter fun l => !ls.contains l.toList)) :
      Option (List String)) = some [] := by decide +kernel

/-- `test_format_influxdb` — src/sink/influxdb.rs:306-461: all the lines, in order of delivery. -/
example :
    ((formatPoints.foldr (fun t ts => match t, ts with
        | some t, some ts => some (t :: ts)
        | _, _ => none) (some [])).bind fun pts =>
      (Influx.formatStats ext sourceTags
        (pts.foldl Influx.deliver (Influx.init sourceTags)).aggrs).map linesOf) =
    some ([
      "test.counter,filter=test-filter-mod,source=test-src value=-1 645181811000000000",
      "test.counter,source=test-src value=2 645181811000000000",
      "test.counter,source=test-src value=3 645181812000000000",
      "test.gauge,source=test-src value=3.211 645181811000000000",
      "test.gauge,source=test-src value=4.322 645181812000000000",
      "test.gauge,source=test-src value=5.433 645181813000000000",
      "test.timer.0.25,source=test-src value=12.101 645181811000000000",
      "test.timer.0.5,source=test-src value=12.101 645181811000000000",
      "test.timer.0.75,source=test-src value=12.101 645181811000000000",
      "test.timer.0.9,source=test-src value=12.101 645181811000000000",
      "test.timer.0.99,source=test-src value=12.101 645181811000000000",
      "test.timer.1,source=test-src value=12.101 645181811000000000",
      "test.timer.0.25,source=test-src value=1.101 645181811000000000",
      "test.timer.0.5,source=test-src value=1.101 645181811000000000",
      "test.timer.0.75,source=test-src value=1.101 645181811000000000",
      "test.timer.0.9,source=test-src value=1.101 645181811000000000",
      "test.timer.0.99,source=test-src value=1.101 645181811000000000",
      "test.timer.1,source=test-src value=1.101 645181811000000000",
      "test.timer.0.25,source=test-src value=3.101 645181811000000000",
      "test.timer.0.5,source=test-src value=3.101 645181811000000000",
      "test.timer.0.75,source=test-src value=3.101 645181811000000000",
      "test.timer.0.9,source=test-src value=3.101 645181811000000000",
      "test.timer.0.99,source=test-src value=3.101 645181811000000000",
      "test.timer.1,source=test-src value=3.101 645181811000000000",
      "test.raw,source=test-src value=1 645181811000000000",
      "test.raw,source=test-src value=2 645181812000000000"].map String.toList) := by
  decide +kernel

/-- What the Prometheus sink takes from outside. -/
def promExt : Prometheus.Ext Fix :=
  { max := ⟨10 ^ 300⟩, sub := fun a b => ⟨a.v - b.v⟩, showF := Fix.text, showN := Fix.natText }

/-- `test_write_tags` — src/sink/prometheus.rs:854-885. -/
example :
    (Prometheus.labelsText (tagIter none []).collect,
      Prometheus.labelsText (tagIter none [("custom-tag".toList, "custom-value".toList)]).collect,
      Prometheus.labelsText (tagIter (some [("custom-tag".toList, "custom-value".toList)]) sourceTags).collect) =
    ([], "{custom-tag=\"custom-value\"}".toList,
      "{custom-tag=\"custom-value\", source=\"test-src\"}".toList) := by decide +kernel

/-- `write_text` of a store of capacity one into which a point has been inserted. -/
def promText (defaults : TagMap) (t : Option (Telemetry Fix)) : Option (List Str) := do
  let t ← t
  let (a, _) ← (Prometheus.Aggr.new 1).insert promExt t
  let pts ← Prometheus.report 7 a.data
  let ls ← Prometheus.writeText promExt defaults [] pts
  some (linesOf (ls.flatMap (Prometheus.Line.text promExt)))

/-- `test_write_text` — src/sink/prometheus.rs:905-1028: an empty store, a counter with a tag of its own, a
gauge, a timer, a second gauge and a histogram.  The test sorts the lines; here they are in the
order in which they are written. -/
example :
    (Prometheus.report 7 ((Prometheus.Aggr.new 1 : Prometheus.Aggr Fix)).data).bind
      (Prometheus.writeText promExt sourceTags []) = some [] := by decide +kernel

example :
    promText sourceTags ((point "test.counter" (-1.0) .sum 5).map
      (·.overlayTagsFromMap [("custom-tag".toList, "custom-value".toList)])) =
    some (["# TYPE test_counter counter",
      "test_counter{custom-tag=\"custom-value\", source=\"test-src\"} -1"].map String.toList) := by
  decide +kernel

example : promText [] (point "test.gauge" 3.211 .set 5) =
    some (["# TYPE test_gauge gauge", "test_gauge 3.211"].map String.toList) := by decide +kernel

example : promText sourceTags (point "test.timer" 12.101 .summarize 5) =
    some (["# TYPE test_timer summary",
      "test_timer{quantile=\"0\", source=\"test-src\"} 12.101",
      "test_timer{quantile=\"1\", source=\"test-src\"} 12.101",
      "test_timer{quantile=\"0.25\", source=\"test-src\"} 12.101",
      "test_timer{quantile=\"0.5\", source=\"test-src\"} 12.101",
      "test_timer{quantile=\"0.75\", source=\"test-src\"} 12.101",
      "test_timer{quantile=\"0.9\", source=\"test-src\"} 12.101",
      "test_timer{quantile=\"0.95\", source=\"test-src\"} 12.101",
      "test_timer{quantile=\"0.99\", source=\"test-src\"} 12.101",
      "test_timer{quantile=\"0.999\", source=\"test-src\"} 12.101",
      "test_timer_sum{source=\"test-src\"} 12.101",
      "test_timer_count{source=\"test-src\"} 1"].map String.toList) := by decide +kernel

example : promText sourceTags (point "test.raw" 1.0 .set 5) =
    some (["# TYPE test_raw gauge", "test_raw{source=\"test-src\"} 1"].map String.toList) := by
  decide +kernel

example : promText sourceTags (point "test.histogram" 0.1 .histogram 5) =
    some (["# TYPE test_histogram histogram",
      "test_histogram{le=\"1\", source=\"test-src\"} 1",
      "test_histogram{le=\"10\", source=\"test-src\"} 1",
      "test_histogram{le=\"100\", source=\"test-src\"} 1",
      "test_histogram{le=\"1000\", source=\"test-src\"} 1",
      "test_histogram{le=\"+Inf\", source=\"test-src\"} 1",
      "test_histogram_sum{source=\"test-src\"} 0.1",
      "test_histogram_count{source=\"test-src\"} 1"].map String.toList) := by decide +kernel

end Verif.Tests
