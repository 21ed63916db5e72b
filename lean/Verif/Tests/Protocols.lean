import Verif.Tests.Fix
import Verif.Model.Statsd
import Verif.Model.Graphite
/-!
# The unit tests of src/protocols, run on the model

Each `example` is one `#[test]` of /repo with its inputs and its assertions.
-/
namespace Verif.Tests
open Statsd (parseStatsd Verdict)

/-- `StatsdParseConfig::default()` — src/source/statsd.rs:49-56. -/
def statsdConfig : Statsd.Config Fix := { summarizeErrorBound := 0.01, parseF := Fix.parse }

/-- What the tests look at: the verdict, and kind, name, persistence and value of the points. -/
def statsd (s : String) : Verdict × List (Kind × Str × Bool × Option Fix) :=
  let (v, res) := parseStatsd statsdConfig 7 s.toList []
  (v, res.map fun t => (t.kind, t.name, t.persist, value t))

/-- `test_counter` — src/protocols/statsd.rs:358-381. -/
example : statsd "a.b:3.1|c\na-b:4|c|@0.1\na-b:5.2|c@0.2\n" =
    (.accepted, [(.sum, "a.b".toList, false, some 3.1), (.sum, "a-b".toList, false, some 40.0),
      (.sum, "a-b".toList, false, some 26.0)]) := by decide +kernel

/-- `test_parse_negative_timer` — src/protocols/statsd.rs:383-394. -/
example : statsd "fst:-1.1|ms\n" =
    (.accepted, [(.summarize, "fst".toList, false, some (-1.1))]) := by decide +kernel

/-- `test_metric_equal_in_name` — src/protocols/statsd.rs:396-407. -/
example : statsd "A=:1|ms\n" = (.accepted, [(.summarize, "A=".toList, false, some 1.0)]) := by
  decide +kernel

/-- `test_metric_slash_in_name` — src/protocols/statsd.rs:409-420. -/
example : statsd "A/:1|ms\n" = (.accepted, [(.summarize, "A/".toList, false, some 1.0)]) := by
  decide +kernel

/-- `test_metric_sample_gauge` — src/protocols/statsd.rs:422-453. -/
example : statsd "foo:1|g|@+0.22\nbar:101|g|@2\nbaz:2|g@0.2\nqux:4|g@0.1" =
    (.accepted, [
      (.set, "foo".toList, true, some (F64.mul (1.0 : Fix) (F64.div (1.0 : Fix) (0.22 : Fix)))),
      (.set, "bar".toList, true, some (F64.mul (101.0 : Fix) (F64.div (1.0 : Fix) (2.0 : Fix)))),
      (.set, "baz".toList, true, some (F64.mul (2.0 : Fix) (F64.div (1.0 : Fix) (0.2 : Fix)))),
      (.set, "qux".toList, true, some (F64.mul (4.0 : Fix) (F64.div (1.0 : Fix) (0.1 : Fix))))]) := by
  decide +kernel

/-- `test_metric_parse_invalid_no_name` — src/protocols/statsd.rs:455-461,
`test_metric_parse_invalid_no_value` — src/protocols/statsd.rs:463-469, and
`test_metric_invalid` — src/protocols/statsd.rs:552-573. -/
example : ∀ s ∈ ["", "foo:", "", "metric", "metric|11:", "metric|12", "metric:13|", ":|@", ":1.0|c"],
    (statsd s).1 = .rejected := by decide +kernel

/-- `test_metric_multiple` — src/protocols/statsd.rs:471-493, and
`test_metric_optional_final_newline` — src/protocols/statsd.rs:495-517. -/
example :
    statsd "a.b:12.1|g\nb_c:13.2|c\n" =
      (.accepted, [(.set, "a.b".toList, true, some 12.1), (.sum, "b_c".toList, false, some 13.2)]) ∧
    statsd "a.b:12.1|g\nb_c:13.2|c" =
      (.accepted, [(.set, "a.b".toList, true, some 12.1), (.sum, "b_c".toList, false, some 13.2)]) := by
  constructor <;> decide +kernel

/-- `test_solo_negative_gauge_as_ephemeral_set` — src/protocols/statsd.rs:519-531. -/
example : statsd "zrth:-1|g\n" = (.accepted, [(.sum, "zrth".toList, true, some (-1.0))]) := by
  decide +kernel

/-- `test_multi_gauge_as_persist_sum` — src/protocols/statsd.rs:533-550. -/
example : statsd "zrth:0|g\nzrth:-1|g\n" =
    (.accepted, [(.set, "zrth".toList, true, some 0.0), (.sum, "zrth".toList, true, some (-1.0))]) := by
  decide +kernel

/-- `test_parse_metric_via_api` — src/protocols/statsd.rs:575-623. -/
example : statsd ("zrth:0|g\nfst:-1.1|ms\nsnd:+2.2|g\nthd:3.3|h\nfth:4|c\nfvth:5.5|c|@0.1\n" ++
      "sxth:-6.6|g\nsvth:+7.77|g\n") =
    (.accepted, [(.set, "zrth".toList, true, some 0.0), (.summarize, "fst".toList, false, some (-1.1)),
      (.sum, "snd".toList, true, some 2.2), (.summarize, "thd".toList, false, some 3.3),
      (.sum, "fth".toList, false, some 4.0), (.sum, "fvth".toList, false, some 55.0),
      (.sum, "sxth".toList, true, some (-6.6)), (.sum, "svth".toList, true, some 7.77)]) := by
  decide +kernel

/-- What the graphite parser calls. -/
def graphiteExt : Graphite.Ext Fix :=
  { parseF := Fix.parse, parseI := fun s => (Fix.parseNat s).map Int.ofNat,
    isSpace := fun c => c.isWhitespace }

/-- `test_parse_graphite` — src/protocols/graphite.rs:56-92. -/
example :
    (let (v, res) := Graphite.parseGraphite graphiteExt 7
        "fst 1 101\nsnd -2.0 202\nthr 3 303\nfth@fth 4 404\nfv%fv 5 505\ns-th 6 606\n".toList []
     (v, res.map fun t => (t.kind, t.name, value t, t.timestamp))) =
    (.accepted, [(.set, "fst".toList, some 1.0, 101), (.set, "snd".toList, some (-2.0), 202),
      (.set, "thr".toList, some 3.0, 303), (.set, "fth@fth".toList, some 4.0, 404),
      (.set, "fv%fv".toList, some 5.0, 505), (.set, "s-th".toList, some 6.0, 606)]) := by
  decide +kernel

end Verif.Tests
