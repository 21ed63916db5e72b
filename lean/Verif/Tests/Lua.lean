import Verif.Tests.Fix
import Verif.Model.Lua
/-!
# The integration tests of the programmable filter, run on the model

Each `example` is one `#[test]` of tests/programmable_filter.rs.  The scripts of
/repo/resources/tests/scripts are written out as the calls of the payload library that they make.
`test_parse_json_add_fields` is left out: its script is a JSON parser in Lua.
-/
namespace Verif.Tests.Lua
open Verif.Lua

/-- Lua's conversions: a number is a whole number of billionths, a string that is no number counts
as 0. -/
def conv : Conv Fix where
  toInteger v := match v with
    | .num x => x.v / Fix.one
    | _ => 0
  toNumber v := match v with
    | .num x => x
    | _ => 0
  toStr v := match v with
    | .str s => some s
    | .num x => some x.text
    | _ => none

/-- A script: its functions, over the value of its one global variable. -/
abbrev Fns := Functions Fix Fix

/-- A whole call of `process` at time 7, with the configuration of the tests: no global tags. -/
def process (path : String) (fns : Fns) (s : Programmable Fix Fix) (e : Event Fix) :
    Programmable Fix Fix × List (Event Fix) × Except (Event Fix) Unit :=
  programmableProcess
    (fun l fn p => (callFn fns id conv ⟨[], path.toList⟩ (fun _ => 7) l fn p).getD (l, .error))
    (fun _ => .shutdown) 7 s e []

/-- What is left of the result: the events and whether the call succeeded. -/
def out (r : Programmable Fix Fix × List (Event Fix) × Except (Event Fix) Unit) : List (Event Fix) × Bool :=
  (r.2.1, match r.2.2 with | .ok _ => true | .error _ => false)

/-- A script without side effects on its global variable: what it does to metrics and to logs. -/
def script (metric log : Prog Fix Fix) : Fns := fun l fn => match fn with
  | .processMetric => some metric
  | .processLog => some log
  | .tick => some (.done l)

/-- `Telemetry::new().name(..).value(12.0).kind(Set).harden().unwrap()` with tags, at time 7. -/
def metric (name : String) (tags : List (String × String)) : Telemetry Fix :=
  let t := tags.foldl (fun s kv => (insertTag s kv.1.toList kv.2.toList).1) none
  { name := name.toList, value := .set 12.0, persist := false, tags := t, timestamp := 7, overrideCount := none, overrideSampleSum := none }

/-- What the tests start from is what `harden` yields. -/
example (name : String) : unwrap ((soft name 12.0 .set).harden 7) = some (metric name []) := rfl

/-- `LogLine::new(..)` with tags, at time 7. -/
def log (value : String) (tags : List (String × String)) : LogLine :=
  { LogLine.new 7 "identity".toList value.toList with tags := tags.foldl (fun s kv => (insertTag s kv.1.toList kv.2.toList).1) none }

/-- The line of most tests. -/
def general : String := "i am the very model of the modern major general"

/-- A script's argument. -/
def s (x : String) : Val Fix := .str x.toList

/-- `test_id_filter` — tests/programmable_filter.rs:13-45. -/
example :
    let e : Event Fix := .telemetry (metric "identity" [("foo", "bar"), ("bizz", "bazz")])
    out (process "filters.identity" (script (.done 0) (.done 0)) ⟨0, 0, []⟩ e) = ([e], true) := rfl

/-- `test_clear_metrics_filter` — tests/programmable_filter.rs:47-77. -/
example :
    let e : Event Fix := .telemetry (metric "clear_me" [("foo", "bar"), ("bizz", "bazz")])
    out (process "filters.clear_metrics" (script (.call .clearMetrics fun _ => .done 0) (.done 0)) ⟨0, 0, []⟩ e) =
      ([], true) := rfl

/-- `test_clear_logs_filter` — tests/programmable_filter.rs:79-107. -/
example :
    let e : Event Fix := .log (log general [("foo", "bar"), ("bizz", "bazz")])
    out (process "filters.clear_logs" (script (.done 0) (.call .clearLogs fun _ => .done 0)) ⟨0, 0, []⟩ e) =
      ([], true) := rfl

/-- resources/tests/scripts/remove_keys.lua -/
def removeKeys : Fns :=
  script (.call (.metricRemoveTag (.num 1) (s "bizz")) fun _ => .done 0)
    (.call (.logRemoveTag (.num 1) (s "bizz")) fun _ => .done 0)

/-- `test_remove_log_tag_kv` — tests/programmable_filter.rs:109-146. -/
example :
    out (process "filters.remove_keys" removeKeys ⟨0, 0, []⟩ (.log (log general [("foo", "bar"), ("bizz", "bazz")]))) =
      ([.log (log general [("foo", "bar")])], true) := rfl

/-- `test_get_log_path` — tests/programmable_filter.rs:148-183. -/
example :
    let fns := script (.done 0) (.call (.logPath (.num 1)) fun r => match r with
      | .str p => .call (.logSetField (.num 1) (s "foo") (.str p)) fun _ => .done 0
      | _ => .error 0)
    out (process "filters.field_from_path" fns ⟨0, 0, []⟩ (.log (log general []))) =
      ([.log { log general [] with fields := [("foo".toList, "identity".toList)] }], true) := rfl

/-- `test_set_log_value` — tests/programmable_filter.rs:185-215. -/
example :
    let fns := script (.done 0) (.call (.logSetValue (.num 1) (s "foo")) fun _ => .done 0)
    out (process "filters.set_value" fns ⟨0, 0, []⟩ (.log (log general []))) =
      ([.log (log "foo" [])], true) := rfl

/-- `test_remove_metric_tag_kv` — tests/programmable_filter.rs:217-250. -/
example :
    out (process "filters.remove_keys" removeKeys ⟨0, 0, []⟩
      (.telemetry (metric "identity" [("foo", "bar"), ("bizz", "bazz")]))) =
      ([.telemetry (metric "identity" [("foo", "bar")])], true) := rfl

/-- `test_insufficient_args_no_crash` — tests/programmable_filter.rs:252-285. -/
example :
    let fns := script (.call (.metricRemoveTag (.num 1) .nil) fun _ => .done 0) (.done 0)
    let e : Event Fix := .telemetry (metric "identity" [("foo", "bar"), ("bizz", "bazz")])
    out (process "filters.no_args_no_crash" fns ⟨0, 0, []⟩ e) = ([e], true) := rfl

/-- resources/tests/scripts/missing_func.lua -/
def missingFunc : Fns := fun l fn => match fn with
  | .processMetric => none
  | _ => some (.done l)

/-- `test_missing_func` — tests/programmable_filter.rs:287-318. -/
example :
    out (process "filters.missing_func" missingFunc ⟨0, 0, []⟩
      (.telemetry (metric "identity" [("foo", "bar"), ("bizz", "bazz")]))) = ([], false) := rfl

/-- `test_lua_error` — tests/programmable_filter.rs:320-351. -/
example :
    out (process "filters.lua_error" (script (.error 0) (.done 0)) ⟨0, 0, []⟩
      (.telemetry (metric "identity" [("foo", "bar"), ("bizz", "bazz")]))) = ([], false) := rfl

/-- resources/tests/scripts/add_keys.lua; demonstrate_require.lua does the same to logs. -/
def addKeys : Fns :=
  script (.call (.metricSetTag (.num 1) (s "bizz") (s "bazz")) fun _ => .done 0)
    (.call (.logSetTag (.num 1) (s "bizz") (s "bazz")) fun _ => .done 0)

/-- `test_demo_require` — tests/programmable_filter.rs:353-390, and
`test_add_log_tag_kv` — tests/programmable_filter.rs:392-429. -/
example :
    out (process "filters.add_keys" addKeys ⟨0, 0, []⟩ (.log (log general [("foo", "bar")]))) =
      ([.log (log general [("foo", "bar"), ("bizz", "bazz")])], true) := rfl

/-- `test_add_metric_tag_kv` — tests/programmable_filter.rs:431-464. -/
example :
    out (process "filters.add_keys" addKeys ⟨0, 0, []⟩ (.telemetry (metric "identity" [("foo", "bar")]))) =
      ([.telemetry (metric "identity" [("foo", "bar"), ("bizz", "bazz")])], true) := rfl

/-- resources/tests/scripts/keep_count.lua -/
def keepCount : Fns := fun l fn => match fn with
  | .processMetric => some (.done (F64.add l 1))
  | .processLog => some (.done (F64.add l 1))
  | .tick => some (.call (.pushMetric (s "count_per_tick") (.num l)) fun _ =>
      .call (.pushLog (.str ("count_per_tick: ".toList ++ l.text))) fun _ => .done 0)

/-- The filter after a few events. -/
def after (path : String) (fns : Fns) (s : Programmable Fix Fix) (es : List (Event Fix)) : Programmable Fix Fix :=
  es.foldl (fun s e => (process path fns s e).1) s

/-- Three metrics and two logs. -/
def firstFive : List (Event Fix) :=
  [.telemetry (metric "identity" []), .telemetry (metric "identity" []), .telemetry (metric "identity" []),
    .log (log "a log line" []), .log (log "another" [])]

/-- What the script emits at a tick: log, metric, flush. -/
def counted (n : Fix) (line : String) (idx : Nat) : List (Event Fix) :=
  [.log (LogLine.new 7 "filters.keep_count".toList line.toList),
    .telemetry { metric "count_per_tick" [] with value := .set n }, .timerFlush idx]

/-- `test_tick_keeps_counts` — tests/programmable_filter.rs:466-576 (first flush). -/
example :
    out (process "filters.keep_count" keepCount (after "filters.keep_count" keepCount ⟨0, 0, []⟩ firstFive) (.timerFlush 1)) =
      (counted 5.0 "count_per_tick: 5" 1, true) := by rfl

/-- `test_tick_keeps_counts` — tests/programmable_filter.rs:466-576 (second flush). -/
example :
    out (process "filters.keep_count" keepCount (after "filters.keep_count" keepCount ⟨0, 0, []⟩
      (firstFive ++ [.timerFlush 1, .log (log "more" []), .log (log "less" [])])) (.timerFlush 2)) =
      (counted 2.0 "count_per_tick: 2" 2, true) := by rfl

/-- `string.match(name, "^(collectd)[%.@][%w_-]+(.*)")`: the two groups, joined. -/
def scrub (name : Str) : Option Str :=
  if "collectd".toList.isPrefixOf name then
    match name.drop 8 with
    | c :: rest =>
      let host := rest.takeWhile fun c => c.isAlphanum || c == '_' || c == '-'
      if (c = '.' ∨ c = '@') ∧ host ≠ [] then
        some ("collectd".toList ++ rest.dropWhile fun c => c.isAlphanum || c == '_' || c == '-')
      else none
    | [] => none
  else none

/-- resources/tests/scripts/collectd_scrub.lua -/
def collectdScrub : Fns :=
  script (.call (.metricName (.num 1)) fun r => match r with
    | .str name => match scrub name with
      | some n => .call (.setMetricName (.num 1) (.str n)) fun _ => .done 0
      | none => .done 0
    | _ => .error 0) (.done 0)

/-- `test_collectd_non_ip_extraction` — tests/programmable_filter.rs:578-623. -/
example :
    out (process "filters.collectd_scrub" collectdScrub ⟨0, 0, []⟩ (.telemetry
      (metric "collectd.cernan-llrv-prod-b3fbb697.protocols-TcpExt.protocol_counter-TCPFastOpenActive" []))) =
      ([.telemetry (metric "collectd.protocols-TcpExt.protocol_counter-TCPFastOpenActive" [])], true) := by rfl

/-- `test_non_collectd_extraction` — tests/programmable_filter.rs:625-668. -/
example :
    out (process "filters.collectd_scrub" collectdScrub ⟨0, 0, []⟩ (.telemetry
      (metric "totally_fine.interface-lo.if_errors.tx 0 1478751126" []))) =
      ([.telemetry (metric "totally_fine.interface-lo.if_errors.tx 0 1478751126" [])], true) := by rfl

end Verif.Tests.Lua
