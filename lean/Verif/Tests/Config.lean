import Verif.Tests.Fix
import Verif.Model.Config
/-!
# The unit tests of the configuration loader, run on the model

Each `example` is an assertion of one `#[test]` of src/config.rs.  The TOML text of the test is
given as the value it parses to; tables iterate in the order of their keys (`toml` keeps them in a
`BTreeMap`).
-/
namespace Verif.Tests.Config
open Verif.Config

/-- The outside world of the tests: nothing in the environment, any mask is a regular expression. -/
def world : Ext Fix where
  env _ := none
  ticks f := (f.v * 100 / Fix.one).toNat
  showFloat := Fix.text
  quote s := '"' :: s ++ ['"']
  join dir p := if dir.getLast? = some '/' then dir ++ p else dir ++ '/' :: p
  regexOk _ := true
  percentiles := []
  hundredth := 0.01

/-- `f` of the `Args` that a configuration yields; `none` if the loader stops. -/
def loaded {α : Type} (cfg : Toml Fix) (f : Args Fix → α) : Option α :=
  (parse world cfg).toOption.map f

/-- The configuration of `config_file_data_directory` — src/config.rs:1143-1152. -/
def cfg_config_file_data_directory : Toml Fix :=
  .table [("data-directory".toList, .str "/foo/bar".toList)]

/-- `config_file_data_directory` — src/config.rs:1143-1152. -/
example : loaded cfg_config_file_data_directory (fun a => a.dataDirectory) =
    some ("/foo/bar".toList) := by decide +kernel

/-- The configuration of `config_max_hopper_queue_bytes` — src/config.rs:1154-1165. -/
def cfg_config_max_hopper_queue_bytes : Toml Fix :=
  .table [("max-hopper-in-memory-bytes".toList, .int 4048), ("max-hopper-queue-bytes".toList, .int 10), ("max-hopper-queue-files".toList, .int 1024)]

/-- `config_max_hopper_queue_bytes` — src/config.rs:1154-1165. -/
example : loaded cfg_config_max_hopper_queue_bytes (fun a => (a.queueBytes, a.queueFiles, a.inMemoryBytes)) =
    some ((10, 1024, 4048)) := by decide +kernel

/-- The configuration of `config_file_data_directory_default` — src/config.rs:1167-1174. -/
def cfg_config_file_data_directory_default : Toml Fix :=
  .table []

/-- `config_file_data_directory_default` — src/config.rs:1167-1174. -/
example : loaded cfg_config_file_data_directory_default (fun a => a.dataDirectory) =
    some ("/tmp/cernan-data".toList) := by decide +kernel

/-- The configuration of `config_file_scripts_directory` — src/config.rs:1176-1185. -/
def cfg_config_file_scripts_directory : Toml Fix :=
  .table [("scripts-directory".toList, .str "/foo/bar".toList)]

/-- `config_file_scripts_directory` — src/config.rs:1176-1185. -/
example : loaded cfg_config_file_scripts_directory (fun a => a.scriptsDirectory) =
    some ("/foo/bar".toList) := by decide +kernel

/-- The configuration of `config_file_scripts_directory_default` — src/config.rs:1187-1194. -/
def cfg_config_file_scripts_directory_default : Toml Fix :=
  .table []

/-- `config_file_scripts_directory_default` — src/config.rs:1187-1194. -/
example : loaded cfg_config_file_scripts_directory_default (fun a => a.scriptsDirectory) =
    some ("/tmp/cernan-scripts".toList) := by decide +kernel

/-- The configuration of `config_fed_receiver_sources_style` — src/config.rs:1196-1221. -/
def cfg_config_fed_receiver_sources_style : Toml Fix :=
  .table [("sources".toList, .table [("native".toList, .table [("lower".toList, .table [("ip".toList, .str "127.0.0.1".toList), ("port".toList, .int 1972)]), ("upper".toList, .table [("enabled".toList, .bool false), ("ip".toList, .str "127.0.0.1".toList), ("port".toList, .int 1973)])])])]

/-- `config_fed_receiver_sources_style` — src/config.rs:1196-1221. -/
example : loaded cfg_config_fed_receiver_sources_style (fun a => a.natives) =
    some ([{ path := "sources.native.lower".toList, port := 1972, host := "127.0.0.1".toList, forwards := [] }]) := by decide +kernel

/-- The configuration of `config_internal_source` — src/config.rs:1223-1241. -/
def cfg_config_internal_source : Toml Fix :=
  .table [("sources".toList, .table [("internal".toList, .table [("forwards".toList, .array [.str "sinks.console".toList, .str "sinks.null".toList])])])]

/-- `config_internal_source` — src/config.rs:1223-1241. -/
example : loaded cfg_config_internal_source (fun a => a.internalForwards) =
    some (["sinks.console".toList, "sinks.null".toList]) := by decide +kernel

/-- The configuration of `config_elasticsearch_sink` — src/config.rs:1243-1267. -/
def cfg_config_elasticsearch_sink : Toml Fix :=
  .table [("sinks".toList, .table [("elasticsearch".toList, .table [("delivery_attempt_limit".toList, .int 33), ("flush_interval".toList, .int 2020), ("host".toList, .str "example.com".toList), ("index-prefix".toList, .str "prefix-".toList), ("port".toList, .int 1234), ("secure".toList, .bool true)])])]

/-- `config_elasticsearch_sink` — src/config.rs:1243-1267. -/
example : loaded cfg_config_elasticsearch_sink (fun a => a.elasticsearch.map fun e => (e.port, e.host, e.indexPrefix)) =
    some (some (1234, "example.com".toList, some "prefix-".toList)) := by decide +kernel

/-- `config_elasticsearch_sink` — src/config.rs:1243-1267. -/
example : loaded cfg_config_elasticsearch_sink (fun a => a.elasticsearch.map fun e => (e.secure, e.flushInterval, e.deliveryAttemptLimit)) =
    some (some (true, 2020 * 100, 33)) := by decide +kernel

/-- The configuration of `config_kafka_sink` — src/config.rs:1269-1309. -/
def cfg_config_kafka_sink : Toml Fix :=
  .table [("sinks".toList, .table [("kafka".toList, .table [("one".toList, .table [("brokers".toList, .str "127.0.0.1:9092".toList), ("flush_interval".toList, .int 100), ("librdkafka".toList, .table [("setting.four.five".toList, .float 4.5), ("setting.one".toList, .int 1), ("setting.seven".toList, .bool false), ("setting.six".toList, .bool true), ("setting.three".toList, .str "three".toList), ("setting.two".toList, .int 2)]), ("max_message_bytes".toList, .int 65), ("topic".toList, .str "foobar".toList)])])])]

/-- `config_kafka_sink` — src/config.rs:1269-1309. -/
example : loaded cfg_config_kafka_sink (fun a => a.kafkas.map fun k => (k.topic, k.brokers)) =
    some ([("foobar".toList, "127.0.0.1:9092".toList)]) := by decide +kernel

/-- `config_kafka_sink` — src/config.rs:1269-1309. -/
example : loaded cfg_config_kafka_sink (fun a => a.kafkas.map fun k => (k.maxMessageBytes, k.flushInterval)) =
    some ([(65, 100 * 100)]) := by decide +kernel

/-- `config_kafka_sink` — src/config.rs:1269-1309. -/
example : loaded cfg_config_kafka_sink (fun a => a.kafkas.map fun k => k.rdkafka) =
    some ([some [("setting.four.five".toList, "4.5".toList), ("setting.one".toList, "1".toList), ("setting.seven".toList, "false".toList), ("setting.six".toList, "true".toList), ("setting.three".toList, "three".toList), ("setting.two".toList, "2".toList)]]) := by decide +kernel

/-- The configuration of `config_kafka_sink_skipped_if_no_topic` — src/config.rs:1311-1323. -/
def cfg_config_kafka_sink_skipped_if_no_topic : Toml Fix :=
  .table [("sinks".toList, .table [("kafka".toList, .table [("one".toList, .table [("brokers".toList, .str "127.0.0.1:9092".toList), ("flush_interval".toList, .int 100), ("max_message_bytes".toList, .int 65)])])])]

/-- `config_kafka_sink_skipped_if_no_topic` — src/config.rs:1311-1323. -/
example : loaded cfg_config_kafka_sink_skipped_if_no_topic (fun a => a.kafkas) =
    some ([]) := by decide +kernel

/-- The configuration of `config_kafka_sink_skipped_if_no_brokers` — src/config.rs:1325-1337. -/
def cfg_config_kafka_sink_skipped_if_no_brokers : Toml Fix :=
  .table [("sinks".toList, .table [("kafka".toList, .table [("one".toList, .table [("flush_interval".toList, .int 100), ("max_message_bytes".toList, .int 65), ("topic".toList, .str "foobar".toList)])])])]

/-- `config_kafka_sink_skipped_if_no_brokers` — src/config.rs:1325-1337. -/
example : loaded cfg_config_kafka_sink_skipped_if_no_brokers (fun a => a.kafkas) =
    some ([]) := by decide +kernel

/-- The configuration of `config_kafka_sink_skipped_if_not_enabled` — src/config.rs:1339-1351. -/
def cfg_config_kafka_sink_skipped_if_not_enabled : Toml Fix :=
  .table [("sinks".toList, .table [("kafka".toList, .table [("one".toList, .table [("brokers".toList, .str "broker1,broker2".toList), ("enabled".toList, .bool false), ("topic".toList, .str "foobar".toList)])])])]

/-- `config_kafka_sink_skipped_if_not_enabled` — src/config.rs:1339-1351. -/
example : loaded cfg_config_kafka_sink_skipped_if_not_enabled (fun a => a.kafkas) =
    some ([]) := by decide +kernel

/-- The configuration of `config_kafka_sink_defaults` — src/config.rs:1353-1369. -/
def cfg_config_kafka_sink_defaults : Toml Fix :=
  .table [("sinks".toList, .table [("kafka".toList, .table [("one".toList, .table [("brokers".toList, .str "broker,broker".toList), ("topic".toList, .str "foobar".toList)])])])]

/-- `config_kafka_sink_defaults` — src/config.rs:1353-1369. -/
example : loaded cfg_config_kafka_sink_defaults (fun a => a.kafkas.map fun k => (decide (k.flushInterval = a.flushInterval), k.maxMessageBytes)) =
    some ([(true, 10 * 1024 * 1024)]) := by decide +kernel

/-- The configuration of `config_native_sink_config_distinct_host_sinks_style` — src/config.rs:1371-1391. -/
def cfg_config_native_sink_config_distinct_host_sinks_style : Toml Fix :=
  .table [("sinks".toList, .table [("native".toList, .table [("flush_interval".toList, .int 120), ("host".toList, .str "foo.example.com".toList), ("port".toList, .int 1972)])])]

/-- `config_native_sink_config_distinct_host_sinks_style` — src/config.rs:1371-1391. -/
example : loaded cfg_config_native_sink_config_distinct_host_sinks_style (fun a => a.nativeSink.map fun n => (n.host, n.port, n.flushInterval)) =
    some (some ("foo.example.com".toList, 1972, 120 * 100)) := by decide +kernel

/-- The configuration of `config_statsd_sources_style` — src/config.rs:1393-1416. -/
def cfg_config_statsd_sources_style : Toml Fix :=
  .table [("sources".toList, .table [("statsd".toList, .table [("primary".toList, .table [("enabled".toList, .bool true), ("forwards".toList, .array [.str "sinks.console".toList, .str "sinks.null".toList]), ("host".toList, .str "localhost".toList), ("port".toList, .int 1024)])])])]

/-- `config_statsd_sources_style` — src/config.rs:1393-1416. -/
example : loaded cfg_config_statsd_sources_style (fun a => a.statsds.map fun s => (s.path, s.host)) =
    some ([("sources.statsd.primary".toList, "localhost".toList)]) := by decide +kernel

/-- `config_statsd_sources_style` — src/config.rs:1393-1416. -/
example : loaded cfg_config_statsd_sources_style (fun a => a.statsds.map fun s => (s.port, s.forwards)) =
    some ([(1024, ["sinks.console".toList, "sinks.null".toList])]) := by decide +kernel

/-- The configuration of `config_statsd_sources_histogram_mappings` — src/config.rs:1418-1458. -/
def cfg_config_statsd_sources_histogram_mappings : Toml Fix :=
  .table [("sources".toList, .table [("statsd".toList, .table [("primary".toList, .table [("enabled".toList, .bool true), ("forwards".toList, .array [.str "sinks.console".toList, .str "sinks.null".toList]), ("host".toList, .str "localhost".toList), ("mapping".toList, .table [("bar".toList, .table [("bounds".toList, .array [.float 0.0, .float 2.0, .float 20.0]), ("mask".toList, .str "bar.*".toList)]), ("foo".toList, .table [("bounds".toList, .array [.float 0.0, .float 1.0, .float 10.0]), ("mask".toList, .str "foo.*".toList)])]), ("port".toList, .int 1024)])])])]

/-- `config_statsd_sources_histogram_mappings` — src/config.rs:1418-1458. -/
example : loaded cfg_config_statsd_sources_histogram_mappings (fun a => a.statsds.map fun s => (s.path, s.host)) =
    some ([("sources.statsd.primary".toList, "localhost".toList)]) := by decide +kernel

/-- `config_statsd_sources_histogram_mappings` — src/config.rs:1418-1458. -/
example : loaded cfg_config_statsd_sources_histogram_mappings (fun a => a.statsds.map fun s => (s.port, s.forwards)) =
    some ([(1024, ["sinks.console".toList, "sinks.null".toList])]) := by decide +kernel

/-- `config_statsd_sources_histogram_mappings` — src/config.rs:1418-1458. -/
example : loaded cfg_config_statsd_sources_histogram_mappings (fun a => a.statsds.map fun s => s.masks.map (·.2)) =
    some ([[[0.0, 1.0, 10.0], [0.0, 2.0, 20.0]]]) := by decide +kernel

/-- The configuration of `config_statsd_sources_error_bound` — src/config.rs:1460-1477. -/
def cfg_config_statsd_sources_error_bound : Toml Fix :=
  .table [("sources".toList, .table [("statsd".toList, .table [("primary".toList, .table [("enabled".toList, .bool true), ("forwards".toList, .array [.str "sinks.null".toList]), ("summarize_error_bound".toList, .float 0.00001)])])])]

/-- `config_statsd_sources_error_bound` — src/config.rs:1460-1477. -/
example : loaded cfg_config_statsd_sources_error_bound (fun a => a.statsds.map fun s => s.errorBound) =
    some ([0.00001]) := by decide +kernel

/-- The configuration of `config_statsd_sources_style_multiple` — src/config.rs:1479-1509. -/
def cfg_config_statsd_sources_style_multiple : Toml Fix :=
  .table [("sources".toList, .table [("statsd".toList, .table [("higher".toList, .table [("enabled".toList, .bool true), ("forwards".toList, .array [.str "sinks.wavefront".toList]), ("port".toList, .int 4048)]), ("lower".toList, .table [("enabled".toList, .bool true), ("forwards".toList, .array [.str "sinks.console".toList, .str "sinks.null".toList]), ("port".toList, .int 1024)])])])]

/-- `config_statsd_sources_style_multiple` — src/config.rs:1479-1509. -/
example : loaded cfg_config_statsd_sources_style_multiple (fun a => a.statsds.map fun s => (s.path, s.port, s.forwards)) =
    some ([("sources.statsd.higher".toList, 4048, ["sinks.wavefront".toList]), ("sources.statsd.lower".toList, 1024, ["sinks.console".toList, "sinks.null".toList])]) := by decide +kernel

/-- The configuration of `config_graphite_sources_style` — src/config.rs:1511-1532. -/
def cfg_config_graphite_sources_style : Toml Fix :=
  .table [("sources".toList, .table [("graphite".toList, .table [("primary".toList, .table [("enabled".toList, .bool true), ("forwards".toList, .array [.str "filters.collectd_scrub".toList]), ("host".toList, .str "localhost".toList), ("port".toList, .int 2003)])])])]

/-- `config_graphite_sources_style` — src/config.rs:1511-1532. -/
example : loaded cfg_config_graphite_sources_style (fun a => a.graphites) =
    some ([{ path := "sources.graphite.primary".toList, port := 2003, host := "localhost".toList, forwards := ["filters.collectd_scrub".toList] }]) := by decide +kernel

/-- The configuration of `config_graphite_sources_style_multiple` — src/config.rs:1534-1564. -/
def cfg_config_graphite_sources_style_multiple : Toml Fix :=
  .table [("sources".toList, .table [("graphite".toList, .table [("higher".toList, .table [("enabled".toList, .bool true), ("forwards".toList, .array [.str "sinks.wavefront".toList]), ("port".toList, .int 2004)]), ("lower".toList, .table [("enabled".toList, .bool true), ("forwards".toList, .array [.str "filters.collectd_scrub".toList]), ("port".toList, .int 2003)])])])]

/-- `config_graphite_sources_style_multiple` — src/config.rs:1534-1564. -/
example : loaded cfg_config_graphite_sources_style_multiple (fun a => a.graphites) =
    some ([{ path := "sources.graphite.higher".toList, port := 2004, host := "localhost".toList, forwards := ["sinks.wavefront".toList] }, { path := "sources.graphite.lower".toList, port := 2003, host := "localhost".toList, forwards := ["filters.collectd_scrub".toList] }]) := by decide +kernel

/-- The configuration of `config_avro_sources_style` — src/config.rs:1566-1587. -/
def cfg_config_avro_sources_style : Toml Fix :=
  .table [("sources".toList, .table [("avro".toList, .table [("primary".toList, .table [("enabled".toList, .bool true), ("forwards".toList, .array [.str "filters.collectd_scrub".toList]), ("host".toList, .str "localhost".toList), ("port".toList, .int 2003)])])])]

/-- `config_avro_sources_style` — src/config.rs:1566-1587. -/
example : loaded cfg_config_avro_sources_style (fun a => a.avros) =
    some ([{ path := "sources.avro.primary".toList, port := 2003, host := "localhost".toList, forwards := ["filters.collectd_scrub".toList] }]) := by decide +kernel

/-- The configuration of `config_avro_sources_style_multiple` — src/config.rs:1589-1619. -/
def cfg_config_avro_sources_style_multiple : Toml Fix :=
  .table [("sources".toList, .table [("avro".toList, .table [("higher".toList, .table [("enabled".toList, .bool true), ("forwards".toList, .array [.str "sinks.kinesis".toList]), ("port".toList, .int 2004)]), ("lower".toList, .table [("enabled".toList, .bool true), ("forwards".toList, .array [.str "filters.collectd_scrub".toList]), ("port".toList, .int 2003)])])])]

/-- `config_avro_sources_style_multiple` — src/config.rs:1589-1619. -/
example : loaded cfg_config_avro_sources_style_multiple (fun a => a.avros) =
    some ([{ path := "sources.avro.higher".toList, port := 2004, host := "localhost".toList, forwards := ["sinks.kinesis".toList] }, { path := "sources.avro.lower".toList, port := 2003, host := "localhost".toList, forwards := ["filters.collectd_scrub".toList] }]) := by decide +kernel

/-- The configuration of `config_filters_flush_boundary` — src/config.rs:1621-1639. -/
def cfg_config_filters_flush_boundary : Toml Fix :=
  .table [("filters".toList, .table [("flush_boundary".toList, .table [("ten_seconds".toList, .table [("forwards".toList, .array [.str "sinks.console".toList]), ("tolerance".toList, .int 10)])])])]

/-- `config_filters_flush_boundary` — src/config.rs:1621-1639. -/
example : loaded cfg_config_filters_flush_boundary (fun a => a.boundaries) =
    some ([{ path := "filters.flush_boundary.ten_seconds".toList, tolerance := 10, forwards := ["sinks.console".toList] }]) := by decide +kernel

/-- The configuration of `config_filters_sources_style` — src/config.rs:1641-1663. -/
def cfg_config_filters_sources_style : Toml Fix :=
  .table [("filters".toList, .table [("programmable".toList, .table [("collectd_scrub".toList, .table [("forwards".toList, .array [.str "sinks.console".toList]), ("script".toList, .str "cernan_bridge.lua".toList)])])])]

/-- `config_filters_sources_style` — src/config.rs:1641-1663. -/
example : loaded cfg_config_filters_sources_style (fun a => a.programmables.map fun p => (p.path, p.script, p.forwards)) =
    some ([("filters.programmable.collectd_scrub".toList, "/tmp/cernan-scripts/cernan_bridge.lua".toList, ["sinks.console".toList])]) := by decide +kernel

/-- The configuration of `config_filters_sources_style_non_default` — src/config.rs:1665-1685. -/
def cfg_config_filters_sources_style_non_default : Toml Fix :=
  .table [("filters".toList, .table [("programmable".toList, .table [("collectd_scrub".toList, .table [("forwards".toList, .array [.str "sinks.console".toList]), ("script".toList, .str "cernan_bridge.lua".toList)])])]), ("scripts-directory".toList, .str "data/".toList)]

/-- `config_filters_sources_style_non_default` — src/config.rs:1665-1685. -/
example : loaded cfg_config_filters_sources_style_non_default (fun a => a.programmables.map fun p => (p.path, p.script, p.forwards)) =
    some ([("filters.programmable.collectd_scrub".toList, "data/cernan_bridge.lua".toList, ["sinks.console".toList])]) := by decide +kernel

/-- The configuration of `config_filters_delay` — src/config.rs:1687-1705. -/
def cfg_config_filters_delay : Toml Fix :=
  .table [("filters".toList, .table [("delay".toList, .table [("ten_second".toList, .table [("forwards".toList, .array [.str "sinks.console".toList]), ("tolerance".toList, .int 10)])])])]

/-- `config_filters_delay` — src/config.rs:1687-1705. -/
example : loaded cfg_config_filters_delay (fun a => a.delays) =
    some ([{ path := "filters.delay.ten_second".toList, tolerance := 10, forwards := ["sinks.console".toList] }]) := by decide +kernel

/-- The configuration of `config_filters_json_encode` — src/config.rs:1707-1724. -/
def cfg_config_filters_json_encode : Toml Fix :=
  .table [("filters".toList, .table [("json_encode".toList, .table [("test".toList, .table [("forwards".toList, .array [.str "sinks.console".toList]), ("parse_line".toList, .bool true)])])])]

/-- `config_filters_json_encode` — src/config.rs:1707-1724. -/
example : loaded cfg_config_filters_json_encode (fun a => a.jsons.map fun j => (j.path, j.parseLine, j.forwards)) =
    some ([("filters.json_encode.test".toList, true, ["sinks.console".toList])]) := by decide +kernel

/-- The configuration of `config_file_wavefront_sinks_style` — src/config.rs:1726-1747. -/
def cfg_config_file_wavefront_sinks_style : Toml Fix :=
  .table [("sinks".toList, .table [("wavefront".toList, .table [("age_threshold".toList, .int 43), ("bin_width".toList, .int 9), ("flush_interval".toList, .int 15), ("host".toList, .str "example.com".toList), ("port".toList, .int 3131)])])]

/-- `config_file_wavefront_sinks_style` — src/config.rs:1726-1747. -/
example : loaded cfg_config_file_wavefront_sinks_style (fun a => a.wavefront.map fun w => (w.host, w.port, w.binWidth)) =
    some (some ("example.com".toList, 3131, 9)) := by decide +kernel

/-- `config_file_wavefront_sinks_style` — src/config.rs:1726-1747. -/
example : loaded cfg_config_file_wavefront_sinks_style (fun a => a.wavefront.map fun w => (w.flushInterval, w.ageThreshold)) =
    some (some (15 * 100, some 43)) := by decide +kernel

/-- The configuration of `config_file_wavefront_percentile_specification` — src/config.rs:1749-1777. -/
def cfg_config_file_wavefront_percentile_specification : Toml Fix :=
  .table [("sinks".toList, .table [("wavefront".toList, .table [("bin_width".toList, .int 9), ("host".toList, .str "example.com".toList), ("percentiles".toList, .table [("max".toList, .float 1.0), ("median".toList, .float 0.5), ("min".toList, .float 0.0)]), ("port".toList, .int 3131)])])]

/-- `config_file_wavefront_percentile_specification` — src/config.rs:1749-1777. -/
example : loaded cfg_config_file_wavefront_percentile_specification (fun a => a.wavefront.map fun w => (w.host, w.port, w.binWidth)) =
    some (some ("example.com".toList, 3131, 9)) := by decide +kernel

/-- `config_file_wavefront_percentile_specification` — src/config.rs:1749-1777. -/
example : loaded cfg_config_file_wavefront_percentile_specification (fun a => a.wavefront.map fun w => w.ageThreshold) =
    some (some none) := by decide +kernel

/-- `config_file_wavefront_percentile_specification` — src/config.rs:1749-1777. -/
example : loaded cfg_config_file_wavefront_percentile_specification (fun a => a.wavefront.map fun w => w.percentiles) =
    some (some [("max".toList, 1.0), ("median".toList, 0.5), ("min".toList, 0.0)]) := by decide +kernel

/-- The configuration of `config_file_wavefront_padding_control` — src/config.rs:1779-1807. -/
def cfg_config_file_wavefront_padding_control : Toml Fix :=
  .table [("sinks".toList, .table [("wavefront".toList, .table [("bin_width".toList, .int 9), ("host".toList, .str "example.com".toList), ("padding".toList, .table [("histogram".toList, .bool true), ("set".toList, .bool true), ("sum".toList, .bool false), ("summarize".toList, .bool false)]), ("port".toList, .int 3131)])])]

/-- `config_file_wavefront_padding_control` — src/config.rs:1779-1807. -/
example : loaded cfg_config_file_wavefront_padding_control (fun a => a.wavefront.map fun w => (w.host, w.port, w.binWidth)) =
    some (some ("example.com".toList, 3131, 9)) := by decide +kernel

/-- `config_file_wavefront_padding_control` — src/config.rs:1779-1807. -/
example : loaded cfg_config_file_wavefront_padding_control (fun a => a.wavefront.map fun w => w.pad) =
    some (some { set := true, sum := false, summarize := false, histogram := true }) := by decide +kernel

/-- The configuration of `config_file_influxdb_sinks_style` — src/config.rs:1809-1830. -/
def cfg_config_file_influxdb_sinks_style : Toml Fix :=
  .table [("sinks".toList, .table [("influxdb".toList, .table [("db".toList, .str "postmates".toList), ("flush_interval".toList, .int 70), ("host".toList, .str "example.com".toList), ("port".toList, .int 3131), ("secure".toList, .bool true)])])]

/-- `config_file_influxdb_sinks_style` — src/config.rs:1809-1830. -/
example : loaded cfg_config_file_influxdb_sinks_style (fun a => a.influxdb.map fun i => (i.host, i.db)) =
    some (some ("example.com".toList, "postmates".toList)) := by decide +kernel

/-- `config_file_influxdb_sinks_style` — src/config.rs:1809-1830. -/
example : loaded cfg_config_file_influxdb_sinks_style (fun a => a.influxdb.map fun i => (i.port, i.flushInterval, i.secure)) =
    some (some (3131, 70 * 100, true)) := by decide +kernel

/-- The configuration of `config_file_prometheus_sinks_style` — src/config.rs:1832-1848. -/
def cfg_config_file_prometheus_sinks_style : Toml Fix :=
  .table [("sinks".toList, .table [("prometheus".toList, .table [("host".toList, .str "example.com".toList), ("port".toList, .int 3131)])])]

/-- `config_file_prometheus_sinks_style` — src/config.rs:1832-1848. -/
example : loaded cfg_config_file_prometheus_sinks_style (fun a => a.prometheus.map fun p => (p.host, p.port, p.capacityInSeconds)) =
    some (some ("example.com".toList, 3131, 600)) := by decide +kernel

/-- The configuration of `config_file_prometheus_explicit_summary_capacity` — src/config.rs:1850-1867. -/
def cfg_config_file_prometheus_explicit_summary_capacity : Toml Fix :=
  .table [("sinks".toList, .table [("prometheus".toList, .table [("capacity_in_seconds".toList, .int 50), ("host".toList, .str "example.com".toList), ("port".toList, .int 3131)])])]

/-- `config_file_prometheus_explicit_summary_capacity` — src/config.rs:1850-1867. -/
example : loaded cfg_config_file_prometheus_explicit_summary_capacity (fun a => a.prometheus.map fun p => (p.host, p.port, p.capacityInSeconds)) =
    some (some ("example.com".toList, 3131, 50)) := by decide +kernel

/-- The configuration of `config_file_console_explicit_bin_width_sinks_style` — src/config.rs:1869-1883. -/
def cfg_config_file_console_explicit_bin_width_sinks_style : Toml Fix :=
  .table [("sinks".toList, .table [("console".toList, .table [("bin_width".toList, .int 9)])])]

/-- `config_file_console_explicit_bin_width_sinks_style` — src/config.rs:1869-1883. -/
example : loaded cfg_config_file_console_explicit_bin_width_sinks_style (fun a => a.console.map fun c => (c.binWidth, decide (c.flushInterval = a.flushInterval))) =
    some (some (9, true)) := by decide +kernel

/-- The configuration of `config_file_null_sinks_style` — src/config.rs:1885-1895. -/
def cfg_config_file_null_sinks_style : Toml Fix :=
  .table [("sinks".toList, .table [("null".toList, .table [])])]

/-- `config_file_null_sinks_style` — src/config.rs:1885-1895. -/
example : loaded cfg_config_file_null_sinks_style (fun a => a.null) =
    some (true) := by decide +kernel

/-- The configuration of `config_file_file_source_single_sources_style` — src/config.rs:1897-1915. -/
def cfg_config_file_file_source_single_sources_style : Toml Fix :=
  .table [("sources".toList, .table [("files".toList, .table [("foo_bar_txt".toList, .table [("forwards".toList, .array [.str "sink.blech".toList]), ("path".toList, .str "/foo/bar.txt".toList)])])])]

/-- `config_file_file_source_single_sources_style` — src/config.rs:1897-1915. -/
example : loaded cfg_config_file_file_source_single_sources_style (fun a => a.files.map fun f => (f.file, f.forwards, f.maxReadBytes)) =
    some ([("/foo/bar.txt".toList, ["sink.blech".toList], 2048)]) := by decide +kernel

/-- The configuration of `config_file_file_source_multiple_sources_style` — src/config.rs:1917-1944. -/
def cfg_config_file_file_source_multiple_sources_style : Toml Fix :=
  .table [("sources".toList, .table [("files".toList, .table [("bar_txt".toList, .table [("forwards".toList, .array [.str "sink.bar.blech".toList]), ("path".toList, .str "/bar.txt".toList)]), ("foo_bar_txt".toList, .table [("forwards".toList, .array [.str "sink.blech".toList]), ("max_read_bytes".toList, .int 10), ("path".toList, .str "/foo/bar.txt".toList)])])])]

/-- `config_file_file_source_multiple_sources_style` — src/config.rs:1917-1944. -/
example : loaded cfg_config_file_file_source_multiple_sources_style (fun a => a.files.map fun f => (f.file, f.forwards, f.maxReadBytes)) =
    some ([("/bar.txt".toList, ["sink.bar.blech".toList], 2048), ("/foo/bar.txt".toList, ["sink.blech".toList], 10)]) := by decide +kernel

/-- The configuration of `flush_interval_converted_to_proper_discrete_values` — src/config.rs:1946-1964. -/
def cfg_flush_interval_converted_to_proper_discrete_values : Toml Fix :=
  .table [("flush-interval".toList, .int 10)]

/-- The configuration of `flush_interval_converted_to_proper_discrete_values` — src/config.rs:1946-1964. -/
def cfg_flush_interval_converted_to_proper_discrete_values_f : Toml Fix :=
  .table [("flush-interval".toList, .float 1.5)]

/-- `flush_interval_converted_to_proper_discrete_values` — src/config.rs:1946-1964. -/
example : loaded cfg_flush_interval_converted_to_proper_discrete_values (fun a => a.flushInterval) =
    some (10 * 100) := by decide +kernel

/-- `flush_interval_converted_to_proper_discrete_values` — src/config.rs:1946-1964. -/
example : loaded cfg_flush_interval_converted_to_proper_discrete_values_f (fun a => a.flushInterval) =
    some (150) := by decide +kernel

end Verif.Tests.Config
