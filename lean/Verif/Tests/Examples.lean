import Verif.Tests.Config
/-!
# The example configurations, run on the model

The files of /repo/examples/configs, given as the values they parse to.  Of the seven, one starts cernan with a sink and an
external source.  Two name filters that are not under a kind of filter, and two a sink of a kind that does not exist: cernan
ignores these (C109) and then refuses the forwards to them.  The last two are written for an older version: cernan starts
with nothing but its internal source, which forwards to nothing.
-/
namespace Verif.Tests.Examples
open Verif.Config Verif.Tests.Config

/-- How a start with a configuration ends: not loaded, or the wiring. -/
def start (cfg : Toml Fix) : Option (Except Topology.Fail Topology.Wiring) := loaded cfg fun a => Topology.wire a.topology

/-- Start-up ends with `process::exit(1)` before anything runs. -/
def refused (cfg : Toml Fix) : Bool := match start cfg with
  | some (.error f) => decide (f = ⟨.exit 1, []⟩)
  | _ => false

/-- The wiring of what starts. -/
def wired (cfg : Toml Fix) : Option Topology.Wiring := match start cfg with
  | some (.ok w) => some w
  | _ => none

/-- examples/configs/basic.toml, with tables in the order of their keys -/
def basic : Toml Fix :=
  .table [("data-directory".toList, .str "data/".toList), ("filters".toList, .table [("delay".toList, .table [("two_seconds".toList, .table [("forwards".toList, .array [.str "filters.flush_boundary.two_seconds".toList]), ("tolerance".toList, .int 2)])]), ("flush_boundary".toList, .table [("two_seconds".toList, .table [("forwards".toList, .array [.str "sinks.console".toList, .str "sinks.null".toList, .str "sinks.influxdb".toList, .str "sinks.prometheus".toList]), ("tolerance".toList, .int 2)])]), ("programmable".toList, .table [("collectd_scrub".toList, .table [("forwards".toList, .array [.str "filters.delay.two_seconds".toList]), ("script".toList, .str "collectd_scrub.lua".toList)])])]), ("flush-interval".toList, .int 5), ("scripts-directory".toList, .str "examples/scripts/".toList), ("sinks".toList, .table [("console".toList, .table [("bin_width".toList, .int 1)]), ("firehose".toList, .table [("stream_two".toList, .table [("batch_size".toList, .int 800), ("delivery_stream".toList, .str "stream_two".toList), ("region".toList, .str "us-east-1".toList)])]), ("influxdb".toList, .table [("bin_width".toList, .int 1), ("host".toList, .str "127.0.0.1".toList), ("port".toList, .int 8086)]), ("null".toList, .table []), ("prometheus".toList, .table [("bin_width".toList, .int 1), ("host".toList, .str "127.0.0.1".toList), ("port".toList, .int 8080)])]), ("sources".toList, .table [("files".toList, .table [("example_log".toList, .table [("forwards".toList, .array [.str "sinks.firehose.stream_two".toList]), ("path".toList, .str "example.log".toList)]), ("foo_log".toList, .table [("forwards".toList, .array [.str "sinks.firehose.stream_two".toList]), ("path".toList, .str "foo.log".toList)])]), ("graphite".toList, .table [("primary".toList, .table [("enabled".toList, .bool true), ("forwards".toList, .array [.str "filters.programmable.collectd_scrub".toList]), ("port".toList, .int 2004)])]), ("internal".toList, .table [("forwards".toList, .array [.str "sinks.console".toList, .str "sinks.null".toList])]), ("native".toList, .table [("primary".toList, .table [("forwards".toList, .array [.str "filters.delay.two_seconds".toList]), ("ip".toList, .str "127.0.0.1".toList), ("port".toList, .int 1972)])]), ("statsd".toList, .table [("primary".toList, .table [("enabled".toList, .bool true), ("forwards".toList, .array [.str "sinks.console".toList, .str "filters.delay.two_seconds".toList]), ("port".toList, .int 8125)])])]), ("tags".toList, .table [("source".toList, .str "cernan".toList)])]

/-- examples/configs/counting-example.toml, with tables in the order of their keys -/
def counting_example : Toml Fix :=
  .table [("data-directory".toList, .str "data/".toList), ("filters".toList, .table [("keep_count".toList, .table [("forwards".toList, .array [.str "sinks.console".toList]), ("script".toList, .str "keep_count.lua".toList)])]), ("flush-interval".toList, .int 1), ("scripts-directory".toList, .str "examples/scripts/".toList), ("sinks".toList, .table [("console".toList, .table [("bin_width".toList, .int 1), ("flush_interval".toList, .int 2)])]), ("sources".toList, .table [("statsd".toList, .table [("primary".toList, .table [("enabled".toList, .bool true), ("forwards".toList, .array [.str "filters.keep_count".toList]), ("port".toList, .int 8125)])])]), ("tags".toList, .table [("source".toList, .str "cernan".toList)])]

/-- examples/configs/quickstart-files.toml, with tables in the order of their keys -/
def quickstart_files : Toml Fix :=
  .table [("data-directory".toList, .str "data/".toList), ("flush-interval".toList, .int 5), ("scripts-directory".toList, .str "examples/scripts/".toList), ("sinks".toList, .table [("firehose".toList, .table [("stream_two".toList, .table [("batch_size".toList, .int 800), ("delivery_stream".toList, .str "stream_two".toList), ("region".toList, .str "us-east-1".toList)])])]), ("sources".toList, .table [("files".toList, .table [("tmp_logs".toList, .table [("forwards".toList, .array [.str "sinks.firehose.stream_two".toList]), ("path".toList, .str "/tmp/log/*.log".toList)])])]), ("tags".toList, .table [("source".toList, .str "cernan".toList)])]

/-- examples/configs/quickstart-filters.toml, with tables in the order of their keys -/
def quickstart_filters : Toml Fix :=
  .table [("filters".toList, .table [("frau_im_mond".toList, .table [("forwards".toList, .array [.str "sinks.console".toList]), ("script".toList, .str "frau_im_mond.lua".toList)])]), ("flush-interval".toList, .int 10), ("scripts-directory".toList, .str "examples/scripts/".toList), ("sinks".toList, .table [("console".toList, .table [])]), ("sources".toList, .table [("statsd".toList, .table [("primary".toList, .table [("forwards".toList, .array [.str "filters.frau_im_mond".toList]), ("port".toList, .int 8125)])])])]

/-- examples/configs/quickstart.toml, with tables in the order of their keys -/
def quickstart : Toml Fix :=
  .table [("flush-interval".toList, .int 10), ("sinks".toList, .table [("console".toList, .table [])]), ("sources".toList, .table [("statsd".toList, .table [("primary".toList, .table [("forwards".toList, .array [.str "sinks.console".toList]), ("port".toList, .int 8125)])])])]

/-- examples/configs/receiver-config.toml, with tables in the order of their keys -/
def receiver_config : Toml Fix :=
  .table [("console".toList, .table []), ("data-directory".toList, .str "data-receiver/".toList), ("federation_receiver".toList, .table [("ip".toList, .str "0.0.0.0".toList), ("port".toList, .int 1972)]), ("graphite".toList, .table [("enabled".toList, .bool false), ("flush-interval".toList, .int 10)]), ("statsd".toList, .table [("enabled".toList, .bool false)]), ("tags".toList, .table [("service".toList, .str "receiver".toList), ("source".toList, .str "cernan".toList), ("uhf_band".toList, .str "s".toList)]), ("wavefront".toList, .table [("host".toList, .str "127.0.0.1".toList), ("port".toList, .int 2878)])]

/-- examples/configs/transmitter-config.toml, with tables in the order of their keys -/
def transmitter_config : Toml Fix :=
  .table [("data-directory".toList, .str "data-transmitter/".toList), ("federation_transmitter".toList, .table [("host".toList, .str "127.0.0.1".toList), ("port".toList, .int 1972)]), ("graphite".toList, .table [("flush-interval".toList, .int 10), ("port".toList, .int 2003)]), ("statsd".toList, .table [("port".toList, .int 8125)]), ("tags".toList, .table [("service".toList, .str "transmitter".toList), ("source".toList, .str "cernan".toList)])]


/-- quickstart.toml: statsd to the console. -/
example : wired quickstart = some {
    sinks := [("sinks.console".toList, ["sources.statsd.primary".toList])],
    sources := [("sources.internal".toList, []), ("sources.statsd.primary".toList, ["sinks.console".toList])],
    flush := ["sinks.console".toList] } := by decide +kernel

/-- quickstart-filters.toml and counting-example.toml: the filter is unknown. -/
example : refused quickstart_filters = true ∧ refused counting_example = true := by decide +kernel

/-- basic.toml and quickstart-files.toml: there is no firehose sink. -/
example : refused basic = true ∧ refused quickstart_files = true := by decide +kernel

/-- receiver-config.toml and transmitter-config.toml: nothing of them is known but directories and tags. -/
example : wired receiver_config = some { sources := [("sources.internal".toList, [])] } ∧
    wired transmitter_config = some { sources := [("sources.internal".toList, [])] } := by decide +kernel

end Verif.Tests.Examples
