import Verif.Model.Config
/-!
# The settings cernan knows (C109)

`known` leaves of a configuration what it names and nothing else.
-/
namespace Verif.Config
variable {F : Type}

/-- Leave only these keys of a table. -/
def only (keys : List String) : Toml F → Toml F
  | .table t => .table (t.filter fun kv => keys.any fun k => decide (k.toList = kv.1))
  | v => v

/-- Change what is under one key. -/
def under (key : String) (f : Toml F → Toml F) : Toml F → Toml F
  | .table t => .table (t.map fun kv => if kv.1 = key.toList then (kv.1, f kv.2) else kv)
  | v => v

/-- Change every entry of a table. -/
def every (f : Toml F → Toml F) : Toml F → Toml F
  | .table t => .table (t.map fun kv => (kv.1, f kv.2))
  | v => v

/-- What is known of the filters. -/
def knownFilters (t : Toml F) : Toml F :=
  only ["delay", "json_encode", "flush_boundary", "programmable"] <|
  under "delay" (every (only ["tolerance", "forwards"])) <|
  under "json_encode" (every (only ["parse_line", "forwards"])) <|
  under "flush_boundary" (every (only ["tolerance", "forwards"])) <|
  under "programmable" (every (only ["script", "forwards"])) t

/-- What is known of the sinks.  The names of percentiles and of settings of librdkafka are free. -/
def knownSinks (t : Toml F) : Toml F :=
  only ["null", "console", "wavefront", "influxdb", "prometheus", "elasticsearch", "native", "kafka"] <|
  under "null" (fun _ => .table []) <|
  under "console" (only ["bin_width", "flush_interval"]) <|
  under "wavefront" (fun w => under "padding" (only ["set", "sum", "summarize", "histogram"])
    (only ["padding", "percentiles", "port", "age_threshold", "host", "bin_width", "flush_interval"] w)) <|
  under "influxdb" (only ["port", "secure", "host", "db", "flush_interval"]) <|
  under "prometheus" (only ["age_threshold", "port", "host", "capacity_in_seconds"]) <|
  under "elasticsearch" (only ["delivery_attempt_limit", "port", "host", "index-prefix", "secure", "index_type", "flush_interval"]) <|
  under "native" (only ["port", "host", "flush_interval"]) <|
  under "kafka" (every (only ["enabled", "topic", "brokers", "librdkafka", "flush_interval", "max_message_bytes"])) t

/-- What is known of the sources.  The names of mappings are free. -/
def knownSources (t : Toml F) : Toml F :=
  only ["internal", "files", "statsd", "graphite", "avro", "native"] <|
  under "internal" (only ["forwards"]) <|
  under "files" (every (only ["path", "forwards", "max_read_bytes"])) <|
  under "statsd" (every fun s => under "mapping" (every (only ["mask", "bounds"]))
    (only ["enabled", "port", "host", "forwards", "mapping", "summarize_error_bound"] s)) <|
  under "graphite" (every (only ["enabled", "port", "host", "forwards"])) <|
  under "avro" (every (only ["enabled", "port", "host", "forwards"])) <|
  under "native" (every (only ["enabled", "port", "ip", "forwards"])) t

/-- What is known of a configuration.  The names of global tags are free. -/
def known (cfg : Toml F) : Toml F :=
  only ["max-hopper-queue-bytes", "max-hopper-queue-files", "max-hopper-in-memory-bytes", "data-directory", "scripts-directory",
    "flush-interval", "tags", "filters", "sinks", "sources"] <|
  under "filters" knownFilters <| under "sinks" knownSinks <| under "sources" knownSources cfg

end Verif.Config
