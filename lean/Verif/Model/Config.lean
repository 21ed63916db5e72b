import Verif.Model.Tags
import Verif.Model.Topology
/-!
# The configuration loader

Models `parse_config_file` (src/config.rs:217-1133) from the parsed TOML value on, and the part of
`main` (src/bin/cernan.rs:148-404) that turns the result into named nodes.  The TOML text parser is
external: a configuration is a `Toml` value.  `expect`, `unwrap` and `assert!` that fail are
`.error .panic`, `process::exit(1)` is `.error (.exit 1)`.  Warnings that are only logged are left
out.
-/
namespace Verif.Config
open Topology (Stop)

/-- `toml::Value` (toml 0.4, external).  A table is the list of its entries in iteration order.  Used throughout src/config.rs:217-1133. -/
inductive Toml (F : Type) where
  | str (s : Str)
  | int (i : Int)
  | float (f : F)
  | bool (b : Bool)
  | datetime (s : Str)
  | array (l : List (Toml F))
  | table (t : List (Str × Toml F))

/-- What the loader asks the outside world for.  Used at src/config.rs:39-41, src/config.rs:35-37 and in src/config.rs:217-1133. -/
structure Ext (F : Type) where
  /-- `env::var_os(key)`, as a string; `none` if it is unset or not valid Unicode -/
  env : Str → Option Str
  /-- `(f * 100.0) as u64` -/
  ticks : F → Nat
  /-- `format!("{}", f)` -/
  showFloat : F → Str
  /-- how a TOML string is displayed: quoted and escaped -/
  quote : Str → Str
  /-- `dir.join(path)` -/
  join : Str → Str → Str
  /-- whether `Regex::new` accepts a mask -/
  regexOk : Str → Bool
  /-- the percentiles of `WavefrontConfig::default` — src/sink/wavefront.rs:112-126 -/
  percentiles : List (Str × F)
  /-- the literal `0.01` -/
  hundredth : F

/-- Results of the loader.  Of src/config.rs:217-1133. -/
abbrev M := Except Stop

variable {F : Type}

/-- An entry of a table.  Used throughout src/config.rs:217-1133. -/
def find (key : Str) : List (Str × Toml F) → Option (Toml F)
  | [] => none
  | (k, v) :: t => if k = key then some v else find key t

/-- `Value::get(key)` (external): `None` unless the value is a table with that key.  Used throughout src/config.rs:217-1133. -/
def Toml.get : Toml F → String → Option (Toml F)
  | .table t, key => find key.toList t
  | _, _ => none

/-- `as_integer().expect(..)`.  Used throughout src/config.rs:217-1133. -/
def asInt : Toml F → M Int
  | .int i => .ok i
  | _ => .error .panic

/-- `as_str().expect(..)`.  Used throughout src/config.rs:217-1133. -/
def asStr : Toml F → M Str
  | .str s => .ok s
  | _ => .error .panic

/-- `as_bool().expect(..)`.  Used throughout src/config.rs:217-1133. -/
def asBool : Toml F → M Bool
  | .bool b => .ok b
  | _ => .error .panic

/-- `as_float().expect(..)`.  Used throughout src/config.rs:217-1133. -/
def asFloat : Toml F → M F
  | .float f => .ok f
  | _ => .error .panic

/-- `as_table().expect(..)`.  Used throughout src/config.rs:217-1133. -/
def asTable : Toml F → M (List (Str × Toml F))
  | .table t => .ok t
  | _ => .error .panic

/-- `as_array().expect(..)`.  Used throughout src/config.rs:217-1133. -/
def asArray : Toml F → M (List (Toml F))
  | .array l => .ok l
  | _ => .error .panic

/-- `i as u64` and, on 64-bit machines, `i as usize`.  Used throughout src/config.rs:217-1133. -/
def u64 (i : Int) : Nat := (i % 2 ^ 64).toNat
/-- `i as u16`.  Used throughout src/config.rs:217-1133. -/
def u16 (i : Int) : Nat := (i % 2 ^ 16).toNat
/-- `i as u8`.  Used throughout src/config.rs:217-1133. -/
def u8 (i : Int) : Nat := (i % 2 ^ 8).toNat

/-- `iter().map(f).collect()` where `f` may panic.  Used throughout src/config.rs:217-1133. -/
def mapAll {α β : Type} (f : α → M β) : List α → M (List β)
  | [] => .ok []
  | a :: as => do
    let b ← f a
    let bs ← mapAll f as
    return b :: bs

/-- A loop over a table that collects the entries it does not skip.  Used throughout src/config.rs:217-1133. -/
def collect {α β : Type} (f : α → M (Option β)) : List α → M (List β)
  | [] => .ok []
  | a :: as => do
    let b ← f a
    let bs ← collect f as
    return (match b with | some b => b :: bs | none => bs)

/-- `t.get(key).map(conv).unwrap_or(d)`.  Used throughout src/config.rs:217-1133. -/
def fieldOr {α : Type} (t : Toml F) (key : String) (conv : Toml F → M α) (d : α) : M α :=
  match t.get key with
  | some v => conv v
  | none => .ok d

/-- `t.get(key).map(conv)`.  Used throughout src/config.rs:217-1133. -/
def field? {α : Type} (t : Toml F) (key : String) (conv : Toml F → M α) : M (Option α) :=
  match t.get key with
  | some v => do return some (← conv v)
  | none => .ok none

/-- `as_integer().expect(..) as u64` (or `as usize`).  Used throughout src/config.rs:217-1133. -/
def asU64 (v : Toml F) : M Nat := do return u64 (← asInt v)
/-- `as_integer().expect(..) as u16`.  Used throughout src/config.rs:217-1133. -/
def asU16 (v : Toml F) : M Nat := do return u16 (← asInt v)
/-- `as_integer().expect(..) as u8`.  Used throughout src/config.rs:217-1133. -/
def asU8 (v : Toml F) : M Nat := do return u8 (← asInt v)

/-- `forwards` — e.g. src/config.rs:321-330: an array of strings, empty if not given. -/
def forwards (t : Toml F) : M (List Str) :=
  fieldOr t "forwards" (fun v => do mapAll asStr (← asArray v)) []

/-- `enabled` — e.g. src/config.rs:732-736. -/
def enabled (t : Toml F) : M Bool := fieldOr t "enabled" asBool true

/-- `format!("<kind>.{}", name)`.  Used throughout src/config.rs:217-1133. -/
def named (kind : String) (name : Str) : Str := kind.toList ++ name

/-- `parse_flush_interval` — src/config.rs:152-165.  The multiplication wraps, as release builds do
not check for overflow. -/
def parseFlushInterval (x : Ext F) (t : Toml F) (key : String) : M (Option Nat) :=
  match t.get key with
  | some (.float f) => .ok (some (x.ticks f))
  | some (.int i) => .ok (some (u64 i * 100 % 2 ^ 64))
  | some _ => .error .panic
  | none => .ok none

/-- `parse_flush_interval(snk, "flush_interval").unwrap_or(args.flush_interval)`.  `parse_flush_interval` is src/config.rs:154-165. -/
def flushIntervalOr (x : Ext F) (t : Toml F) (key : String) (d : Nat) : M Nat := do
  return (← parseFlushInterval x t key).getD d

/-- One global tag — src/config.rs:275-304. -/
def parseTag (x : Ext F) (v : Toml F) : M Str :=
  match v with
  | .str s => .ok s
  | .table t =>
    if (find "environment".toList t).elim false fun e => match e with | .bool b => b | _ => false then
      match find "value".toList t with
      | some (.str key) => match x.env key with
        | some s => .ok s
        | none => .error .panic
      | _ => .error .panic
    else .error (.exit 1)
  | _ => .error .panic

/-- The global tags — src/config.rs:270-310. -/
def parseTags (x : Ext F) (cfg : Toml F) : M TagMap :=
  fieldOr cfg "tags" (fun v => do
    let t ← asTable v
    let kvs ← mapAll (fun kv => do return (kv.1, ← parseTag x kv.2)) t
    return TagMap.setAll [] kvs) []

/-! ## Filters -/

/-- `DelayFilterConfig` — src/filter/delay_filter.rs:34-41. -/
structure Delay where
  path : Str
  tolerance : Int
  forwards : List Str
deriving DecidableEq

/-- `JSONEncodeFilterConfig` — src/filter/json_encode_filter.rs:43-55. -/
structure Json where
  path : Str
  parseLine : Bool
  forwards : List Str
  tags : TagMap
deriving DecidableEq

/-- `FlushBoundaryFilterConfig` — src/filter/flush_boundary_filter.rs:17-25. -/
structure Boundary where
  path : Str
  tolerance : Nat
  forwards : List Str
deriving DecidableEq

/-- `ProgrammableFilterConfig` — src/filter/programmable_filter.rs:443-454. -/
structure Prog where
  path : Str
  scriptsDirectory : Str
  script : Str
  forwards : List Str
  tags : TagMap
deriving DecidableEq

/-- One delay filter — src/config.rs:314-343. -/
def delay (nt : Str × Toml F) : M (Option Delay) :=
  match nt.2.get "tolerance" with
  | some tol => do
    let tolerance ← asInt tol
    let fwds ← forwards nt.2
    return some { path := named "filters.delay." nt.1, tolerance, forwards := fwds }
  | none => .ok none

/-- One JSON filter — src/config.rs:345-375. -/
def json (tags : TagMap) (nt : Str × Toml F) : M (Option Json) := do
  let parseLine ← fieldOr nt.2 "parse_line" asBool false
  let fwds ← forwards nt.2
  return some { path := named "filters.json_encode." nt.1, parseLine, forwards := fwds, tags }

/-- One flush-boundary filter — src/config.rs:377-407. -/
def boundary (nt : Str × Toml F) : M (Option Boundary) :=
  match nt.2.get "tolerance" with
  | some tol => do
    let tolerance ← asU64 tol
    let fwds ← forwards nt.2
    return some { path := named "filters.flush_boundary." nt.1, tolerance, forwards := fwds }
  | none => .ok none

/-- One programmable filter — src/config.rs:409-440. -/
def prog (x : Ext F) (dir : Str) (tags : TagMap) (nt : Str × Toml F) : M (Option Prog) :=
  match nt.2.get "script" with
  | some pth => do
    let p ← asStr pth
    let fwds ← forwards nt.2
    let script := x.join dir p
    return some { path := named "filters.programmable." nt.1, scriptsDirectory := dir, script, forwards := fwds, tags }
  | none => .ok none

/-! ## Sinks -/

/-- `ConsoleConfig` — src/sink/console.rs:39-48 -/
structure Console where
  binWidth : Int
  flushInterval : Nat
  tags : TagMap
deriving DecidableEq

/-- `PadControl` — src/sink/wavefront.rs:41-57 -/
structure Pad where
  set : Bool := false
  sum : Bool := false
  summarize : Bool := false
  histogram : Bool := false
deriving DecidableEq

/-- `WavefrontConfig` — src/sink/wavefront.rs:110-139 -/
structure Wavefront (F : Type) where
  pad : Pad
  percentiles : List (Str × F)
  port : Nat
  ageThreshold : Option Nat
  host : Str
  binWidth : Int
  flushInterval : Nat
  tags : TagMap

/-- `InfluxDBConfig` — src/sink/influxdb.rs:63-75 -/
structure Influx where
  port : Nat
  secure : Bool
  host : Str
  db : Str
  flushInterval : Nat
  tags : TagMap
deriving DecidableEq

/-- `PrometheusConfig` — src/sink/prometheus.rs:81-93.  `gzip` is always `false` and left out. -/
structure Prom where
  ageThreshold : Option Nat
  port : Nat
  host : Str
  capacityInSeconds : Nat
  tags : TagMap
deriving DecidableEq

/-- `ElasticsearchConfig` — src/sink/elasticsearch.rs:88-102 -/
structure Elastic where
  deliveryAttemptLimit : Nat
  port : Nat
  host : Str
  indexPrefix : Option Str
  secure : Bool
  indexType : Str
  flushInterval : Nat
  tags : TagMap
deriving DecidableEq

/-- `NativeConfig` — src/sink/native.rs:52-62 -/
structure NativeSink where
  port : Nat
  host : Str
  flushInterval : Nat
  tags : TagMap
deriving DecidableEq

/-- `KafkaConfig` — src/sink/kafka.rs:93-104 -/
structure Kafka where
  path : Str
  topic : Str
  brokers : Str
  rdkafka : Option (List (Str × Str))
  flushInterval : Nat
  maxMessageBytes : Nat
deriving DecidableEq

/-- `sinks.console` — src/config.rs:452-469; default from src/sink/console.rs:42. -/
def console (x : Ext F) (g : Nat) (tags : TagMap) (t : Toml F) : M Console := do
  let binWidth ← fieldOr t "bin_width" asInt 1
  let flushInterval ← flushIntervalOr x t "flush_interval" g
  return { binWidth, flushInterval, tags }

/-- `padding` — src/config.rs:475-494: ignored unless it is a table. -/
def padding (t : Toml F) : M Pad :=
  match t.get "padding" with
  | some (.table p) => do
    let set ← fieldOr (.table p) "set" asBool false
    let sum ← fieldOr (.table p) "sum" asBool false
    let summarize ← fieldOr (.table p) "summarize" asBool false
    let histogram ← fieldOr (.table p) "histogram" asBool false
    return { set, sum, summarize, histogram }
  | _ => .ok {}

/-- `percentiles` — src/config.rs:496-507: ignored unless it is a table. -/
def percentiles (x : Ext F) (t : Toml F) : M (List (Str × F)) :=
  match t.get "percentiles" with
  | some (.table p) => mapAll (fun kv => do return (kv.1, ← asFloat kv.2)) p
  | _ => .ok x.percentiles

/-- `sinks.wavefront` — src/config.rs:471-547; defaults from src/sink/wavefront.rs:127-137. -/
def wavefront (x : Ext F) (g : Nat) (tags : TagMap) (t : Toml F) : M (Wavefront F) := do
  let pad ← padding t
  let percentiles ← percentiles x t
  let port ← fieldOr t "port" asU16 2878
  let ageThreshold ← field? t "age_threshold" asU64
  let host ← fieldOr t "host" asStr "localhost".toList
  let binWidth ← fieldOr t "bin_width" asInt 1
  let flushInterval ← flushIntervalOr x t "flush_interval" g
  return { pad, percentiles, port, ageThreshold, host, binWidth, flushInterval, tags }

/-- `sinks.influxdb` — src/config.rs:549-588; defaults from src/sink/influxdb.rs:65-73. -/
def influxdb (x : Ext F) (g : Nat) (tags : TagMap) (t : Toml F) : M Influx := do
  let port ← fieldOr t "port" asU16 8086
  let secure ← fieldOr t "secure" asBool true
  let host ← fieldOr t "host" asStr "localhost".toList
  let db ← fieldOr t "db" asStr "cernan".toList
  let flushInterval ← flushIntervalOr x t "flush_interval" g
  return { port, secure, host, db, flushInterval, tags }

/-- `sinks.prometheus` — src/config.rs:590-634; defaults from src/sink/prometheus.rs:83-91. -/
def prometheus (tags : TagMap) (t : Toml F) : M Prom := do
  let ageThreshold ← field? t "age_threshold" asU64
  let port ← fieldOr t "port" asU16 8086
  let host ← fieldOr t "host" asStr "localhost".toList
  let capacityInSeconds ← fieldOr t "capacity_in_seconds" asU64 600
  return { ageThreshold, port, host, capacityInSeconds, tags }

/-- `sinks.elasticsearch` — src/config.rs:636-700; defaults from src/sink/elasticsearch.rs:90-100. -/
def elasticsearch (x : Ext F) (g : Nat) (tags : TagMap) (t : Toml F) : M Elastic := do
  let deliveryAttemptLimit ← fieldOr t "delivery_attempt_limit" asU8 10
  let port ← fieldOr t "port" asU64 9200
  let host ← fieldOr t "host" asStr "127.0.0.1".toList
  let indexPrefix ← field? t "index-prefix" asStr
  let secure ← fieldOr t "secure" asBool false
  let indexType ← fieldOr t "index_type" asStr "payload".toList
  let flushInterval ← flushIntervalOr x t "flush_interval" g
  return { deliveryAttemptLimit, port, host, indexPrefix, secure, indexType, flushInterval, tags }

/-- `sinks.native` — src/config.rs:702-727; defaults from src/sink/native.rs:54-60. -/
def nativeSink (x : Ext F) (g : Nat) (tags : TagMap) (t : Toml F) : M NativeSink := do
  let port ← fieldOr t "port" asU16 1972
  let host ← fieldOr t "host" asStr "localhost".toList
  let flushInterval ← flushIntervalOr x t "flush_interval" g
  return { port, host, flushInterval, tags }

/-- `format!("{}", b)`.  Used throughout src/config.rs:217-1133. -/
def showBool (b : Bool) : Str := if b then "true".toList else "false".toList

/-- An entry of `librdkafka` — src/config.rs:774-796: values of other types are ignored. -/
def rdkafkaEntry (x : Ext F) (kv : Str × Toml F) : Option (Str × Str) :=
  match kv.2 with
  | .int i => some (kv.1, (toString i).toList)
  | .str s => some (kv.1, s)
  | .float f => some (kv.1, x.showFloat f)
  | .bool b => some (kv.1, showBool b)
  | _ => none

/-- One Kafka sink — src/config.rs:729-813; default from src/sink/kafka.rs:100. -/
def kafka (x : Ext F) (g : Nat) (nt : Str × Toml F) : M (Option Kafka) := do
  if ← enabled nt.2 then
    match ← field? nt.2 "topic" asStr with
    | none => .ok none
    | some topic => match ← field? nt.2 "brokers" asStr with
      | none => .ok none
      | some brokers =>
        let rdkafka ← field? nt.2 "librdkafka" fun v => do return (← asTable v).filterMap (rdkafkaEntry x)
        let flushInterval ← flushIntervalOr x nt.2 "flush_interval" g
        let maxMessageBytes ← fieldOr nt.2 "max_message_bytes" asU64 (10 * 2 ^ 20)
        let path := named "sinks.kafka." nt.1
        return some { path, topic, brokers, rdkafka, flushInterval, maxMessageBytes }
  else .ok none

/-! ## Sources -/

/-- `FileServerConfig` — src/source/file/file_server.rs:43-52 -/
structure File where
  path : Str
  file : Str
  forwards : List Str
  maxReadBytes : Nat
deriving DecidableEq

/-- `StatsdConfig` — src/source/statsd.rs:73-83 -/
structure Statsd (F : Type) where
  path : Str
  port : Nat
  host : Str
  forwards : List Str
  masks : List (Str × List F)
  errorBound : F

/-- `GraphiteConfig`, `TCPConfig`, `NativeServerConfig` — src/source/graphite.rs:21-31, src/source/tcp.rs:15-25, src/source/native.rs:27-36. -/
structure Tcp where
  path : Str
  port : Nat
  host : Str
  forwards : List Str
deriving DecidableEq

/-- One file source — src/config.rs:821-866; default from src/source/file/file_server.rs:47.  The
name of the table is not used: the source is named after its path. -/
def file (x : Ext F) (nt : Str × Toml F) : M (Option File) :=
  match nt.2.get "path" with
  | some pth => do
    let file ← asStr pth
    let fwds ← forwards nt.2
    let maxReadBytes ← fieldOr nt.2 "max_read_bytes" asU64 2048
    let path := named "sources.files." (x.quote file)
    return some { path, file, forwards := fwds, maxReadBytes }
  | none => .ok none

/-- One mapping of a statsd source — src/config.rs:915-935. -/
def mapping (x : Ext F) (nt : Str × Toml F) : M (Str × List F) :=
  match nt.2.get "mask" with
  | some m => do
    let mask ← asStr m
    if x.regexOk mask then
      match nt.2.get "bounds" with
      | some b => do return (mask, ← mapAll asFloat (← asArray b))
      | none => .error .panic
    else .error .panic
  | none => .error .panic

/-- The mappings of a statsd source — src/config.rs:908-941: each is put in front of the earlier
ones. -/
def mappings (x : Ext F) (t : Toml F) : M (List (Str × List F)) :=
  fieldOr t "mapping" (fun v => do return (← mapAll (mapping x) (← asTable v)).reverse) []

/-- One statsd source — src/config.rs:868-960; defaults from src/source/statsd.rs:75-81. -/
def statsd (x : Ext F) (nt : Str × Toml F) : M (Option (Statsd F)) := do
  if ← enabled nt.2 then
    let port ← fieldOr nt.2 "port" asU16 8125
    let host ← fieldOr nt.2 "host" asStr "localhost".toList
    let fwds ← forwards nt.2
    let masks ← mappings x nt.2
    let errorBound ← fieldOr nt.2 "summarize_error_bound" asFloat x.hundredth
    if fwds.isEmpty then .error .panic
    else return some { path := named "sources.statsd." nt.1, port, host, forwards := fwds, masks, errorBound }
  else .ok none

/-- One graphite source — src/config.rs:962-1010; defaults from src/source/graphite.rs:35-40. -/
def graphite (nt : Str × Toml F) : M (Option Tcp) := do
  if ← enabled nt.2 then
    let port ← fieldOr nt.2 "port" asU16 2003
    let host ← fieldOr nt.2 "host" asStr "localhost".toList
    let fwds ← forwards nt.2
    if fwds.isEmpty then .error .panic
    else return some { path := named "sources.graphite." nt.1, port, host, forwards := fwds }
  else .ok none

/-- One Avro source — src/config.rs:1012-1060; default host from src/source/tcp.rs:30. -/
def avro (nt : Str × Toml F) : M (Option Tcp) := do
  if ← enabled nt.2 then
    let port ← fieldOr nt.2 "port" asU16 2002
    let host ← fieldOr nt.2 "host" asStr "localhost".toList
    let fwds ← forwards nt.2
    if fwds.isEmpty then .error .panic
    else return some { path := named "sources.avro." nt.1, port, host, forwards := fwds }
  else .ok none

/-- One native source — src/config.rs:1062-1107; defaults from src/source/native.rs:40-45. -/
def nativeSource (nt : Str × Toml F) : M (Option Tcp) := do
  if ← enabled nt.2 then
    let port ← fieldOr nt.2 "port" asU16 1972
    let host ← fieldOr nt.2 "ip" asStr "0.0.0.0".toList
    let fwds ← forwards nt.2
    return some { path := named "sources.native." nt.1, port, host, forwards := fwds }
  else .ok none

/-! ## Everything -/

/-- `Args` — src/config.rs:52-148.  A kind that is not in the configuration (`None`) and one that is
there without entries (`Some` of an empty collection) are both the empty list: `main` treats them
alike.  The version is left out; maps from names to entries are lists of entries, which carry their
names. -/
structure Args (F : Type) where
  inMemoryBytes : Nat := 0x100000
  queueBytes : Nat := 0x100000 * 100
  queueFiles : Nat := 100
  dataDirectory : Str := "/tmp/cernan-data".toList
  scriptsDirectory : Str := "/tmp/cernan-scripts".toList
  flushInterval : Nat := 60 * 100
  programmables : List Prog := []
  delays : List Delay := []
  jsons : List Json := []
  boundaries : List Boundary := []
  null : Bool := false
  console : Option Console := none
  wavefront : Option (Wavefront F) := none
  influxdb : Option Influx := none
  prometheus : Option Prom := none
  nativeSink : Option NativeSink := none
  elasticsearch : Option Elastic := none
  kafkas : List Kafka := []
  files : List File := []
  internalForwards : List Str := []
  graphites : List Tcp := []
  avros : List Tcp := []
  natives : List Tcp := []
  statsds : List (Statsd F) := []

/-- `t.get(key).map(|t| .. for (name, tbl) in t.as_table().unwrap() ..)`.  Used throughout src/config.rs:217-1133. -/
def each {β : Type} (t : Toml F) (key : String) (f : Str × Toml F → M (Option β)) : M (List β) :=
  fieldOr t key (fun v => do collect f (← asTable v)) []

/-- Global settings — src/config.rs:219-268. -/
def globals (x : Ext F) (cfg : Toml F) : M (Args F) := do
  let queueBytes ← fieldOr cfg "max-hopper-queue-bytes" asU64 (0x100000 * 100)
  let queueFiles ← fieldOr cfg "max-hopper-queue-files" asU64 100
  let inMemoryBytes ← fieldOr cfg "max-hopper-in-memory-bytes" asU64 0x100000
  let dataDirectory ← fieldOr cfg "data-directory" asStr "/tmp/cernan-data".toList
  let scriptsDirectory ← fieldOr cfg "scripts-directory" asStr "/tmp/cernan-scripts".toList
  let flushInterval ← flushIntervalOr x cfg "flush-interval" (60 * 100)
  return { queueBytes, queueFiles, inMemoryBytes, dataDirectory, scriptsDirectory, flushInterval }

/-- Filters — src/config.rs:313-441. -/
def filters (x : Ext F) (tags : TagMap) (a : Args F) (t : Toml F) : M (Args F) := do
  let delays ← each t "delay" delay
  let jsons ← each t "json_encode" (json tags)
  let boundaries ← each t "flush_boundary" boundary
  let programmables ← each t "programmable" (prog x a.scriptsDirectory tags)
  return { a with delays, jsons, boundaries, programmables }

/-- Sinks — src/config.rs:445-814. -/
def sinks (x : Ext F) (tags : TagMap) (a : Args F) (t : Toml F) : M (Args F) := do
  let _ ← asTable t
  let null := (t.get "null").isSome
  let console ← field? t "console" (console x a.flushInterval tags)
  let wavefront ← field? t "wavefront" (wavefront x a.flushInterval tags)
  let influxdb ← field? t "influxdb" (influxdb x a.flushInterval tags)
  let prometheus ← field? t "prometheus" (prometheus tags)
  let elasticsearch ← field? t "elasticsearch" (elasticsearch x a.flushInterval tags)
  let nativeSink ← field? t "native" (nativeSink x a.flushInterval tags)
  let kafkas ← each t "kafka" (kafka x a.flushInterval)
  return { a with null, console, wavefront, influxdb, prometheus, elasticsearch, nativeSink, kafkas }

/-- Sources — src/config.rs:818-1130. -/
def sources (x : Ext F) (a : Args F) (t : Toml F) : M (Args F) := do
  let _ ← asTable t
  let files ← each t "files" (file x)
  let statsds ← each t "statsd" (statsd x)
  let graphites ← each t "graphite" graphite
  let avros ← each t "avro" avro
  let natives ← each t "native" nativeSource
  let internalForwards ← fieldOr t "internal" forwards []
  return { a with files, statsds, graphites, avros, natives, internalForwards }

/-- `parse_config_file` — src/config.rs:217-1133. -/
def parse (x : Ext F) (cfg : Toml F) : M (Args F) := do
  let a ← globals x cfg
  let tags ← parseTags x cfg
  let a ← fieldOr cfg "filters" (filters x tags a) a
  let a ← fieldOr cfg "sinks" (sinks x tags a) a
  fieldOr cfg "sources" (sources x a) a

/-- The names of the sinks, in the order `main` starts them — src/bin/cernan.rs:148-260, 422-504. -/
def Args.sinkNames (a : Args F) : List Str :=
  (if a.null then [named "sinks.null" []] else []) ++
  (a.console.map fun _ => named "sinks.console" []).toList ++
  (a.wavefront.map fun _ => named "sinks.wavefront" []).toList ++
  (a.prometheus.map fun _ => named "sinks.prometheus" []).toList ++
  (a.influxdb.map fun _ => named "sinks.influxdb" []).toList ++
  (a.nativeSink.map fun _ => named "sinks.native" []).toList ++
  (a.elasticsearch.map fun _ => named "sinks.elasticsearch" []).toList ++
  a.kafkas.map (·.path)

/-- The filters and their forwards — src/bin/cernan.rs:262-341. -/
def Args.filterNodes (a : Args F) : List (Str × List Str) :=
  a.programmables.map (fun f => (f.path, f.forwards)) ++ a.delays.map (fun f => (f.path, f.forwards)) ++
  a.jsons.map (fun f => (f.path, f.forwards)) ++ a.boundaries.map (fun f => (f.path, f.forwards))

/-- The native sources and their forwards — src/bin/cernan.rs:344-352. -/
def Args.nativeNodes (a : Args F) : List (Str × List Str) := a.natives.map fun s => (s.path, s.forwards)

/-- The other sources and their forwards — src/bin/cernan.rs:353-404. -/
def Args.sourceNodes (a : Args F) : List (Str × List Str) :=
  (named "sources.internal" [], a.internalForwards) :: (
  a.statsds.map (fun s => (s.path, s.forwards)) ++ a.graphites.map (fun s => (s.path, s.forwards)) ++
  a.avros.map (fun s => (s.path, s.forwards)) ++ a.files.map (fun s => (s.path, s.forwards)))

/-- What the wiring starts from — src/bin/cernan.rs:148-404. -/
def Args.topology (a : Args F) : Topology.Config :=
  { sinks := a.sinkNames, filters := a.filterNodes, natives := a.nativeNodes, sources := a.sourceNodes }

end Verif.Config
