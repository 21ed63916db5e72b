import Verif.Model.Config
/-!
# Specification vocabulary for the configuration (C65, C88-C91)

`Toml`, `Toml.get` (look up a key; nothing unless the value is a table) and `Ext` (what the loader
asks the outside world for) are shared with the model.
-/
namespace Verif.Config
variable {F : Type}

/-- The value under a path of keys. -/
def Toml.at (v : Toml F) : List String → Option (Toml F)
  | [] => some v
  | k :: ks => (v.get k).bind fun u => u.at ks

/-- The table under a path has an entry of this name. -/
def Entry (cfg : Toml F) (path : List String) (name : Str) (t : Toml F) : Prop :=
  ∃ tbl, cfg.at path = some (.table tbl) ∧ (name, t) ∈ tbl

/-- A value found somewhere in another. -/
inductive Within : Toml F → Toml F → Prop where
  | refl (v) : Within v v
  | entry (u k v t) : (k, v) ∈ t → Within u v → Within u (.table t)

/-- No table of the configuration has a key twice (TOML does not allow it). -/
def WellFormed (cfg : Toml F) : Prop := ∀ t, Within (.table t) cfg → (t.map (·.1)).Nodup

/-- The setting `key` of `t` is `v`: as given, or `d` if not given.  `c` is its type. -/
def Setting {α : Type} (c : α → Toml F) (t : Toml F) (key : String) (d v : α) : Prop :=
  t.get key = some (c v) ∨ (t.get key = none ∧ v = d)

/-- Like `Setting`, without a default. -/
def Optional {α : Type} (c : α → Toml F) (t : Toml F) (key : String) (v : Option α) : Prop :=
  (∃ a, t.get key = some (c a) ∧ v = some a) ∨ (t.get key = none ∧ v = none)

/-- The number `key` of `t` is `v`: what is given, modulo `2 ^ bits`, or `d` if not given.  (For a number
that fits, this is what is given: `Wrapped.exact`.) -/
def Wrapped (bits : Nat) (t : Toml F) (key : String) (d v : Nat) : Prop :=
  (∃ i, t.get key = some (.int i) ∧ (v : Int) = i % 2 ^ bits) ∨ (t.get key = none ∧ v = d)

/-- Like `Wrapped`, without a default. -/
def OptionalWrapped (bits : Nat) (t : Toml F) (key : String) (v : Option Nat) : Prop :=
  (∃ i n, t.get key = some (.int i) ∧ v = some n ∧ (n : Int) = i % 2 ^ bits) ∨
  (t.get key = none ∧ v = none)

/-- The interval under `key`, in hundredths of a second, or `d` if there is none.  A whole number of seconds counts a hundredfold,
modulo `2 ^ 64`. -/
inductive Interval (x : Ext F) (t : Toml F) (key : String) (d : Nat) : Nat → Prop where
  | seconds (i : Int) (n : Nat) : t.get key = some (.int i) → (n : Int) = i * 100 % 2 ^ 64 → Interval x t key d n
  | fraction (f) : t.get key = some (.float f) → Interval x t key d (x.ticks f)
  | absent : t.get key = none → Interval x t key d d

/-- The interval of a sink: its own, else the global one, else sixty seconds. -/
def FlushEvery (x : Ext F) (cfg t : Toml F) (n : Nat) : Prop :=
  ∃ g, Interval x cfg "flush-interval" 6000 g ∧ Interval x t "flush_interval" g n

/-- A global tag: a string, or the value of an environment variable. -/
inductive GlobalTag (x : Ext F) (cfg : Toml F) (k v : Str) : Prop where
  | plain : Entry cfg ["tags"] k (.str v) → GlobalTag x cfg k v
  | env (t : Toml F) (var : Str) : Entry cfg ["tags"] k t → t.get "environment" = some (.bool true) →
      t.get "value" = some (.str var) → x.env var = some v → GlobalTag x cfg k v

/-- A tag map holds exactly the global tags, each key once. -/
def HasGlobalTags (x : Ext F) (cfg : Toml F) (tags : TagMap) : Prop :=
  tags.Ok ∧ ∀ k v, (k, v) ∈ tags ↔ GlobalTag x cfg k v

/-- The forwards of an entry: an array of strings, or none. -/
def ForwardsTo (t : Toml F) (fs : List Str) : Prop :=
  t.get "forwards" = some (.array (fs.map .str)) ∨ (t.get "forwards" = none ∧ fs = [])

/-- Not switched off. -/
def Enabled (t : Toml F) : Prop := t.get "enabled" = some (.bool true) ∨ t.get "enabled" = none

/-- The key is given. -/
def Given (t : Toml F) (key : String) : Prop := (t.get key).isSome

/-- The sinks a configuration asks for. -/
inductive SinkNode (cfg : Toml F) : Str → Prop where
  | null (t) : cfg.at ["sinks", "null"] = some t → SinkNode cfg "sinks.null".toList
  | console (t) : cfg.at ["sinks", "console"] = some t → SinkNode cfg "sinks.console".toList
  | wavefront (t) : cfg.at ["sinks", "wavefront"] = some t → SinkNode cfg "sinks.wavefront".toList
  | prometheus (t) : cfg.at ["sinks", "prometheus"] = some t → SinkNode cfg "sinks.prometheus".toList
  | influxdb (t) : cfg.at ["sinks", "influxdb"] = some t → SinkNode cfg "sinks.influxdb".toList
  | native (t) : cfg.at ["sinks", "native"] = some t → SinkNode cfg "sinks.native".toList
  | elasticsearch (t) : cfg.at ["sinks", "elasticsearch"] = some t →
      SinkNode cfg "sinks.elasticsearch".toList
  | kafka (name t) : Entry cfg ["sinks", "kafka"] name t → Enabled t → Given t "topic" →
      Given t "brokers" → SinkNode cfg ("sinks.kafka.".toList ++ name)

/-- The filters a configuration asks for, and what they forward to. -/
inductive FilterNode (cfg : Toml F) : Str → List Str → Prop where
  | programmable (name t fs) : Entry cfg ["filters", "programmable"] name t → Given t "script" →
      ForwardsTo t fs → FilterNode cfg ("filters.programmable.".toList ++ name) fs
  | delay (name t fs) : Entry cfg ["filters", "delay"] name t → Given t "tolerance" →
      ForwardsTo t fs → FilterNode cfg ("filters.delay.".toList ++ name) fs
  | json (name t fs) : Entry cfg ["filters", "json_encode"] name t → ForwardsTo t fs →
      FilterNode cfg ("filters.json_encode.".toList ++ name) fs
  | boundary (name t fs) : Entry cfg ["filters", "flush_boundary"] name t → Given t "tolerance" →
      ForwardsTo t fs → FilterNode cfg ("filters.flush_boundary.".toList ++ name) fs

/-- The native sources a configuration asks for, and what they forward to. -/
inductive NativeNode (cfg : Toml F) : Str → List Str → Prop where
  | native (name t fs) : Entry cfg ["sources", "native"] name t → Enabled t → ForwardsTo t fs →
      NativeNode cfg ("sources.native.".toList ++ name) fs

/-- The other sources a configuration asks for, and what they forward to.  File sources are named
after their path.  The source of cernan's own telemetry always runs. -/
inductive SourceNode (x : Ext F) (cfg : Toml F) : Str → List Str → Prop where
  | internal (t fs) : cfg.at ["sources", "internal"] = some t → ForwardsTo t fs →
      SourceNode x cfg "sources.internal".toList fs
  | noInternal : cfg.at ["sources", "internal"] = none → SourceNode x cfg "sources.internal".toList []
  | statsd (name t fs) : Entry cfg ["sources", "statsd"] name t → Enabled t → ForwardsTo t fs →
      SourceNode x cfg ("sources.statsd.".toList ++ name) fs
  | graphite (name t fs) : Entry cfg ["sources", "graphite"] name t → Enabled t → ForwardsTo t fs →
      SourceNode x cfg ("sources.graphite.".toList ++ name) fs
  | avro (name t fs) : Entry cfg ["sources", "avro"] name t → Enabled t → ForwardsTo t fs →
      SourceNode x cfg ("sources.avro.".toList ++ name) fs
  | file (name t path fs) : Entry cfg ["sources", "files"] name t → t.get "path" = some (.str path) →
      ForwardsTo t fs → SourceNode x cfg ("sources.files.".toList ++ x.quote path) fs

/-- No two file sources have the same path. -/
def FilesDistinct (cfg : Toml F) : Prop := ∀ n m t u p, Entry cfg ["sources", "files"] n t →
  Entry cfg ["sources", "files"] m u → t.get "path" = some (.str p) → u.get "path" = some (.str p) → n = m

/-- How a value of `librdkafka` is written: numbers, strings and booleans; nothing else is usable. -/
inductive RdValue (x : Ext F) : Toml F → Str → Prop where
  | int (i) : RdValue x (.int i) (toString i).toList
  | str (s) : RdValue x (.str s) s
  | float (f) : RdValue x (.float f) (x.showFloat f)
  | yes : RdValue x (.bool true) "true".toList
  | no : RdValue x (.bool false) "false".toList

/-- The same nodes, started in another order. -/
structure SameNodes (c d : Topology.Config) : Prop where
  sinks : c.sinks.Perm d.sinks
  filters : c.filters.Perm d.filters
  natives : c.natives.Perm d.natives
  sources : c.sources.Perm d.sources

/-- The configuration asks for a filter or source `n` that forwards to `y`. -/
def AsksForward (x : Ext F) (cfg : Toml F) (n y : Str) : Prop :=
  ∃ fs, (FilterNode cfg n fs ∨ NativeNode cfg n fs ∨ SourceNode x cfg n fs) ∧ y ∈ fs

/-! ## What is accepted -/

/-- If the key is given, its value is of this sort. -/
def May (t : Toml F) (key : String) (P : Toml F → Prop) : Prop := ∀ v, t.get key = some v → P v

def IsInt (v : Toml F) : Prop := ∃ i, v = .int i
def IsStr (v : Toml F) : Prop := ∃ s, v = .str s
def IsBool (v : Toml F) : Prop := ∃ b, v = .bool b
def IsFloat (v : Toml F) : Prop := ∃ f, v = .float f
def IsTable (v : Toml F) : Prop := ∃ t, v = .table t

/-- An interval is a number of seconds, whole or not. -/
def IsInterval (v : Toml F) : Prop := IsInt v ∨ IsFloat v

/-- An array of values of a sort. -/
def IsArrayOf (P : Toml F → Prop) (v : Toml F) : Prop := ∃ l, v = .array l ∧ ∀ y ∈ l, P y

/-- A table of values of a sort. -/
def IsTableOf (P : Toml F → Prop) (v : Toml F) : Prop := ∃ t, v = .table t ∧ ∀ e ∈ t, P e.2

/-- A tag: a string or `{ environment = true, value = "VAR" }` where the variable is set. -/
def IsTag (x : Ext F) (v : Toml F) : Prop :=
  IsStr v ∨ (v.get "environment" = some (.bool true) ∧
    ∃ var s, v.get "value" = some (.str var) ∧ x.env var = some s)

/-- The mapping of a statsd source. -/
def IsMapping (x : Ext F) (v : Toml F) : Prop :=
  (∃ re, v.get "mask" = some (.str re) ∧ x.regexOk re = true) ∧
  ∃ b, v.get "bounds" = some b ∧ IsArrayOf IsFloat b

/-- `enabled` is a boolean, and what is enabled is acceptable. -/
def IfEnabled (P : Toml F → Prop) (v : Toml F) : Prop := May v "enabled" IsBool ∧ (Enabled v → P v)

/-- What is acceptable in the table of each component.  Tables of components that are incomplete or disabled may hold
anything. -/
structure Acceptable (x : Ext F) (cfg : Toml F) : Prop where
  queueBytes : May cfg "max-hopper-queue-bytes" IsInt
  queueFiles : May cfg "max-hopper-queue-files" IsInt
  inMemoryBytes : May cfg "max-hopper-in-memory-bytes" IsInt
  dataDirectory : May cfg "data-directory" IsStr
  scriptsDirectory : May cfg "scripts-directory" IsStr
  flushInterval : May cfg "flush-interval" IsInterval
  tags : May cfg "tags" (IsTableOf (IsTag x))
  filters : May cfg "filters" fun fs =>
    May fs "delay" (IsTableOf fun f => May f "tolerance" fun tol =>
      IsInt tol ∧ May f "forwards" (IsArrayOf IsStr)) ∧
    May fs "json_encode" (IsTableOf fun f => May f "parse_line" IsBool ∧ May f "forwards" (IsArrayOf IsStr)) ∧
    May fs "flush_boundary" (IsTableOf fun f => May f "tolerance" fun tol =>
      IsInt tol ∧ May f "forwards" (IsArrayOf IsStr)) ∧
    May fs "programmable" (IsTableOf fun f => May f "script" fun s =>
      IsStr s ∧ May f "forwards" (IsArrayOf IsStr))
  sinks : May cfg "sinks" fun ss => IsTable ss ∧
    May ss "console" (fun s => May s "bin_width" IsInt ∧ May s "flush_interval" IsInterval) ∧
    May ss "wavefront" (fun s =>
      May s "padding" (fun p => May p "set" IsBool ∧ May p "sum" IsBool ∧ May p "summarize" IsBool ∧
        May p "histogram" IsBool) ∧
      May s "percentiles" (fun p => IsTable p → IsTableOf IsFloat p) ∧ May s "port" IsInt ∧
      May s "age_threshold" IsInt ∧ May s "host" IsStr ∧ May s "bin_width" IsInt ∧
      May s "flush_interval" IsInterval) ∧
    May ss "influxdb" (fun s => May s "port" IsInt ∧ May s "secure" IsBool ∧ May s "host" IsStr ∧
      May s "db" IsStr ∧ May s "flush_interval" IsInterval) ∧
    May ss "prometheus" (fun s => May s "age_threshold" IsInt ∧ May s "port" IsInt ∧ May s "host" IsStr ∧
      May s "capacity_in_seconds" IsInt) ∧
    May ss "elasticsearch" (fun s => May s "delivery_attempt_limit" IsInt ∧ May s "port" IsInt ∧
      May s "host" IsStr ∧ May s "index-prefix" IsStr ∧ May s "secure" IsBool ∧ May s "index_type" IsStr ∧
      May s "flush_interval" IsInterval) ∧
    May ss "native" (fun s => May s "port" IsInt ∧ May s "host" IsStr ∧ May s "flush_interval" IsInterval) ∧
    May ss "kafka" (IsTableOf (IfEnabled fun s => May s "topic" fun topic => IsStr topic ∧
      May s "brokers" fun brokers => IsStr brokers ∧ May s "librdkafka" IsTable ∧
        May s "flush_interval" IsInterval ∧ May s "max_message_bytes" IsInt))
  sources : May cfg "sources" fun ss => IsTable ss ∧
    May ss "files" (IsTableOf fun s => May s "path" fun path => IsStr path ∧
      May s "forwards" (IsArrayOf IsStr) ∧ May s "max_read_bytes" IsInt) ∧
    May ss "statsd" (IsTableOf (IfEnabled fun s => May s "port" IsInt ∧ May s "host" IsStr ∧
      (∃ f fs, s.get "forwards" = some (.array (f :: fs)) ∧ IsStr f ∧ ∀ g ∈ fs, IsStr g) ∧
      May s "mapping" (IsTableOf (IsMapping x)) ∧ May s "summarize_error_bound" IsFloat)) ∧
    May ss "graphite" (IsTableOf (IfEnabled fun s => May s "port" IsInt ∧ May s "host" IsStr ∧
      ∃ f fs, s.get "forwards" = some (.array (f :: fs)) ∧ IsStr f ∧ ∀ g ∈ fs, IsStr g)) ∧
    May ss "avro" (IsTableOf (IfEnabled fun s => May s "port" IsInt ∧ May s "host" IsStr ∧
      ∃ f fs, s.get "forwards" = some (.array (f :: fs)) ∧ IsStr f ∧ ∀ g ∈ fs, IsStr g)) ∧
    May ss "native" (IsTableOf (IfEnabled fun s => May s "port" IsInt ∧ May s "ip" IsStr ∧
      May s "forwards" (IsArrayOf IsStr))) ∧
    May ss "internal" (fun s => May s "forwards" (IsArrayOf IsStr))

end Verif.Config
