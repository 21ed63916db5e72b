import Verif.Lemmas.ConfigLoads
import Verif.Props.Topology
/-!
# C65, C88-C91: the configuration

* C65 — the flush interval of a sink is its own, else the global one, else sixty seconds.
* C88 — the nodes started are exactly those the configuration asks for.
* C89 — the global tags reach every sink and filter that adds tags.
* C90 — settings are used as written, and have their defaults otherwise.
* C91 — from the configuration to the wiring.
-/
namespace Verif
open Config
variable {F : Type}

/-! ## C65 -/

/-- **C65, partial.**  In every configuration that loads, each sink flushes as often as its own setting says, else as
often as the global setting says, else every sixty seconds.  Whole seconds are counted a hundredfold modulo `2 ^ 64`.  Missing: that negative
numbers of seconds and numbers whose hundredfold does not fit 64 bits are not changed by that (`C65_wraps_false`). -/
theorem C65_flush_interval_partial (x : Ext F) (cfg : Toml F) (a : Args F) (h : parse x cfg = .ok a) :
    (∀ s, a.console = some s → ∃ t, cfg.at ["sinks", "console"] = some t ∧
      FlushEvery x cfg t s.flushInterval) ∧
    (∀ s, a.wavefront = some s → ∃ t, cfg.at ["sinks", "wavefront"] = some t ∧
      FlushEvery x cfg t s.flushInterval) ∧
    (∀ s, a.influxdb = some s → ∃ t, cfg.at ["sinks", "influxdb"] = some t ∧
      FlushEvery x cfg t s.flushInterval) ∧
    (∀ s, a.nativeSink = some s → ∃ t, cfg.at ["sinks", "native"] = some t ∧
      FlushEvery x cfg t s.flushInterval) ∧
    (∀ s, a.elasticsearch = some s → ∃ t, cfg.at ["sinks", "elasticsearch"] = some t ∧
      FlushEvery x cfg t s.flushInterval) ∧
    (∀ s ∈ a.kafkas, ∃ name t, Entry cfg ["sinks", "kafka"] name t ∧
      s.path = "sinks.kafka.".toList ++ name ∧ FlushEvery x cfg t s.flushInterval) := by
  obtain ⟨tags, p⟩ := parse_ok h
  refine ⟨?_, ?_, ?_, ?_, ?_, ?_⟩
  · intro s hs
    rcases p.console with ⟨t, v, h1, h2, h3⟩ | ⟨-, h3⟩ <;> rw [hs] at h3 <;>
      simp only [Option.some.injEq, reduceCtorEq] at h3
    subst h3
    simp only [console, bind_ok, pure_ok] at h2
    obtain ⟨b, -, f, h4, rfl⟩ := h2
    exact ⟨t, h1, _, p.flushInterval, flushInterval_ok h4⟩
  · intro s hs
    rcases p.wavefront with ⟨t, v, h1, h2, h3⟩ | ⟨-, h3⟩ <;> rw [hs] at h3 <;>
      simp only [Option.some.injEq, reduceCtorEq] at h3
    subst h3
    simp only [wavefront, bind_ok, pure_ok] at h2
    obtain ⟨_, -, _, -, _, -, _, -, _, -, _, -, f, h4, rfl⟩ := h2
    exact ⟨t, h1, _, p.flushInterval, flushInterval_ok h4⟩
  · intro s hs
    rcases p.influxdb with ⟨t, v, h1, h2, h3⟩ | ⟨-, h3⟩ <;> rw [hs] at h3 <;>
      simp only [Option.some.injEq, reduceCtorEq] at h3
    subst h3
    simp only [influxdb, bind_ok, pure_ok] at h2
    obtain ⟨_, -, _, -, _, -, _, -, f, h4, rfl⟩ := h2
    exact ⟨t, h1, _, p.flushInterval, flushInterval_ok h4⟩
  · intro s hs
    rcases p.nativeSink with ⟨t, v, h1, h2, h3⟩ | ⟨-, h3⟩ <;> rw [hs] at h3 <;>
      simp only [Option.some.injEq, reduceCtorEq] at h3
    subst h3
    simp only [nativeSink, bind_ok, pure_ok] at h2
    obtain ⟨_, -, _, -, f, h4, rfl⟩ := h2
    exact ⟨t, h1, _, p.flushInterval, flushInterval_ok h4⟩
  · intro s hs
    rcases p.elasticsearch with ⟨t, v, h1, h2, h3⟩ | ⟨-, h3⟩ <;> rw [hs] at h3 <;>
      simp only [Option.some.injEq, reduceCtorEq] at h3
    subst h3
    simp only [elasticsearch, bind_ok, pure_ok] at h2
    obtain ⟨_, -, _, -, _, -, _, -, _, -, _, -, f, h4, rfl⟩ := h2
    exact ⟨t, h1, _, p.flushInterval, flushInterval_ok h4⟩
  · intro s hs
    obtain ⟨n, t, hE, hk⟩ := (p.kafkas.mem s).1 hs
    rcases kafka_ok hk with ⟨-, h⟩ | ⟨k, h1, -, h2, -, -, -, h3, -⟩
    · simp at h
    · simp only [Option.some.injEq] at h1
      subst h1
      exact ⟨n, t, hE, h2, _, p.flushInterval, h3⟩

/-- What the outside world answers in the examples: one environment variable, quotes around file names. -/
def sampleExt : Ext Int where
  env k := if k = "HOSTNAME".toList then some "box7".toList else none
  ticks f := (f * 100).toNat
  showFloat f := (toString f).toList
  quote s := '"' :: s ++ ['"']
  join d p := d ++ '/' :: p
  regexOk _ := true
  percentiles := [("max".toList, 1)]
  hundredth := 0

/-- A configuration with a global interval, tags, two sinks, a filter and two sources. -/
def sampleConfig : Toml Int := .table [
  ("flush-interval".toList, .int 10),
  ("tags".toList, .table [("source".toList, .table [("environment".toList, .bool true), ("value".toList, .str "HOSTNAME".toList)]),
    ("purpose".toList, .str "serious_business".toList)]),
  ("filters".toList, .table [("delay".toList, .table [("keep".toList, .table [("tolerance".toList, .int 60),
    ("forwards".toList, .array [.str "sinks.console".toList])])])]),
  ("sinks".toList, .table [("console".toList, .table [("bin_width".toList, .int 5)]),
    ("influxdb".toList, .table [("flush_interval".toList, .int 2), ("port".toList, .int 9000)])]),
  ("sources".toList, .table [
    ("files".toList, .table [("a".toList, .table [("path".toList, .str "/var/log/a".toList),
      ("forwards".toList, .array [.str "filters.delay.keep".toList])])]),
    ("statsd".toList, .table [("primary".toList, .table [("forwards".toList, .array [.str "sinks.influxdb".toList])]),
      ("off".toList, .table [("enabled".toList, .bool false)])])])]

/-- It loads; the console inherits the interval of ten seconds, the other sink has its own. -/
example : ∃ a, parse sampleExt sampleConfig = .ok a ∧ (a.console.map (·.flushInterval)) = some 1000 ∧
    (a.influxdb.map fun s => (s.flushInterval, s.port, s.tags)) = some (200, 9000,
      [("source".toList, "box7".toList), ("purpose".toList, "serious_business".toList)]) ∧
    a.topology.sources.map (·.1) = ["sources.internal".toList, "sources.statsd.primary".toList,
      "sources.files.\"/var/log/a\"".toList] := ⟨_, rfl, by decide +kernel, by decide +kernel, by decide +kernel⟩

/-- C65 does not hold for all integers: minus one second is about 5.8 billion years, and 184467440737095517
seconds are 84 hundredths of a second. -/
theorem C65_wraps_false (x : Ext F) : ∃ (cfg : Toml F) (a : Args F), parse x cfg = .ok a ∧
    cfg.get "flush-interval" = some (.int (-1)) ∧ a.flushInterval = 2 ^ 64 - 100 ∧
    cfg.at ["sinks", "console", "flush_interval"] = some (.int 184467440737095517) ∧
    (a.console.map (·.flushInterval)) = some 84 :=
  ⟨.table [("flush-interval".toList, .int (-1)),
    ("sinks".toList, .table [("console".toList, .table [("flush_interval".toList, .int 184467440737095517)])])],
    _, rfl, rfl, rfl, rfl, rfl⟩

/-- For a number of seconds whose hundredfold fits 64 bits, nothing is lost. -/
theorem C65_fits (x : Ext F) (t : Toml F) (key : String) (d n : Nat) (i : Int) (hi : t.get key = some (.int i)) (h0 : 0 ≤ i)
    (h1 : i * 100 < 2 ^ 64) (h : Interval x t key d n) : (n : Int) = i * 100 := by
  cases h with
  | seconds j _ h2 h3 =>
    rw [hi] at h2; cases h2
    omega
  | fraction f h2 => rw [hi] at h2; cases h2
  | absent h2 => rw [hi] at h2; cases h2

/-! ## C88 -/

private theorem only_some {β : Type} {cfg : Toml F} {path : List String} {conv : Toml F → M β} {o : Option β}
    (h : Only cfg path conv o) : o.isSome = true ↔ ∃ t, cfg.at path = some t := by
  rcases h with ⟨t, v, h1, -, rfl⟩ | ⟨h1, rfl⟩
  · simp [h1]
  · simp [h1]

private theorem mem_opt {β : Type} (o : Option β) (s : String) (n : Str) :
    n ∈ (o.map fun _ => named s []).toList ↔ o.isSome = true ∧ n = s.toList := by
  rw [named_nil]; cases o <;> simp

/-- **C88.**  In every configuration that loads, the sinks, filters and sources that are started are exactly those
the configuration asks for — every sink section, every enabled Kafka sink with a topic and brokers, every filter that has
its tolerance or script, every enabled source, every file source with a path, and the internal source — under their
names and with the forwards they list. -/
theorem C88_nodes (x : Ext F) (cfg : Toml F) (a : Args F) (h : parse x cfg = .ok a) :
    (∀ n, n ∈ a.topology.sinks ↔ SinkNode cfg n) ∧
    (∀ n fs, (n, fs) ∈ a.topology.filters ↔ FilterNode cfg n fs) ∧
    (∀ n fs, (n, fs) ∈ a.topology.natives ↔ NativeNode cfg n fs) ∧
    (∀ n fs, (n, fs) ∈ a.topology.sources ↔ SourceNode x cfg n fs) := by
  obtain ⟨tags, p⟩ := parse_ok h
  refine ⟨?_, ?_, ?_, ?_⟩
  · intro n
    have hnull : n ∈ (if a.null then [named "sinks.null" []] else []) ↔
        (cfg.at ["sinks", "null"]).isSome = true ∧ n = "sinks.null".toList := by
      rw [← p.null, named_nil]; cases a.null <;> simp
    simp only [Args.topology, Args.sinkNames, List.mem_append, hnull, mem_opt, only_some p.console,
      only_some p.wavefront, only_some p.prometheus, only_some p.influxdb, only_some p.nativeSink,
      only_some p.elasticsearch, List.mem_map, Option.isSome_iff_exists]
    constructor
    · rintro (((((((⟨⟨t, h⟩, rfl⟩ | ⟨⟨t, h⟩, rfl⟩) | ⟨⟨t, h⟩, rfl⟩) | ⟨⟨t, h⟩, rfl⟩) | ⟨⟨t, h⟩, rfl⟩) |
        ⟨⟨t, h⟩, rfl⟩) | ⟨⟨t, h⟩, rfl⟩) | ⟨k, hk, rfl⟩)
      · exact .null t h
      · exact .console t h
      · exact .wavefront t h
      · exact .prometheus t h
      · exact .influxdb t h
      · exact .native t h
      · exact .elasticsearch t h
      · obtain ⟨n, t, hE, hf⟩ := (p.kafkas.mem k).1 hk
        rcases kafka_ok hf with ⟨-, h⟩ | ⟨k', h, he, h', ht, hb, -⟩
        · simp at h
        · simp only [Option.some.injEq] at h
          subst h
          rw [h']
          exact .kafka n t hE he (by simp [Given, ht]) (by simp [Given, hb])
    · rintro (⟨t, h⟩ | ⟨t, h⟩ | ⟨t, h⟩ | ⟨t, h⟩ | ⟨t, h⟩ | ⟨t, h⟩ | ⟨t, h⟩ | ⟨n, t, hE, he, ht, hb⟩)
      · exact .inl (.inl (.inl (.inl (.inl (.inl (.inl ⟨⟨t, h⟩, rfl⟩))))))
      · exact .inl (.inl (.inl (.inl (.inl (.inl (.inr ⟨⟨t, h⟩, rfl⟩))))))
      · exact .inl (.inl (.inl (.inl (.inl (.inr ⟨⟨t, h⟩, rfl⟩)))))
      · exact .inl (.inl (.inl (.inl (.inr ⟨⟨t, h⟩, rfl⟩))))
      · exact .inl (.inl (.inl (.inr ⟨⟨t, h⟩, rfl⟩)))
      · exact .inl (.inl (.inr ⟨⟨t, h⟩, rfl⟩))
      · exact .inl (.inr ⟨⟨t, h⟩, rfl⟩)
      · obtain ⟨o, hf⟩ := p.kafkas.total n t hE
        rcases kafka_ok hf with ⟨h | h | h, -⟩ | ⟨k, rfl, -, h', -⟩
        · exact absurd h he.not_disabled
        · simp [Given, h] at ht
        · simp [Given, h] at hb
        · exact .inr ⟨k, (p.kafkas.mem k).2 ⟨n, t, hE, hf⟩, h'⟩
  · intro n fs
    simp only [Args.topology, Args.filterNodes, List.mem_append, List.mem_map, Prod.mk.injEq]
    constructor
    · rintro (((⟨k, hk, rfl, rfl⟩ | ⟨k, hk, rfl, rfl⟩) | ⟨k, hk, rfl, rfl⟩) | ⟨k, hk, rfl, rfl⟩)
      · obtain ⟨n, t, hE, hf⟩ := (p.programmables.mem k).1 hk
        rcases prog_ok hf with ⟨-, h⟩ | ⟨k', h, h', ⟨q, hq, -⟩, -, hfw, -⟩
        · simp at h
        · simp only [Option.some.injEq] at h
          subst h
          rw [h']
          exact .programmable n t _ hE (by simp [Given, hq]) hfw
      · obtain ⟨n, t, hE, hf⟩ := (p.delays.mem k).1 hk
        rcases delay_ok hf with ⟨-, h⟩ | ⟨k', h, h', hq, hfw⟩
        · simp at h
        · simp only [Option.some.injEq] at h
          subst h
          rw [h']
          exact .delay n t _ hE (by simp [Given, hq]) hfw
      · obtain ⟨n, t, hE, hf⟩ := (p.jsons.mem k).1 hk
        obtain ⟨k', h, h', hq, hfw, -⟩ := json_ok hf
        simp only [Option.some.injEq] at h
        subst h
        rw [h']
        exact .json n t _ hE hfw
      · obtain ⟨n, t, hE, hf⟩ := (p.boundaries.mem k).1 hk
        rcases boundary_ok hf with ⟨-, h⟩ | ⟨k', h, h', ⟨q, hq, -⟩, hfw⟩
        · simp at h
        · simp only [Option.some.injEq] at h
          subst h
          rw [h']
          exact .boundary n t _ hE (by simp [Given, hq]) hfw
    · rintro (⟨n, t, fs, hE, hg, hfw⟩ | ⟨n, t, fs, hE, hg, hfw⟩ | ⟨n, t, fs, hE, hfw⟩ | ⟨n, t, fs, hE, hg, hfw⟩)
      · obtain ⟨o, hf⟩ := p.programmables.total n t hE
        rcases prog_ok hf with ⟨h, -⟩ | ⟨k, rfl, h', -, -, hfw', -⟩
        · simp [Given, h] at hg
        · exact .inl (.inl (.inl ⟨k, (p.programmables.mem k).2 ⟨n, t, hE, hf⟩, h', hfw'.unique hfw⟩))
      · obtain ⟨o, hf⟩ := p.delays.total n t hE
        rcases delay_ok hf with ⟨h, -⟩ | ⟨k, rfl, h', -, hfw'⟩
        · simp [Given, h] at hg
        · exact .inl (.inl (.inr ⟨k, (p.delays.mem k).2 ⟨n, t, hE, hf⟩, h', hfw'.unique hfw⟩))
      · obtain ⟨o, hf⟩ := p.jsons.total n t hE
        obtain ⟨k, rfl, h', -, hfw', -⟩ := json_ok hf
        exact .inl (.inr ⟨k, (p.jsons.mem k).2 ⟨n, t, hE, hf⟩, h', hfw'.unique hfw⟩)
      · obtain ⟨o, hf⟩ := p.boundaries.total n t hE
        rcases boundary_ok hf with ⟨h, -⟩ | ⟨k, rfl, h', -, hfw'⟩
        · simp [Given, h] at hg
        · exact .inr ⟨k, (p.boundaries.mem k).2 ⟨n, t, hE, hf⟩, h', hfw'.unique hfw⟩
  · intro n fs
    simp only [Args.topology, Args.nativeNodes, List.mem_map, Prod.mk.injEq]
    constructor
    · rintro ⟨k, hk, rfl, rfl⟩
      obtain ⟨n, t, hE, hf⟩ := (p.natives.mem k).1 hk
      rcases nativeSource_ok hf with ⟨-, h⟩ | ⟨k', h, he, h', -, -, hfw⟩
      · simp at h
      · simp only [Option.some.injEq] at h
        subst h
        rw [h']
        exact .native n t _ hE he hfw
    · rintro ⟨n, t, fs, hE, he, hfw⟩
      obtain ⟨o, hf⟩ := p.natives.total n t hE
      rcases nativeSource_ok hf with ⟨h, -⟩ | ⟨k, rfl, -, h', -, -, hfw'⟩
      · exact absurd h he.not_disabled
      · exact ⟨k, (p.natives.mem k).2 ⟨n, t, hE, hf⟩, h', hfw'.unique hfw⟩
  · intro n fs
    simp only [Args.topology, Args.sourceNodes, List.mem_cons, List.mem_append, List.mem_map, Prod.mk.injEq,
      named_nil]
    constructor
    · rintro (⟨rfl, rfl⟩ | (((⟨k, hk, rfl, rfl⟩ | ⟨k, hk, rfl, rfl⟩) | ⟨k, hk, rfl, rfl⟩) | ⟨k, hk, rfl, rfl⟩))
      · rcases p.internal with ⟨t, h1, h2⟩ | ⟨h1, h2⟩
        · exact .internal t _ h1 (forwards_ok.1 h2)
        · rw [h2]; exact .noInternal h1
      · obtain ⟨n, t, hE, hf⟩ := (p.statsds.mem k).1 hk
        rcases statsd_ok hf with ⟨-, h⟩ | ⟨k', h, he, h', -, -, hfw, -⟩
        · simp at h
        · simp only [Option.some.injEq] at h
          subst h
          rw [h']
          exact .statsd n t _ hE he hfw
      · obtain ⟨n, t, hE, hf⟩ := (p.graphites.mem k).1 hk
        rcases graphite_ok hf with ⟨-, h⟩ | ⟨k', h, he, h', -, -, hfw, -⟩
        · simp at h
        · simp only [Option.some.injEq] at h
          subst h
          rw [h']
          exact .graphite n t _ hE he hfw
      · obtain ⟨n, t, hE, hf⟩ := (p.avros.mem k).1 hk
        rcases avro_ok hf with ⟨-, h⟩ | ⟨k', h, he, h', -, -, hfw, -⟩
        · simp at h
        · simp only [Option.some.injEq] at h
          subst h
          rw [h']
          exact .avro n t _ hE he hfw
      · obtain ⟨n, t, hE, hf⟩ := (p.files.mem k).1 hk
        rcases file_ok hf with ⟨-, h⟩ | ⟨k', h, hp, h', hfw, -⟩
        · simp at h
        · simp only [Option.some.injEq] at h
          subst h
          rw [h']
          exact .file n t _ _ hE hp hfw
    · rintro (⟨t, fs, h1, hfw⟩ | h1 | ⟨n, t, fs, hE, he, hfw⟩ | ⟨n, t, fs, hE, he, hfw⟩ |
        ⟨n, t, fs, hE, he, hfw⟩ | ⟨n, t, q, fs, hE, hq, hfw⟩)
      · rcases p.internal with ⟨t', h1', h2⟩ | ⟨h1', h2⟩
        · rw [h1] at h1'
          simp only [Option.some.injEq] at h1'
          subst h1'
          exact .inl ⟨rfl, hfw.unique (forwards_ok.1 h2)⟩
        · rw [h1] at h1'; simp at h1'
      · rcases p.internal with ⟨t', h1', h2⟩ | ⟨h1', h2⟩
        · rw [h1] at h1'; simp at h1'
        · exact .inl ⟨rfl, h2.symm⟩
      · obtain ⟨o, hf⟩ := p.statsds.total n t hE
        rcases statsd_ok hf with ⟨h, -⟩ | ⟨k, rfl, -, h', -, -, hfw', -⟩
        · exact absurd h he.not_disabled
        · exact .inr (.inl (.inl (.inl ⟨k, (p.statsds.mem k).2 ⟨n, t, hE, hf⟩, h', hfw'.unique hfw⟩)))
      · obtain ⟨o, hf⟩ := p.graphites.total n t hE
        rcases graphite_ok hf with ⟨h, -⟩ | ⟨k, rfl, -, h', -, -, hfw', -⟩
        · exact absurd h he.not_disabled
        · exact .inr (.inl (.inl (.inr ⟨k, (p.graphites.mem k).2 ⟨n, t, hE, hf⟩, h', hfw'.unique hfw⟩)))
      · obtain ⟨o, hf⟩ := p.avros.total n t hE
        rcases avro_ok hf with ⟨h, -⟩ | ⟨k, rfl, -, h', -, -, hfw', -⟩
        · exact absurd h he.not_disabled
        · exact .inr (.inl (.inr ⟨k, (p.avros.mem k).2 ⟨n, t, hE, hf⟩, h', hfw'.unique hfw⟩))
      · obtain ⟨o, hf⟩ := p.files.total n t hE
        rcases file_ok hf with ⟨h, -⟩ | ⟨k, rfl, hp, h', hfw', -⟩
        · rw [h] at hq; simp at hq
        · refine .inr (.inr ⟨k, (p.files.mem k).2 ⟨n, t, hE, hf⟩, ?_, hfw'.unique hfw⟩)
          rw [hq] at hp
          simp only [Option.some.injEq, Toml.str.injEq] at hp
          rw [hp]; exact h'

/-- **C88 (names), partial.**  Every entry is started under a name of its own exactly if no two file sources have the same path.
Missing: file sources with the same path (`C88_same_path_false`). -/
theorem C88_names_partial (x : Ext F) (hq : ∀ p q, x.quote p = x.quote q → p = q) (cfg : Toml F)
    (hw : WellFormed cfg) (a : Args F) (h : parse x cfg = .ok a) :
    Topology.Distinct a.topology ↔ FilesDistinct cfg := by
  obtain ⟨tags, p⟩ := parse_ok h
  rw [← files_nodup p.files hw hq]
  constructor
  · intro hd
    unfold Topology.Distinct at hd
    refine List.Nodup.sublist ?_ hd
    refine List.Sublist.trans ?_ (List.sublist_append_right _ _)
    simp only [Args.topology, Args.sourceNodes, List.map_append, List.map_cons, List.map_map,
      Function.comp_def]
    refine List.Sublist.trans ?_ (List.sublist_append_right _ _)
    exact List.Sublist.cons _ (List.sublist_append_right _ _)
  · exact distinct_of_files p hw

/-- Two entries that tail the same file share a name, so that one of them is forgotten. -/
theorem C88_same_path_false (x : Ext F) (path : Str) : ∃ (cfg : Toml F) (a : Args F), WellFormed cfg ∧
    parse x cfg = .ok a ∧ ¬ Topology.Distinct a.topology := by
  let t (snk : String) : Toml F := .table [("path".toList, .str path),
    ("forwards".toList, .array [.str snk.toList])]
  refine ⟨.table [("sinks".toList, .table [("console".toList, .table []), ("null".toList, .table [])]),
    ("sources".toList, .table [("files".toList,
      .table [("one".toList, t "sinks.console"), ("two".toList, t "sinks.null")])])], _, ?_, rfl, ?_⟩
  · simp only [t, wf_table, wf_str, wf_array, List.map_cons, List.map_nil, List.forall_mem_cons, and_true,
      List.not_mem_nil, false_implies, implies_true]
    decide +kernel
  · unfold Topology.Distinct
    intro hn
    have hsub := List.Nodup.sublist (List.sublist_append_right _ _) hn
    simp only [Args.topology, Args.sourceNodes, List.map_append, List.map_cons] at hsub
    have := List.Nodup.sublist (List.sublist_append_right _ _) hsub
    have := (List.nodup_cons.1 this).2
    have := List.Nodup.sublist (List.sublist_append_right _ _) this
    simp at this

/-! ## C89 -/

/-- **C89.**  In every configuration that loads, the console, Wavefront, InfluxDB, Prometheus, Elasticsearch and native sinks and
all JSON and programmable filters add exactly the global tags: those written as strings with that value, those taken
from the environment with the value of their variable. -/
theorem C89_global_tags (x : Ext F) (cfg : Toml F) (hw : WellFormed cfg) (a : Args F) (h : parse x cfg = .ok a) :
    (∀ s, a.console = some s → HasGlobalTags x cfg s.tags) ∧
    (∀ s, a.wavefront = some s → HasGlobalTags x cfg s.tags) ∧
    (∀ s, a.influxdb = some s → HasGlobalTags x cfg s.tags) ∧
    (∀ s, a.prometheus = some s → HasGlobalTags x cfg s.tags) ∧
    (∀ s, a.elasticsearch = some s → HasGlobalTags x cfg s.tags) ∧
    (∀ s, a.nativeSink = some s → HasGlobalTags x cfg s.tags) ∧
    (∀ f ∈ a.jsons, HasGlobalTags x cfg f.tags) ∧
    (∀ f ∈ a.programmables, HasGlobalTags x cfg f.tags) := by
  obtain ⟨tags, p⟩ := parse_ok h
  have ht := parseTags_ok hw p.tagsOk
  refine ⟨?_, ?_, ?_, ?_, ?_, ?_, ?_, ?_⟩
  · intro s hs
    rcases p.console with ⟨t, v, h1, h2, h3⟩ | ⟨-, h3⟩ <;> rw [hs] at h3 <;>
      simp only [Option.some.injEq, reduceCtorEq] at h3
    subst h3
    simp only [console, bind_ok, pure_ok] at h2
    obtain ⟨b, -, f, h4, rfl⟩ := h2
    exact ht
  · intro s hs
    rcases p.wavefront with ⟨t, v, h1, h2, h3⟩ | ⟨-, h3⟩ <;> rw [hs] at h3 <;>
      simp only [Option.some.injEq, reduceCtorEq] at h3
    subst h3
    simp only [wavefront, bind_ok, pure_ok] at h2
    obtain ⟨_, -, _, -, _, -, _, -, _, -, _, -, f, h4, rfl⟩ := h2
    exact ht
  · intro s hs
    rcases p.influxdb with ⟨t, v, h1, h2, h3⟩ | ⟨-, h3⟩ <;> rw [hs] at h3 <;>
      simp only [Option.some.injEq, reduceCtorEq] at h3
    subst h3
    simp only [influxdb, bind_ok, pure_ok] at h2
    obtain ⟨_, -, _, -, _, -, _, -, f, h4, rfl⟩ := h2
    exact ht
  · intro s hs
    rcases p.prometheus with ⟨t, v, h1, h2, h3⟩ | ⟨-, h3⟩ <;> rw [hs] at h3 <;>
      simp only [Option.some.injEq, reduceCtorEq] at h3
    subst h3
    simp only [prometheus, bind_ok, pure_ok] at h2
    obtain ⟨_, -, _, -, _, -, f, h4, rfl⟩ := h2
    exact ht
  · intro s hs
    rcases p.elasticsearch with ⟨t, v, h1, h2, h3⟩ | ⟨-, h3⟩ <;> rw [hs] at h3 <;>
      simp only [Option.some.injEq, reduceCtorEq] at h3
    subst h3
    simp only [elasticsearch, bind_ok, pure_ok] at h2
    obtain ⟨_, -, _, -, _, -, _, -, _, -, _, -, f, h4, rfl⟩ := h2
    exact ht
  · intro s hs
    rcases p.nativeSink with ⟨t, v, h1, h2, h3⟩ | ⟨-, h3⟩ <;> rw [hs] at h3 <;>
      simp only [Option.some.injEq, reduceCtorEq] at h3
    subst h3
    simp only [nativeSink, bind_ok, pure_ok] at h2
    obtain ⟨_, -, _, -, f, h4, rfl⟩ := h2
    exact ht
  · intro f hf
    obtain ⟨n, t, -, hj⟩ := (p.jsons.mem f).1 hf
    obtain ⟨k, h1, -, -, -, h2⟩ := json_ok hj
    simp only [Option.some.injEq] at h1
    subst h1; rw [h2]; exact ht
  · intro f hf
    obtain ⟨n, t, -, hj⟩ := (p.programmables.mem f).1 hf
    rcases prog_ok hj with ⟨-, h⟩ | ⟨k, h1, -, -, -, -, h2⟩
    · simp at h
    · simp only [Option.some.injEq] at h1
      subst h1; rw [h2]; exact ht

/-- The sample configuration is well-formed and has both kinds of tags. -/
example : WellFormed sampleConfig ∧
    GlobalTag sampleExt sampleConfig "source".toList "box7".toList ∧
    GlobalTag sampleExt sampleConfig "purpose".toList "serious_business".toList := by
  refine ⟨?_, ?_, ?_⟩
  · simp only [sampleConfig, wf_table, wf_str, wf_array, wf_int, wf_bool, List.map_cons, List.map_nil,
      List.forall_mem_cons, and_true, List.not_mem_nil, false_implies, implies_true]
    decide +kernel
  · exact .env _ "HOSTNAME".toList ⟨_, rfl, List.mem_cons_self⟩ rfl rfl rfl
  · exact .plain ⟨_, rfl, by simp⟩

/-! ## C90 -/

/-- For a number that fits, `Wrapped` means "exactly as written". -/
theorem Config.Wrapped.exact {bits : Nat} {t : Toml F} {key : String} {d v : Nat} (h : Wrapped bits t key d v)
    (hfit : ∀ i, t.get key = some (.int i) → 0 ≤ i ∧ i < 2 ^ bits) :
    t.get key = some (.int v) ∨ (t.get key = none ∧ v = d) := by
  rcases h with ⟨i, h1, h2⟩ | h
  · obtain ⟨h3, h4⟩ := hfit i h1
    rw [Int.emod_eq_of_lt h3 h4] at h2
    exact .inl (by rw [h2]; exact h1)
  · exact .inr h

/-- **C90 (global settings), partial.**  Sizes and directories are used as written, and have their defaults if they are not given.  Missing:
numbers outside 64 bits. -/
theorem C90_globals_partial (x : Ext F) (cfg : Toml F) (a : Args F) (h : parse x cfg = .ok a) :
    Wrapped 64 cfg "max-hopper-queue-bytes" 104857600 a.queueBytes ∧
    Wrapped 64 cfg "max-hopper-queue-files" 100 a.queueFiles ∧
    Wrapped 64 cfg "max-hopper-in-memory-bytes" 1048576 a.inMemoryBytes ∧
    Setting .str cfg "data-directory" "/tmp/cernan-data".toList a.dataDirectory ∧
    Setting .str cfg "scripts-directory" "/tmp/cernan-scripts".toList a.scriptsDirectory := by
  obtain ⟨tags, p⟩ := parse_ok h
  exact ⟨p.queueBytes, p.queueFiles, p.inMemoryBytes, p.dataDirectory, p.scriptsDirectory⟩

/-- **C90 (filters), partial.**  Each filter has the settings written in its own table.  Missing: tolerances of flush-boundary
filters outside 64 bits. -/
theorem C90_filters_partial (x : Ext F) (cfg : Toml F) (a : Args F) (h : parse x cfg = .ok a) :
    (∀ f ∈ a.delays, ∃ name t, Entry cfg ["filters", "delay"] name t ∧
      f.path = "filters.delay.".toList ++ name ∧ t.get "tolerance" = some (.int f.tolerance)) ∧
    (∀ f ∈ a.jsons, ∃ name t, Entry cfg ["filters", "json_encode"] name t ∧
      f.path = "filters.json_encode.".toList ++ name ∧ Setting .bool t "parse_line" false f.parseLine) ∧
    (∀ f ∈ a.boundaries, ∃ name t, Entry cfg ["filters", "flush_boundary"] name t ∧
      f.path = "filters.flush_boundary.".toList ++ name ∧
      ∃ i, t.get "tolerance" = some (.int i) ∧ (f.tolerance : Int) = i % 2 ^ 64) ∧
    (∀ f ∈ a.programmables, ∃ name t, Entry cfg ["filters", "programmable"] name t ∧
      f.path = "filters.programmable.".toList ++ name ∧ f.scriptsDirectory = a.scriptsDirectory ∧
      ∃ s, t.get "script" = some (.str s) ∧ f.script = x.join a.scriptsDirectory s) := by
  obtain ⟨tags, p⟩ := parse_ok h
  refine ⟨?_, ?_, ?_, ?_⟩
  · intro f hf
    obtain ⟨n, t, hE, hk⟩ := (p.delays.mem f).1 hf
    rcases delay_ok hk with ⟨-, h⟩ | ⟨k, h1, h2, h3, -⟩
    · simp at h
    · simp only [Option.some.injEq] at h1
      subst h1; exact ⟨n, t, hE, h2, h3⟩
  · intro f hf
    obtain ⟨n, t, hE, hk⟩ := (p.jsons.mem f).1 hf
    obtain ⟨k, h1, h2, h3, -⟩ := json_ok hk
    simp only [Option.some.injEq] at h1
    subst h1; exact ⟨n, t, hE, h2, h3⟩
  · intro f hf
    obtain ⟨n, t, hE, hk⟩ := (p.boundaries.mem f).1 hf
    rcases boundary_ok hk with ⟨-, h⟩ | ⟨k, h1, h2, h3, -⟩
    · simp at h
    · simp only [Option.some.injEq] at h1
      subst h1; exact ⟨n, t, hE, h2, h3⟩
  · intro f hf
    obtain ⟨n, t, hE, hk⟩ := (p.programmables.mem f).1 hf
    rcases prog_ok hk with ⟨-, h⟩ | ⟨k, h1, h2, h3, h4, -⟩
    · simp at h
    · simp only [Option.some.injEq] at h1
      subst h1; exact ⟨n, t, hE, h2, h4, h3⟩

/-- **C90 (sinks), partial.**  Each sink has the settings written in its own section, and the defaults for what is not
written there.  Missing: ports outside 16 bits, attempt limits outside 8 bits, other numbers outside 64 bits
(`C90_wraps_false`), and `padding` and `percentiles` that are not tables (`C90_ignored_false`). -/
theorem C90_sinks_partial (x : Ext F) (cfg : Toml F) (a : Args F) (h : parse x cfg = .ok a) :
    (∀ s, a.console = some s → ∃ t, cfg.at ["sinks", "console"] = some t ∧
      Setting .int t "bin_width" 1 s.binWidth) ∧
    (∀ s, a.wavefront = some s → ∃ t, cfg.at ["sinks", "wavefront"] = some t ∧
      Wrapped 16 t "port" 2878 s.port ∧ Setting .str t "host" "localhost".toList s.host ∧
      Setting .int t "bin_width" 1 s.binWidth ∧ OptionalWrapped 64 t "age_threshold" s.ageThreshold ∧
      (∀ tbl, t.get "percentiles" = some (.table tbl) → tbl = s.percentiles.map fun p => (p.1, .float p.2)) ∧
      (t.get "percentiles" = none → s.percentiles = x.percentiles) ∧
      (∀ tbl, t.get "padding" = some (.table tbl) →
        Setting .bool (.table tbl) "set" false s.pad.set ∧ Setting .bool (.table tbl) "sum" false s.pad.sum ∧
        Setting .bool (.table tbl) "summarize" false s.pad.summarize ∧
        Setting .bool (.table tbl) "histogram" false s.pad.histogram) ∧
      (t.get "padding" = none → s.pad = ⟨false, false, false, false⟩)) ∧
    (∀ s, a.influxdb = some s → ∃ t, cfg.at ["sinks", "influxdb"] = some t ∧
      Wrapped 16 t "port" 8086 s.port ∧ Setting .bool t "secure" true s.secure ∧
      Setting .str t "host" "localhost".toList s.host ∧ Setting .str t "db" "cernan".toList s.db) ∧
    (∀ s, a.prometheus = some s → ∃ t, cfg.at ["sinks", "prometheus"] = some t ∧
      Wrapped 16 t "port" 8086 s.port ∧ Setting .str t "host" "localhost".toList s.host ∧
      OptionalWrapped 64 t "age_threshold" s.ageThreshold ∧
      Wrapped 64 t "capacity_in_seconds" 600 s.capacityInSeconds) ∧
    (∀ s, a.elasticsearch = some s → ∃ t, cfg.at ["sinks", "elasticsearch"] = some t ∧
      Wrapped 8 t "delivery_attempt_limit" 10 s.deliveryAttemptLimit ∧ Wrapped 64 t "port" 9200 s.port ∧
      Setting .str t "host" "127.0.0.1".toList s.host ∧ Optional .str t "index-prefix" s.indexPrefix ∧
      Setting .bool t "secure" false s.secure ∧ Setting .str t "index_type" "payload".toList s.indexType) ∧
    (∀ s, a.nativeSink = some s → ∃ t, cfg.at ["sinks", "native"] = some t ∧
      Wrapped 16 t "port" 1972 s.port ∧ Setting .str t "host" "localhost".toList s.host) := by
  obtain ⟨tags, p⟩ := parse_ok h
  refine ⟨?_, ?_, ?_, ?_, ?_, ?_⟩
  · intro s hs
    rcases p.console with ⟨t, v, h1, h2, h3⟩ | ⟨-, h3⟩ <;> rw [hs] at h3 <;>
      simp only [Option.some.injEq, reduceCtorEq] at h3
    subst h3
    simp only [console, bind_ok, pure_ok, setting_int] at h2
    obtain ⟨b, hb, f, h4, rfl⟩ := h2
    exact ⟨t, h1, hb⟩
  · intro s hs
    rcases p.wavefront with ⟨t, v, h1, h2, h3⟩ | ⟨-, h3⟩ <;> rw [hs] at h3 <;>
      simp only [Option.some.injEq, reduceCtorEq] at h3
    subst h3
    simp only [wavefront, bind_ok, pure_ok, setting_int, setting_str, wrapped_16, optional_64] at h2
    obtain ⟨pd, hpad, pc, hpc, pt, hpt, ag, hag, ho, hho, bw, hbw, f, h4, rfl⟩ := h2
    refine ⟨t, h1, hpt, hho, hbw, hag, ?_, ?_, ?_, ?_⟩
    · intro tbl ht
      simp only [percentiles, ht, mapAll_ok] at hpc
      clear hpad h1 ht hs
      dsimp only
      induction tbl generalizing pc with
      | nil => cases pc <;> simp_all
      | cons kv tbl ih =>
        cases pc with
        | nil => simp at hpc
        | cons q pc =>
          simp only [List.map_cons, List.cons.injEq, bind_ok, pure_ok, asFloat_ok] at hpc
          obtain ⟨⟨f, hf, rfl⟩, h5⟩ := hpc
          rw [List.map_cons, ih _ h5]
          obtain ⟨k, v⟩ := kv
          simp only at hf
          rw [hf]
    · intro ht
      simp only [percentiles, ht, Except.ok.injEq] at hpc
      exact hpc.symm
    · intro tbl ht
      simp only [padding, ht, bind_ok, pure_ok, setting_bool] at hpad
      obtain ⟨b1, g1, b2, g2, b3, g3, b4, g4, rfl⟩ := hpad
      exact ⟨g1, g2, g3, g4⟩
    · intro ht
      simp only [padding, ht, Except.ok.injEq] at hpad
      exact hpad.symm
  · intro s hs
    rcases p.influxdb with ⟨t, v, h1, h2, h3⟩ | ⟨-, h3⟩ <;> rw [hs] at h3 <;>
      simp only [Option.some.injEq, reduceCtorEq] at h3
    subst h3
    simp only [influxdb, bind_ok, pure_ok, setting_bool, setting_str, wrapped_16] at h2
    obtain ⟨_, g1, _, g2, _, g3, _, g4, f, h4, rfl⟩ := h2
    exact ⟨t, h1, g1, g2, g3, g4⟩
  · intro s hs
    rcases p.prometheus with ⟨t, v, h1, h2, h3⟩ | ⟨-, h3⟩ <;> rw [hs] at h3 <;>
      simp only [Option.some.injEq, reduceCtorEq] at h3
    subst h3
    simp only [prometheus, bind_ok, pure_ok, optional_64, setting_str, wrapped_16, wrapped_64] at h2
    obtain ⟨_, g1, _, g2, _, g3, f, g4, rfl⟩ := h2
    exact ⟨t, h1, g2, g3, g1, g4⟩
  · intro s hs
    rcases p.elasticsearch with ⟨t, v, h1, h2, h3⟩ | ⟨-, h3⟩ <;> rw [hs] at h3 <;>
      simp only [Option.some.injEq, reduceCtorEq] at h3
    subst h3
    simp only [elasticsearch, bind_ok, pure_ok, setting_bool, setting_str, wrapped_8, wrapped_64,
      optional_str] at h2
    obtain ⟨_, g1, _, g2, _, g3, _, g4, _, g5, _, g6, f, h4, rfl⟩ := h2
    exact ⟨t, h1, g1, g2, g3, g4, g5, g6⟩
  · intro s hs
    rcases p.nativeSink with ⟨t, v, h1, h2, h3⟩ | ⟨-, h3⟩ <;> rw [hs] at h3 <;>
      simp only [Option.some.injEq, reduceCtorEq] at h3
    subst h3
    simp only [nativeSink, bind_ok, pure_ok, setting_str, wrapped_16] at h2
    obtain ⟨_, g1, _, g2, f, h4, rfl⟩ := h2
    exact ⟨t, h1, g1, g2⟩

/-- **C90 (Kafka), partial.**  Each Kafka sink has the settings written in its own table; `librdkafka` settings are passed on, each
number, string and boolean as it would be printed.  Missing: `librdkafka` settings of other types, which are ignored. -/
theorem C90_kafka_partial (x : Ext F) (cfg : Toml F) (a : Args F) (h : parse x cfg = .ok a) :
    ∀ k ∈ a.kafkas, ∃ name t, Entry cfg ["sinks", "kafka"] name t ∧ k.path = "sinks.kafka.".toList ++ name ∧
      t.get "topic" = some (.str k.topic) ∧ t.get "brokers" = some (.str k.brokers) ∧
      Wrapped 64 t "max_message_bytes" 10485760 k.maxMessageBytes ∧
      (t.get "librdkafka" = none → k.rdkafka = none) ∧
      (∀ v, t.get "librdkafka" = some v → ∃ tbl kvs, v = .table tbl ∧ k.rdkafka = some kvs ∧
        (kvs.map (·.1)).Sublist (tbl.map (·.1)) ∧
        ∀ key s, (key, s) ∈ kvs ↔ ∃ v, (key, v) ∈ tbl ∧ RdValue x v s) := by
  obtain ⟨tags, p⟩ := parse_ok h
  intro k hk
  obtain ⟨n, t, hE, hk⟩ := (p.kafkas.mem k).1 hk
  rcases kafka_ok hk with ⟨-, h⟩ | ⟨k', h1, -, h2, h3, h4, h5, -, h6⟩
  · simp at h
  simp only [Option.some.injEq] at h1
  subst h1
  refine ⟨n, t, hE, h2, h3, h4, h6, ?_, ?_⟩
  · intro hn
    rcases h5 with ⟨tbl, h7, -⟩ | ⟨-, h7⟩
    · rw [hn] at h7; simp at h7
    · exact h7
  · intro v hv
    rcases h5 with ⟨tbl, h7, h8⟩ | ⟨h7, -⟩
    · rw [hv] at h7
      simp only [Option.some.injEq] at h7
      subst h7
      refine ⟨tbl, _, rfl, h8, ?_, ?_⟩
      · clear h8 hv
        induction tbl with
        | nil => simp
        | cons kv tbl ih =>
          obtain ⟨key, v⟩ := kv
          cases v <;> simp only [List.filterMap_cons, rdkafkaEntry, List.map_cons] <;>
            first | exact ih.cons_cons _ | exact ih.cons _
      · intro key s
        rw [List.mem_filterMap]
        constructor
        · rintro ⟨⟨key', v⟩, hm, he⟩
          cases v <;> simp only [rdkafkaEntry, Option.some.injEq, Prod.mk.injEq, reduceCtorEq] at he
          · obtain ⟨rfl, rfl⟩ := he; exact ⟨_, hm, .str _⟩
          · obtain ⟨rfl, rfl⟩ := he; exact ⟨_, hm, .int _⟩
          · obtain ⟨rfl, rfl⟩ := he; exact ⟨_, hm, .float _⟩
          · rename_i b
            obtain ⟨rfl, rfl⟩ := he
            cases b
            · exact ⟨_, hm, .no⟩
            · exact ⟨_, hm, .yes⟩
        · rintro ⟨v, hm, hv⟩
          cases hv
          · exact ⟨_, hm, rfl⟩
          · exact ⟨_, hm, rfl⟩
          · exact ⟨_, hm, rfl⟩
          · exact ⟨_, hm, rfl⟩
          · exact ⟨_, hm, rfl⟩
    · rw [hv] at h7; simp at h7

/-- **C90 (sources), partial.**  Each source has the settings written in its own table, and the defaults for what is not
written there; statsd, graphite and Avro sources have somewhere to send to; the mappings of a statsd source are tried from the last
of its table to the first.  Missing: ports outside 16 bits, other numbers outside 64 bits (`C90_wraps_false`). -/
theorem C90_sources_partial (x : Ext F) (cfg : Toml F) (a : Args F) (h : parse x cfg = .ok a) :
    (∀ s ∈ a.files, ∃ name t, Entry cfg ["sources", "files"] name t ∧ t.get "path" = some (.str s.file) ∧
      Wrapped 64 t "max_read_bytes" 2048 s.maxReadBytes) ∧
    (∀ s ∈ a.statsds, ∃ name t, Entry cfg ["sources", "statsd"] name t ∧
      s.path = "sources.statsd.".toList ++ name ∧ s.forwards ≠ [] ∧
      Wrapped 16 t "port" 8125 s.port ∧ Setting .str t "host" "localhost".toList s.host ∧
      Setting .float t "summarize_error_bound" x.hundredth s.errorBound ∧
      (t.get "mapping" = none → s.masks = []) ∧
      (∀ v, t.get "mapping" = some v → ∃ tbl, v = .table tbl ∧
        (∀ m ∈ s.masks, x.regexOk m.1 = true) ∧
        tbl.map (fun e => (e.2.get "mask", e.2.get "bounds")) =
          s.masks.reverse.map fun m => (some (.str m.1), some (.array (m.2.map .float))))) ∧
    (∀ s ∈ a.graphites, ∃ name t, Entry cfg ["sources", "graphite"] name t ∧
      s.path = "sources.graphite.".toList ++ name ∧ s.forwards ≠ [] ∧
      Wrapped 16 t "port" 2003 s.port ∧ Setting .str t "host" "localhost".toList s.host) ∧
    (∀ s ∈ a.avros, ∃ name t, Entry cfg ["sources", "avro"] name t ∧
      s.path = "sources.avro.".toList ++ name ∧ s.forwards ≠ [] ∧
      Wrapped 16 t "port" 2002 s.port ∧ Setting .str t "host" "localhost".toList s.host) ∧
    (∀ s ∈ a.natives, ∃ name t, Entry cfg ["sources", "native"] name t ∧
      s.path = "sources.native.".toList ++ name ∧
      Wrapped 16 t "port" 1972 s.port ∧ Setting .str t "ip" "0.0.0.0".toList s.host) := by
  obtain ⟨tags, p⟩ := parse_ok h
  refine ⟨?_, ?_, ?_, ?_, ?_⟩
  · intro s hs
    obtain ⟨n, t, hE, hk⟩ := (p.files.mem s).1 hs
    rcases file_ok hk with ⟨-, h⟩ | ⟨k, h1, h2, -, -, h3⟩
    · simp at h
    · simp only [Option.some.injEq] at h1
      subst h1; exact ⟨n, t, hE, h2, h3⟩
  · intro s hs
    obtain ⟨n, t, hE, hk⟩ := (p.statsds.mem s).1 hs
    rcases statsd_ok hk with ⟨-, h⟩ | ⟨k, h1, -, h2, h3, h4, -, h5, h6, h7⟩
    · simp at h
    simp only [Option.some.injEq] at h1
    subst h1
    refine ⟨n, t, hE, h2, h5, h3, h4, h7, ?_, ?_⟩
    · intro hn
      simp only [mappings, fieldOr_ok, hn, reduceCtorEq, false_and, exists_false, false_or, true_and] at h6
      exact h6
    · intro v hv
      simp only [mappings, fieldOr_ok, hv, Option.some.injEq, reduceCtorEq, false_and, or_false,
        exists_eq_left', bind_ok, pure_ok, asTable_ok, mapAll_ok] at h6
      obtain ⟨tbl, rfl, ms, h8, h9⟩ := h6
      refine ⟨tbl, rfl, ?_⟩
      rw [← h9, List.reverse_reverse]
      have key : ∀ e m, mapping x e = .ok m → x.regexOk m.1 = true ∧
          (e.2.get "mask", e.2.get "bounds") = (some (.str m.1), some (.array (m.2.map .float))) := by
        rintro ⟨k, v⟩ m hm
        simp only [mapping] at hm
        split at hm
        · rename_i mv hmask
          simp only [bind_ok, asStr_ok] at hm
          obtain ⟨ms, rfl, hm⟩ := hm
          split at hm
          · rename_i hre
            split at hm
            · rename_i bv hb
              simp only [bind_ok, pure_ok, asArray_ok, mapAll_ok] at hm
              obtain ⟨l, rfl, bs, hl, rfl⟩ := hm
              refine ⟨hre, ?_⟩
              simp only [hmask, hb]
              have : l = bs.map .float := by
                clear hb
                induction l generalizing bs with
                | nil => cases bs <;> simp_all
                | cons v l ih =>
                  cases bs with
                  | nil => simp at hl
                  | cons b bs =>
                    simp only [List.map_cons, List.cons.injEq, asFloat_ok] at hl ⊢
                    exact ⟨hl.1, ih bs hl.2⟩
              rw [this]
            · simp at hm
          · simp at hm
        · simp at hm
      constructor
      · intro m hm
        rw [List.mem_reverse] at hm
        have : (.ok m : M _) ∈ ms.map .ok := List.mem_map.2 ⟨m, hm, rfl⟩
        rw [← h8] at this
        obtain ⟨e, -, he⟩ := List.mem_map.1 this
        exact (key e m he).1
      · clear h9 hv
        induction tbl generalizing ms with
        | nil => cases ms <;> simp_all
        | cons e tbl ih =>
          cases ms with
          | nil => simp at h8
          | cons m ms =>
            simp only [List.map_cons, List.cons.injEq] at h8 ⊢
            exact ⟨(key e m h8.1).2, ih ms h8.2⟩
  · intro s hs
    obtain ⟨n, t, hE, hk⟩ := (p.graphites.mem s).1 hs
    rcases graphite_ok hk with ⟨-, h⟩ | ⟨k, h1, -, h2, h3, h4, -, h5⟩
    · simp at h
    · simp only [Option.some.injEq] at h1
      subst h1; exact ⟨n, t, hE, h2, h5, h3, h4⟩
  · intro s hs
    obtain ⟨n, t, hE, hk⟩ := (p.avros.mem s).1 hs
    rcases avro_ok hk with ⟨-, h⟩ | ⟨k, h1, -, h2, h3, h4, -, h5⟩
    · simp at h
    · simp only [Option.some.injEq] at h1
      subst h1; exact ⟨n, t, hE, h2, h5, h3, h4⟩
  · intro s hs
    obtain ⟨n, t, hE, hk⟩ := (p.natives.mem s).1 hs
    rcases nativeSource_ok hk with ⟨-, h⟩ | ⟨k, h1, -, h2, h3, h4, -⟩
    · simp at h
    · simp only [Option.some.injEq] at h1
      subst h1; exact ⟨n, t, hE, h2, h3, h4⟩

/-- **C90 (what loads).**  A configuration loads exactly if every setting of a component it asks for is of its
type, statsd, graphite and Avro sources have somewhere to send to, and the environment variables and masks it names are usable. -/
theorem C90_loads (x : Ext F) (cfg : Toml F) : (∃ a, parse x cfg = .ok a) ↔ Acceptable x cfg := parse_succ

/-- The sample configuration is acceptable; one with a statsd source that forwards nowhere is not. -/
example : Acceptable sampleExt sampleConfig := (C90_loads _ _).1 ⟨_, rfl⟩

example (x : Ext F) : ¬ Acceptable x (.table [("sources".toList, .table [("statsd".toList, .table [("s".toList,
    .table [("port".toList, .int 8125)])])])]) := by
  intro h
  obtain ⟨a, h⟩ := (C90_loads _ _).2 h
  have e : (.error .panic : M (Args F)) = .ok a := h
  cases e

/-- C90 does not hold for every number: port 70000 becomes 4464, an attempt limit of 256 becomes 0 and a capacity of -1
becomes `2 ^ 64 - 1`. -/
theorem C90_wraps_false (x : Ext F) : ∃ (cfg : Toml F) (a : Args F), parse x cfg = .ok a ∧
    cfg.at ["sinks", "influxdb", "port"] = some (.int 70000) ∧ a.influxdb.map (·.port) = some 4464 ∧
    cfg.at ["sinks", "elasticsearch", "delivery_attempt_limit"] = some (.int 256) ∧
    a.elasticsearch.map (·.deliveryAttemptLimit) = some 0 ∧
    cfg.at ["sinks", "prometheus", "capacity_in_seconds"] = some (.int (-1)) ∧
    a.prometheus.map (·.capacityInSeconds) = some (2 ^ 64 - 1) :=
  ⟨.table [("sinks".toList, .table [("influxdb".toList, .table [("port".toList, .int 70000)]),
    ("elasticsearch".toList, .table [("delivery_attempt_limit".toList, .int 256)]),
    ("prometheus".toList, .table [("capacity_in_seconds".toList, .int (-1))])])], _, rfl, rfl, rfl, rfl, rfl, rfl, rfl⟩

/-- Nor is every setting of the wrong type refused: `padding` and `percentiles` that are not tables, and a section that is
not a table, are ignored. -/
theorem C90_ignored_false (x : Ext F) : ∃ (cfg : Toml F) (a : Args F), parse x cfg = .ok a ∧
    cfg.at ["sinks", "wavefront", "padding"] = some (.bool true) ∧
    (a.wavefront.map (·.pad)) = some ⟨false, false, false, false⟩ ∧
    cfg.at ["sinks", "console"] = some (.int 3) ∧ (a.console.map (·.binWidth)) = some 1 :=
  ⟨.table [("sinks".toList, .table [("wavefront".toList, .table [("padding".toList, .bool true)]),
    ("console".toList, .int 3)])], _, rfl, rfl, rfl, rfl, rfl⟩

/-- A setting of the wrong type elsewhere stops the load. -/
example (x : Ext F) : parse x (.table [("sinks".toList, .table [("influxdb".toList,
    .table [("port".toList, .str "8086".toList)])])]) = .error .panic := rfl

/-! ## C91 -/

/-- The order in which nodes are started does not matter to what is forwarded. -/
theorem Config.SameNodes.forwards {c d : Topology.Config} (h : SameNodes c d) (n y : Str) :
    Topology.Forwards c n y ↔ Topology.Forwards d n y := by
  unfold Topology.Forwards
  simp only [List.mem_append, h.filters.mem_iff, h.natives.mem_iff, h.sources.mem_iff]

theorem Config.SameNodes.distinct {c d : Topology.Config} (h : SameNodes c d) :
    Topology.Distinct c ↔ Topology.Distinct d := by
  unfold Topology.Distinct
  exact (h.sinks.append (((h.filters.append h.natives).append h.sources).map _)).nodup_iff

private theorem asks_iff {x : Ext F} {cfg : Toml F} {a : Args F} (h : parse x cfg = .ok a)
    {c : Topology.Config} (hc : SameNodes c a.topology) (n y : Str) :
    Topology.Forwards c n y ↔ AsksForward x cfg n y := by
  obtain ⟨-, h2, h3, h4⟩ := C88_nodes x cfg a h
  rw [hc.forwards]
  unfold Topology.Forwards AsksForward
  simp only [List.mem_append, h2, h3, h4, or_assoc]

/-- **C91.**  From the configuration to the running process: if a configuration loads and starts, in whatever order, then
the channels each filter and source holds are exactly those its table lists, once each, and each sink counts as upstream
exactly the entries that list it; the flush timer pulses exactly what the sources list.  (`FilesDistinct`: no file is tailed twice.) -/
theorem C91_wiring (x : Ext F) (hq : ∀ p q, x.quote p = x.quote q → p = q) (cfg : Toml F)
    (hw : WellFormed cfg) (hf : FilesDistinct cfg) (a : Args F) (h : parse x cfg = .ok a)
    (c : Topology.Config) (hc : SameNodes c a.topology) (w : Topology.Wiring) (hs : Topology.wire c = .ok w) :
    (∀ n, n ∈ w.sinks.map (·.1) ↔ SinkNode cfg n) ∧
    (∀ n, n ∈ w.filters.map (·.1) ↔ ∃ fs, FilterNode cfg n fs) ∧
    (∀ n, n ∈ w.sources.map (·.1) ↔ ∃ fs, NativeNode cfg n fs ∨ SourceNode x cfg n fs) ∧
    w.started.Nodup ∧
    (∀ s ups, (s, ups) ∈ w.sinks → ups.Nodup ∧ ∀ n, n ∈ ups ↔ AsksForward x cfg n s) ∧
    (∀ f ups downs, (f, ups, downs) ∈ w.filters → downs.Nodup ∧ (∀ y, y ∈ downs ↔ AsksForward x cfg f y) ∧
      ups.Nodup ∧ ∀ n, n ∈ ups ↔ AsksForward x cfg n f ∧ ¬ AsksForward x cfg f n) ∧
    (∀ s downs, (s, downs) ∈ w.sources → downs.Nodup ∧ ∀ y, y ∈ downs ↔ AsksForward x cfg s y) ∧
    w.flush.Nodup ∧
    (∀ y, y ∈ w.flush ↔ ∃ n fs, (NativeNode cfg n fs ∨ SourceNode x cfg n fs) ∧ y ∈ fs) := by
  have hda := (C88_names_partial x hq cfg hw a h).2 hf
  have hd := hc.distinct.2 hda
  obtain ⟨n1, n2, n3, n4⟩ := C88_nodes x cfg a h
  obtain ⟨w1, w2, w3, w4, w5, w6, w7, w8⟩ := Verif.C57_mutual c hd w hs
  refine ⟨?_, ?_, ?_, ?_, ?_, ?_, ?_, w7, ?_⟩
  · intro n; rw [w1, hc.sinks.mem_iff, n1]
  · intro n
    rw [w2, List.mem_map]
    constructor
    · rintro ⟨⟨m, fs⟩, hm, rfl⟩; exact ⟨fs, (n2 _ _).1 (hc.filters.mem_iff.1 hm)⟩
    · rintro ⟨fs, hm⟩; exact ⟨(n, fs), hc.filters.mem_iff.2 ((n2 _ _).2 hm), rfl⟩
  · intro n
    rw [w3, List.mem_map]
    constructor
    · rintro ⟨⟨m, fs⟩, hm, rfl⟩
      rcases List.mem_append.1 hm with hm | hm
      · exact ⟨fs, .inl ((n3 _ _).1 (hc.natives.mem_iff.1 hm))⟩
      · exact ⟨fs, .inr ((n4 _ _).1 (hc.sources.mem_iff.1 hm))⟩
    · rintro ⟨fs, hm | hm⟩
      · exact ⟨(n, fs), List.mem_append_left _ (hc.natives.mem_iff.2 ((n3 _ _).2 hm)), rfl⟩
      · exact ⟨(n, fs), List.mem_append_right _ (hc.sources.mem_iff.2 ((n4 _ _).2 hm)), rfl⟩
  · unfold Topology.Wiring.started
    rw [w1, w2, w3]
    unfold Topology.Distinct at hd
    simpa [List.map_append] using hd
  · intro s ups hm
    obtain ⟨i1, i2⟩ := w4 s ups hm
    exact ⟨i1, fun n => by rw [i2, asks_iff h hc]⟩
  · intro f ups downs hm
    obtain ⟨⟨i1, i2⟩, i3, i4⟩ := w5 f ups downs hm
    exact ⟨i3, fun y => by rw [i4, asks_iff h hc], i1, fun n => by rw [i2, asks_iff h hc, asks_iff h hc]⟩
  · intro s downs hm
    obtain ⟨i1, i2⟩ := w6 s downs hm
    exact ⟨i1, fun y => by rw [i2, asks_iff h hc]⟩
  · intro y
    rw [w8]
    constructor
    · rintro ⟨s, hs, fs, hm, hy⟩
      obtain ⟨⟨s', fs'⟩, hm', rfl⟩ := List.mem_map.1 hs
      have hfw : Topology.Forwards c s' y := ⟨fs, hm, hy⟩
      have := (Topology.forwards_iff hd (n := s') (fs := fs')
        (by rw [List.append_assoc]; exact List.mem_append_right _ hm') y).1 hfw
      rcases List.mem_append.1 hm' with hm' | hm'
      · exact ⟨s', fs', .inl ((n3 _ _).1 (hc.natives.mem_iff.1 hm')), this⟩
      · exact ⟨s', fs', .inr ((n4 _ _).1 (hc.sources.mem_iff.1 hm')), this⟩
    · rintro ⟨n, fs, hm, hy⟩
      have hm' : (n, fs) ∈ c.natives ++ c.sources := by
        rcases hm with hm | hm
        · exact List.mem_append_left _ (hc.natives.mem_iff.2 ((n3 _ _).2 hm))
        · exact List.mem_append_right _ (hc.sources.mem_iff.2 ((n4 _ _).2 hm))
      exact ⟨n, List.mem_map.2 ⟨_, hm', rfl⟩, fs,
        by rw [List.append_assoc]; exact List.mem_append_right _ hm', hy⟩

/-- **C91 (start-up), partial.**  A configuration that loads starts exactly if every forward names a sink or filter that the configuration
asks for (not one it leaves incomplete or disabled), and every filter without forwards is forwarded to.  Missing: filters without
any neighbour, on which start-up panics (`C58_isolated_false`). -/
theorem C91_starts_partial (x : Ext F) (hq : ∀ p q, x.quote p = x.quote q → p = q) (cfg : Toml F)
    (hw : WellFormed cfg) (hf : FilesDistinct cfg) (a : Args F) (h : parse x cfg = .ok a)
    (c : Topology.Config) (hc : SameNodes c a.topology) :
    (∃ w, Topology.wire c = .ok w) ↔
      (∀ n y, AsksForward x cfg n y → SinkNode cfg y ∨ ∃ fs, FilterNode cfg y fs) ∧
      ∀ f, FilterNode cfg f [] → ∃ n, AsksForward x cfg n f := by
  have hd := hc.distinct.2 ((C88_names_partial x hq cfg hw a h).2 hf)
  obtain ⟨n1, n2, -, -⟩ := C88_nodes x cfg a h
  rw [C58_starts_partial c hd]
  simp only [asks_iff h hc, Topology.HasChannel, hc.sinks.mem_iff, hc.filters.mem_iff, n1, n2]

/-- The sample configuration meets the hypotheses and starts. -/
example : ∃ a w, parse sampleExt sampleConfig = .ok a ∧ Topology.wire a.topology = .ok w ∧
    w.flush = ["sinks.influxdb".toList, "filters.delay.keep".toList] :=
  ⟨_, _, rfl, rfl, by decide +kernel⟩

/-- A delay filter whose tolerance is misspelt is skipped, and what forwards to it stops the start. -/
example : ∃ a, parse sampleExt (.table [
    ("filters".toList, .table [("delay".toList, .table [("d".toList, .table [("tolerence".toList, .int 1)])])]),
    ("sources".toList, .table [("statsd".toList, .table [("s".toList,
      .table [("forwards".toList, .array [.str "filters.delay.d".toList])])])])]) = .ok a ∧
    Topology.wire a.topology = .error ⟨.exit 1, []⟩ := ⟨_, rfl, by rfl⟩

end Verif
