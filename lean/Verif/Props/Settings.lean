import Verif.Spec.Settings
import Verif.Lemmas.Config
/-!
# C109: settings cernan does not know change nothing
-/
namespace Verif
open Config
variable {F : Type}

private theorem get_only {keys : List String} (t : Toml F) {k : String} (h : k ∈ keys) : (only keys t).get k = t.get k := by
  cases t with
  | table t =>
    simp only [only, Toml.get]
    induction t with
    | nil => rfl
    | cons kv t ih =>
      obtain ⟨k', v⟩ := kv
      by_cases hk : k' = k.toList
      · have : keys.any (fun s => decide (s.toList = k')) = true := List.any_eq_true.2 ⟨k, h, by simp [hk]⟩
        rw [List.filter_cons, if_pos this]
        simp only [Config.find, if_pos hk]
      · rw [List.filter_cons]
        split
        · simp only [Config.find, if_neg hk, ih]
        · simp only [Config.find, if_neg hk, ih]
  | _ => rfl

private theorem get_under (key : String) (f : Toml F → Toml F) (t : Toml F) (k : String) :
    (under key f t).get k = if k = key then (t.get k).map f else t.get k := by
  cases t with
  | table t =>
    simp only [under, Toml.get]
    induction t with
    | nil => simp [Config.find]
    | cons kv t ih =>
      obtain ⟨k', v⟩ := kv
      by_cases hkk : k = key
      · subst hkk
        by_cases hk : k' = k.toList
        · simp [Config.find, hk]
        · simp only [List.map_cons, if_neg hk, Config.find, if_true]
          simpa using ih
      · have hne : k.toList ≠ key.toList := fun h => hkk (String.toList_inj.1 h)
        by_cases hk : k' = key.toList
        · have h2 : k' ≠ k.toList := fun h => hne (h.symm.trans hk)
          simp only [List.map_cons, if_pos hk, Config.find, if_neg h2, if_neg hkk]
          simpa [hkk] using ih
        · simp only [List.map_cons, if_neg hk, Config.find, if_neg hkk]
          simp only [if_neg hkk] at ih
          rw [ih]
  | _ => simp [under, Toml.get]

private theorem collect_every {β : Type} {g : Toml F → Toml F} {f : Str × Toml F → M (Option β)} (h : ∀ n v, f (n, g v) = f (n, v))
    (t : List (Str × Toml F)) : collect f (t.map fun kv => (kv.1, g kv.2)) = collect f t := by
  induction t with
  | nil => rfl
  | cons kv t ih => simp only [List.map_cons, collect, h, ih]

private theorem each_every {β : Type} {g : Toml F → Toml F} {f : Str × Toml F → M (Option β)} (h : ∀ n v, f (n, g v) = f (n, v))
    {t t' : Toml F} {k : String} (ht : t'.get k = (t.get k).map (every g)) : each t' k f = each t k f := by
  simp only [each, fieldOr, ht]
  cases t.get k with
  | none => rfl
  | some v => cases v <;> simp [every, asTable, collect_every h, bind, Except.bind]

private theorem filters_known (x : Ext F) (tags : TagMap) (a : Args F) (t : Toml F) : filters x tags a (knownFilters t) = filters x tags a t := by
  have hd : each (knownFilters t) "delay" delay = each t "delay" delay := by
    refine each_every (g := only ["tolerance", "forwards"]) (fun n v => ?_) (by simp [knownFilters, get_only, get_under])
    simp [delay, forwards, fieldOr, get_only]
  have hj : each (knownFilters t) "json_encode" (json tags) = each t "json_encode" (json tags) := by
    refine each_every (g := only ["parse_line", "forwards"]) (fun n v => ?_) (by simp [knownFilters, get_only, get_under])
    simp [json, forwards, fieldOr, get_only]
  have hb : each (knownFilters t) "flush_boundary" boundary = each t "flush_boundary" boundary := by
    refine each_every (g := only ["tolerance", "forwards"]) (fun n v => ?_) (by simp [knownFilters, get_only, get_under])
    simp [boundary, forwards, fieldOr, get_only]
  have hp : each (knownFilters t) "programmable" (prog x a.scriptsDirectory tags) = each t "programmable" (prog x a.scriptsDirectory tags) := by
    refine each_every (g := only ["script", "forwards"]) (fun n v => ?_) (by simp [knownFilters, get_only, get_under])
    simp [prog, forwards, fieldOr, get_only]
  simp only [filters, hd, hj, hb, hp]

private theorem field_of {α : Type} {g : Toml F → Toml F} {conv : Toml F → M α} (h : ∀ v, conv (g v) = conv v)
    {t t' : Toml F} {k : String} (ht : t'.get k = (t.get k).map g) : field? t' k conv = field? t k conv := by
  simp only [field?, ht]
  cases t.get k with
  | none => rfl
  | some v => simp only [Option.map_some, h]

private theorem fieldOr_of {α : Type} {g : Toml F → Toml F} {conv : Toml F → M α} (h : ∀ v, conv (g v) = conv v)
    {t t' : Toml F} {k : String} (ht : t'.get k = (t.get k).map g) (d : α) : fieldOr t' k conv d = fieldOr t k conv d := by
  simp only [fieldOr, ht]
  cases t.get k with
  | none => rfl
  | some v => simp only [Option.map_some, h]

private theorem padding_known (t : Toml F) : padding (under "padding" (only ["set", "sum", "summarize", "histogram"])
    (only ["padding", "percentiles", "port", "age_threshold", "host", "bin_width", "flush_interval"] t)) = padding t := by
  have hg : (under "padding" (only ["set", "sum", "summarize", "histogram"])
      (only ["padding", "percentiles", "port", "age_threshold", "host", "bin_width", "flush_interval"] t)).get "padding" =
      (t.get "padding").map (only ["set", "sum", "summarize", "histogram"]) := by simp [get_only, get_under]
  simp only [padding, hg]
  cases t.get "padding" with
  | none => rfl
  | some v =>
    cases v with
    | table p =>
      have e : ∀ k, k ∈ ["set", "sum", "summarize", "histogram"] → ∀ p' : List (Str × Toml F),
          only ["set", "sum", "summarize", "histogram"] (.table p) = .table p' → (Toml.table p').get k = (Toml.table p).get k := by
        intro k hk p' he
        rw [← he]; exact get_only _ hk
      simp only [Option.map_some]
      cases hp : only ["set", "sum", "summarize", "histogram"] (.table p) with
      | table p' =>
        simp only [fieldOr, e "set" (by simp) p' hp, e "sum" (by simp) p' hp, e "summarize" (by simp) p' hp, e "histogram" (by simp) p' hp]
      | _ => simp [only] at hp
    | _ => rfl

private theorem sinks_known (x : Ext F) (tags : TagMap) (a : Args F) (t : Toml F) : sinks x tags a (knownSinks t) = sinks x tags a t := by
  have hn : ((knownSinks t).get "null").isSome = (t.get "null").isSome := by simp [knownSinks, get_only, get_under]
  have hc : field? (knownSinks t) "console" (console x a.flushInterval tags) = field? t "console" (console x a.flushInterval tags) := by
    refine field_of (g := only ["bin_width", "flush_interval"]) (fun v => ?_) (by simp [knownSinks, get_only, get_under])
    simp [console, fieldOr, flushIntervalOr, parseFlushInterval, get_only]
  have hw : field? (knownSinks t) "wavefront" (wavefront x a.flushInterval tags) = field? t "wavefront" (wavefront x a.flushInterval tags) := by
    refine field_of (g := fun w => under "padding" (only ["set", "sum", "summarize", "histogram"])
      (only ["padding", "percentiles", "port", "age_threshold", "host", "bin_width", "flush_interval"] w)) (fun v => ?_)
      (by simp [knownSinks, get_only, get_under])
    simp only [wavefront, padding_known]
    simp [percentiles, fieldOr, field?, flushIntervalOr, parseFlushInterval, get_only, get_under]
  have hi : field? (knownSinks t) "influxdb" (influxdb x a.flushInterval tags) = field? t "influxdb" (influxdb x a.flushInterval tags) := by
    refine field_of (g := only ["port", "secure", "host", "db", "flush_interval"]) (fun v => ?_) (by simp [knownSinks, get_only, get_under])
    simp [influxdb, fieldOr, flushIntervalOr, parseFlushInterval, get_only]
  have hp : field? (knownSinks t) "prometheus" (prometheus tags) = field? t "prometheus" (prometheus tags) := by
    refine field_of (g := only ["age_threshold", "port", "host", "capacity_in_seconds"]) (fun v => ?_) (by simp [knownSinks, get_only, get_under])
    simp [prometheus, fieldOr, field?, get_only]
  have he : field? (knownSinks t) "elasticsearch" (elasticsearch x a.flushInterval tags) = field? t "elasticsearch" (elasticsearch x a.flushInterval tags) := by
    refine field_of (g := only ["delivery_attempt_limit", "port", "host", "index-prefix", "secure", "index_type", "flush_interval"]) (fun v => ?_)
      (by simp [knownSinks, get_only, get_under])
    simp [elasticsearch, fieldOr, field?, flushIntervalOr, parseFlushInterval, get_only]
  have hv : field? (knownSinks t) "native" (nativeSink x a.flushInterval tags) = field? t "native" (nativeSink x a.flushInterval tags) := by
    refine field_of (g := only ["port", "host", "flush_interval"]) (fun v => ?_) (by simp [knownSinks, get_only, get_under])
    simp [nativeSink, fieldOr, flushIntervalOr, parseFlushInterval, get_only]
  have hk : each (knownSinks t) "kafka" (kafka x a.flushInterval) = each t "kafka" (kafka x a.flushInterval) := by
    refine each_every (g := only ["enabled", "topic", "brokers", "librdkafka", "flush_interval", "max_message_bytes"]) (fun n v => ?_)
      (by simp [knownSinks, get_only, get_under])
    simp [kafka, enabled, fieldOr, field?, flushIntervalOr, parseFlushInterval, get_only]
  have ht : (∃ p p', t = .table p ∧ knownSinks t = .table p') ∨ ((∀ p, t ≠ .table p) ∧ knownSinks t = t) := by
    cases t with
    | table p => exact .inl ⟨p, _, rfl, rfl⟩
    | _ => exact .inr ⟨by simp, rfl⟩
  rcases ht with ⟨p, p', h1, h2⟩ | ⟨-, h⟩
  · have g1 : asTable (knownSinks t) = .ok p' := by rw [h2]; rfl
    have g2 : asTable t = .ok p := by rw [h1]; rfl
    simp only [sinks, hn, hc, hw, hi, hp, he, hv, hk, g1, g2, bind, Except.bind]
  · rw [h]

private theorem mapAll_every {β : Type} {g : Toml F → Toml F} {f : Str × Toml F → M β} (h : ∀ n v, f (n, g v) = f (n, v))
    (t : List (Str × Toml F)) : mapAll f (t.map fun kv => (kv.1, g kv.2)) = mapAll f t := by
  induction t with
  | nil => rfl
  | cons kv t ih => simp only [List.map_cons, mapAll, h, ih]

private theorem mappings_known (x : Ext F) (t : Toml F) : mappings x (under "mapping" (every (only ["mask", "bounds"]))
    (only ["enabled", "port", "host", "forwards", "mapping", "summarize_error_bound"] t)) = mappings x t := by
  refine fieldOr_of (g := every (only ["mask", "bounds"])) (fun v => ?_) (by simp [get_only, get_under]) _
  have hm : ∀ n v, mapping x (n, only ["mask", "bounds"] v) = mapping x (n, v) := by
    intro n v
    simp [mapping, get_only]
  cases v <;> simp [every, asTable, mapAll_every hm, bind, Except.bind]

private theorem sources_known (x : Ext F) (a : Args F) (t : Toml F) : sources x a (knownSources t) = sources x a t := by
  have hi : fieldOr (knownSources t) "internal" forwards [] = fieldOr t "internal" forwards [] := by
    refine fieldOr_of (g := only ["forwards"]) (fun v => ?_) (by simp [knownSources, get_only, get_under]) _
    simp [forwards, fieldOr, get_only]
  have hf : each (knownSources t) "files" (file x) = each t "files" (file x) := by
    refine each_every (g := only ["path", "forwards", "max_read_bytes"]) (fun n v => ?_) (by simp [knownSources, get_only, get_under])
    simp [file, forwards, fieldOr, get_only]
  have hs : each (knownSources t) "statsd" (statsd x) = each t "statsd" (statsd x) := by
    refine each_every (g := fun s => under "mapping" (every (only ["mask", "bounds"]))
      (only ["enabled", "port", "host", "forwards", "mapping", "summarize_error_bound"] s)) (fun n v => ?_)
      (by simp [knownSources, get_only, get_under])
    simp only [statsd, mappings_known]
    simp [enabled, forwards, fieldOr, get_only, get_under]
  have hg : each (knownSources t) "graphite" graphite = each t "graphite" graphite := by
    refine each_every (g := only ["enabled", "port", "host", "forwards"]) (fun n v => ?_) (by simp [knownSources, get_only, get_under])
    simp [graphite, enabled, forwards, fieldOr, get_only]
  have ha : each (knownSources t) "avro" avro = each t "avro" avro := by
    refine each_every (g := only ["enabled", "port", "host", "forwards"]) (fun n v => ?_) (by simp [knownSources, get_only, get_under])
    simp [avro, enabled, forwards, fieldOr, get_only]
  have hn : each (knownSources t) "native" nativeSource = each t "native" nativeSource := by
    refine each_every (g := only ["enabled", "port", "ip", "forwards"]) (fun n v => ?_) (by simp [knownSources, get_only, get_under])
    simp [nativeSource, enabled, forwards, fieldOr, get_only]
  have ht : (∃ p p', t = .table p ∧ knownSources t = .table p') ∨ ((∀ p, t ≠ .table p) ∧ knownSources t = t) := by
    cases t with
    | table p => exact .inl ⟨p, _, rfl, rfl⟩
    | _ => exact .inr ⟨by simp, rfl⟩
  rcases ht with ⟨p, p', h1, h2⟩ | ⟨-, h⟩
  · have g1 : asTable (knownSources t) = .ok p' := by rw [h2]; rfl
    have g2 : asTable t = .ok p := by rw [h1]; rfl
    simp only [sources, hi, hf, hs, hg, ha, hn, g1, g2, bind, Except.bind]
  · rw [h]

/-- **C109.**  Of every configuration only the settings listed in `known` matter: whether it loads, and what it loads as, is
as if nothing else stood in it. -/
theorem C109_known (x : Ext F) (cfg : Toml F) : parse x (known cfg) = parse x cfg := by
  have hg : globals x (known cfg) = globals x cfg := by
    simp [globals, fieldOr, flushIntervalOr, parseFlushInterval, known, get_only, get_under]
  have ht : parseTags x (known cfg) = parseTags x cfg := by
    simp [parseTags, fieldOr, known, get_only, get_under]
  have hf : ∀ tags a, fieldOr (known cfg) "filters" (filters x tags a) a = fieldOr cfg "filters" (filters x tags a) a :=
    fun tags a => fieldOr_of (filters_known x tags a) (by simp [known, get_only, get_under]) _
  have hs : ∀ tags a, fieldOr (known cfg) "sinks" (sinks x tags a) a = fieldOr cfg "sinks" (sinks x tags a) a :=
    fun tags a => fieldOr_of (sinks_known x tags a) (by simp [known, get_only, get_under]) _
  have ho : ∀ a, fieldOr (known cfg) "sources" (sources x a) a = fieldOr cfg "sources" (sources x a) a :=
    fun a => fieldOr_of (sources_known x a) (by simp [known, get_only, get_under]) _
  simp only [parse, hg, ht, hf, hs, ho]

/-- **C109.**  Configurations that differ only in settings that are not known, or in their place among others, load alike. -/
theorem C109_unknown (x : Ext F) (cfg cfg' : Toml F) (h : known cfg = known cfg') : parse x cfg = parse x cfg' := by
  rw [← C109_known x cfg, h, C109_known]

/-- A configuration with a misspelt setting, a sink of a kind that does not exist, and a filter that is not under a kind. -/
def misspelt : Toml Int :=
  .table [("flush_interval".toList, .int 3),
    ("sinks".toList, .table [("console".toList, .table [("flush-interval".toList, .int 7), ("bin_width".toList, .int 2)]),
      ("firehose".toList, .table [("one".toList, .table [])])]),
    ("filters".toList, .table [("keep_count".toList, .table [("script".toList, .str "keep_count.lua".toList)])])]

/-- It loads as if those were not there. -/
example (x : Ext Int) : parse x misspelt = parse x (.table [
    ("sinks".toList, .table [("console".toList, .table [("bin_width".toList, .int 2)])]), ("filters".toList, .table [])]) :=
  C109_unknown x _ _ (by rfl)

end Verif
