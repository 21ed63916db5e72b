import Verif.Lemmas.Config
/-! # When a configuration loads -/
namespace Verif.Config
variable {F : Type}

/-- The loader goes on. -/
def Succ {α : Type} (m : M α) : Prop := ∃ a, m = .ok a

theorem succ_bind {α β : Type} {m : M α} {f : α → M β} : Succ (m >>= f) ↔ ∃ a, m = .ok a ∧ Succ (f a) := by
  simp only [Succ, bind_ok]
  exact ⟨fun ⟨b, a, h1, h2⟩ => ⟨a, h1, b, h2⟩, fun ⟨a, h1, b, h2⟩ => ⟨b, a, h1, h2⟩⟩

/-- What comes next does not depend on the result. -/
theorem succ_then {α β : Type} {m : M α} {f : α → M β} {P : Prop} (h : ∀ a, Succ (f a) ↔ P) :
    Succ (m >>= f) ↔ Succ m ∧ P := by
  rw [succ_bind]
  simp only [h, exists_and_right]
  rfl

@[simp] theorem succ_pure {α : Type} (a : α) : Succ (pure a : M α) := ⟨a, rfl⟩
@[simp] theorem succ_ok {α : Type} (a : α) : Succ (.ok a : M α) := ⟨a, rfl⟩
@[simp] theorem not_succ {α : Type} (e : Topology.Stop) : ¬ Succ (.error e : M α) := by simp [Succ]

theorem succ_fieldOr {α : Type} {t : Toml F} {key : String} {conv : Toml F → M α} {d : α} :
    Succ (fieldOr t key conv d) ↔ May t key fun v => Succ (conv v) := by
  unfold May
  cases h : t.get key <;> simp [fieldOr, h]

theorem succ_field? {α : Type} {t : Toml F} {key : String} {conv : Toml F → M α} :
    Succ (field? t key conv) ↔ May t key fun v => Succ (conv v) := by
  unfold May
  cases h : t.get key with
  | none => simp [field?, h]
  | some v => simp only [field?, h, succ_then (fun _ => iff_true_intro (succ_pure _)), and_true, Option.some.injEq, forall_eq']

theorem succ_asInt {v : Toml F} : Succ (asInt v) ↔ IsInt v := by simp [Succ, IsInt]
theorem succ_asStr {v : Toml F} : Succ (asStr v) ↔ IsStr v := by simp [Succ, IsStr]
theorem succ_asBool {v : Toml F} : Succ (asBool v) ↔ IsBool v := by simp [Succ, IsBool]
theorem succ_asFloat {v : Toml F} : Succ (asFloat v) ↔ IsFloat v := by simp [Succ, IsFloat]
theorem succ_asTable {v : Toml F} : Succ (asTable v) ↔ IsTable v := by simp [Succ, IsTable]

theorem then_pure {α β : Type} {m : M α} {f : α → β} : Succ (m >>= fun a => pure (f a)) ↔ Succ m := by
  rw [succ_then (fun a => iff_true_intro (succ_pure (f a))), and_true]

theorem succ_asU64 {v : Toml F} : Succ (asU64 v) ↔ IsInt v := by rw [asU64, then_pure, succ_asInt]
theorem succ_asU16 {v : Toml F} : Succ (asU16 v) ↔ IsInt v := by rw [asU16, then_pure, succ_asInt]
theorem succ_asU8 {v : Toml F} : Succ (asU8 v) ↔ IsInt v := by rw [asU8, then_pure, succ_asInt]

theorem succ_mapAll {α β : Type} {f : α → M β} {as : List α} :
    Succ (mapAll f as) ↔ ∀ a ∈ as, Succ (f a) := by
  induction as with
  | nil => simp [mapAll]
  | cons a as ih => simp only [mapAll, succ_then fun _ => then_pure, ih, List.forall_mem_cons]

theorem succ_collect {α β : Type} {f : α → M (Option β)} {as : List α} :
    Succ (collect f as) ↔ ∀ a ∈ as, Succ (f a) := by
  induction as with
  | nil => simp [collect]
  | cons a as ih => simp only [collect, succ_then fun _ => then_pure, ih, List.forall_mem_cons]

theorem may_congr {t : Toml F} {key : String} {P Q : Toml F → Prop} (h : ∀ v, P v ↔ Q v) :
    May t key P ↔ May t key Q := by simp only [May, h]

theorem succ_arrayOf {β : Type} {f : Toml F → M β} {v : Toml F} {P : Toml F → Prop} (h : ∀ v, Succ (f v) ↔ P v) :
    Succ (asArray v >>= fun l => mapAll f l) ↔ IsArrayOf P v := by
  simp only [succ_bind, asArray_ok, succ_mapAll, h, IsArrayOf]

theorem succ_forwards {t : Toml F} : Succ (forwards t) ↔ May t "forwards" (IsArrayOf IsStr) := by
  simp only [forwards, succ_fieldOr, succ_arrayOf fun _ => succ_asStr]

theorem succ_interval {x : Ext F} {t : Toml F} {key : String} {d : Nat} :
    Succ (flushIntervalOr x t key d) ↔ May t key IsInterval := by
  rw [flushIntervalOr, then_pure]
  unfold May
  cases h : t.get key with
  | none => simp [parseFlushInterval, h]
  | some v => cases v <;> simp [parseFlushInterval, h, IsInterval, IsInt, IsFloat]

theorem succ_each {β : Type} {t : Toml F} {key : String} {f : Str × Toml F → M (Option β)} {P : Toml F → Prop}
    (h : ∀ e, Succ (f e) ↔ P e.2) : Succ (each t key f) ↔ May t key (IsTableOf P) := by
  simp only [each, succ_fieldOr, succ_bind, asTable_ok, succ_collect, h]
  rfl

theorem succ_tag {x : Ext F} {v : Toml F} : Succ (parseTag x v) ↔ IsTag x v := by
  cases v with
  | str s => simp [parseTag, IsTag, IsStr]
  | table t =>
    simp only [parseTag, IsTag, IsStr, reduceCtorEq, exists_false, false_or, Toml.get]
    cases h : find "environment".toList t with
    | none => simp
    | some e =>
      cases e with
      | bool b =>
        cases b with
        | false => simp
        | true =>
          simp only [Option.elim_some, if_true, true_and]
          cases h2 : find "value".toList t with
          | none => simp
          | some u =>
            cases u with
            | str k =>
              simp only [Option.some.injEq, Toml.str.injEq]
              cases h3 : x.env k with
              | none => simp [h3]
              | some s => simp [h3]
            | _ => simp
      | _ => simp
  | _ => simp [parseTag, IsTag, IsStr, Toml.get]

theorem succ_tags {x : Ext F} {cfg : Toml F} : Succ (parseTags x cfg) ↔ May cfg "tags" (IsTableOf (IsTag x)) := by
  simp only [parseTags, succ_fieldOr, succ_bind, asTable_ok, IsTableOf]
  refine may_congr fun v => exists_congr fun t => and_congr_right fun _ => ?_
  have := succ_mapAll (f := fun kv : Str × Toml F => do return (kv.1, ← parseTag x kv.2)) (as := t)
  simp only [then_pure, succ_tag] at this
  rw [← this]
  simp [Succ]

theorem succ_delay {e : Str × Toml F} : Succ (delay e) ↔
    May e.2 "tolerance" fun tol => IsInt tol ∧ May e.2 "forwards" (IsArrayOf IsStr) := by
  unfold May
  cases h : e.2.get "tolerance" with
  | none => simp [delay, h]
  | some v =>
    simp only [delay, h, succ_then fun _ => then_pure, succ_asInt, succ_forwards, Option.some.injEq, forall_eq']
    rfl

theorem succ_json {tags : TagMap} {e : Str × Toml F} : Succ (json tags e) ↔
    May e.2 "parse_line" IsBool ∧ May e.2 "forwards" (IsArrayOf IsStr) := by
  simp only [json, succ_then fun _ => then_pure, succ_fieldOr, succ_asBool, succ_forwards]

theorem succ_boundary {e : Str × Toml F} : Succ (boundary e) ↔
    May e.2 "tolerance" fun tol => IsInt tol ∧ May e.2 "forwards" (IsArrayOf IsStr) := by
  unfold May
  cases h : e.2.get "tolerance" with
  | none => simp [boundary, h]
  | some v =>
    simp only [boundary, h, succ_then fun _ => then_pure, succ_asU64, succ_forwards, Option.some.injEq, forall_eq']
    rfl

theorem succ_prog {x : Ext F} {dir : Str} {tags : TagMap} {e : Str × Toml F} : Succ (prog x dir tags e) ↔
    May e.2 "script" fun s => IsStr s ∧ May e.2 "forwards" (IsArrayOf IsStr) := by
  unfold May
  cases h : e.2.get "script" with
  | none => simp [prog, h]
  | some v =>
    simp only [prog, h, succ_then fun _ => then_pure, succ_asStr, succ_forwards, Option.some.injEq, forall_eq']
    rfl

theorem then_pure' {α β : Type} {m : M α} {f : α → β} : Succ (f <$> m) ↔ Succ m := by
  rw [← bind_pure_comp, then_pure]

/-- Success of a chain of independent steps. -/
theorem succ_console {x : Ext F} {g : Nat} {tags : TagMap} {t : Toml F} : Succ (console x g tags t) ↔
    May t "bin_width" IsInt ∧ May t "flush_interval" IsInterval := by
  simp only [console, succ_then fun _ => then_pure, succ_fieldOr, succ_asInt, succ_interval]

theorem succ_padding {t : Toml F} : Succ (padding t) ↔ May t "padding" fun p =>
    May p "set" IsBool ∧ May p "sum" IsBool ∧ May p "summarize" IsBool ∧ May p "histogram" IsBool := by
  have : ∀ P, May t "padding" P ↔ ∀ v, t.get "padding" = some v → P v := fun _ => Iff.rfl
  rw [this]
  cases h : t.get "padding" with
  | none => simp [padding, h]
  | some v =>
    cases v with
    | table p =>
      simp only [padding, h, Option.some.injEq, forall_eq']
      rw [succ_then fun _ => succ_then fun _ => succ_then fun _ => then_pure]
      simp only [succ_fieldOr, succ_asBool]
    | _ => simp only [padding, h, Option.some.injEq, forall_eq']; simp [May, Toml.get]

theorem succ_percentiles {x : Ext F} {t : Toml F} : Succ (percentiles x t) ↔
    May t "percentiles" fun p => IsTable p → IsTableOf IsFloat p := by
  unfold May
  cases h : t.get "percentiles" with
  | none => simp [percentiles, h]
  | some v =>
    cases v with
    | table p =>
      simp only [percentiles, h, Option.some.injEq, forall_eq', succ_mapAll, then_pure, succ_asFloat, IsTable,
        IsTableOf, Toml.table.injEq, exists_eq', true_implies, exists_eq_left']
    | _ => simp [percentiles, h, IsTable]

theorem succ_wavefront {x : Ext F} {g : Nat} {tags : TagMap} {t : Toml F} : Succ (wavefront x g tags t) ↔
    May t "padding" (fun p => May p "set" IsBool ∧ May p "sum" IsBool ∧ May p "summarize" IsBool ∧
      May p "histogram" IsBool) ∧
    May t "percentiles" (fun p => IsTable p → IsTableOf IsFloat p) ∧ May t "port" IsInt ∧
    May t "age_threshold" IsInt ∧ May t "host" IsStr ∧ May t "bin_width" IsInt ∧
    May t "flush_interval" IsInterval := by
  rw [wavefront, succ_then fun _ => succ_then fun _ => succ_then fun _ => succ_then fun _ => succ_then fun _ =>
    succ_then fun _ => then_pure]
  simp only [succ_padding, succ_percentiles, succ_fieldOr, succ_field?, succ_asU16, succ_asU64, succ_asStr,
    succ_asInt, succ_interval]

theorem succ_influxdb {x : Ext F} {g : Nat} {tags : TagMap} {t : Toml F} : Succ (influxdb x g tags t) ↔
    May t "port" IsInt ∧ May t "secure" IsBool ∧ May t "host" IsStr ∧
      May t "db" IsStr ∧ May t "flush_interval" IsInterval := by
  rw [influxdb, succ_then fun _ => succ_then fun _ => succ_then fun _ => succ_then fun _ => then_pure]
  simp only [succ_fieldOr, succ_asU16, succ_asStr, succ_asBool, succ_interval]

theorem succ_prometheus {tags : TagMap} {t : Toml F} : Succ (prometheus tags t) ↔
    May t "age_threshold" IsInt ∧ May t "port" IsInt ∧ May t "host" IsStr ∧
      May t "capacity_in_seconds" IsInt := by
  rw [prometheus, succ_then fun _ => succ_then fun _ => succ_then fun _ => then_pure]
  simp only [succ_fieldOr, succ_field?, succ_asU16, succ_asU64, succ_asStr]

theorem succ_elasticsearch {x : Ext F} {g : Nat} {tags : TagMap} {t : Toml F} :
    Succ (elasticsearch x g tags t) ↔ May t "delivery_attempt_limit" IsInt ∧ May t "port" IsInt ∧
      May t "host" IsStr ∧ May t "index-prefix" IsStr ∧ May t "secure" IsBool ∧ May t "index_type" IsStr ∧
      May t "flush_interval" IsInterval := by
  rw [elasticsearch, succ_then fun _ => succ_then fun _ => succ_then fun _ => succ_then fun _ =>
    succ_then fun _ => succ_then fun _ => then_pure]
  simp only [succ_fieldOr, succ_field?, succ_asU8, succ_asU64, succ_asStr, succ_asBool, succ_interval]

theorem succ_nativeSink {x : Ext F} {g : Nat} {tags : TagMap} {t : Toml F} : Succ (nativeSink x g tags t) ↔
    May t "port" IsInt ∧ May t "host" IsStr ∧ May t "flush_interval" IsInterval := by
  rw [nativeSink, succ_then fun _ => succ_then fun _ => then_pure]
  simp only [succ_fieldOr, succ_asU16, succ_asStr, succ_interval]

/-- An enabled entry. -/
theorem succ_ifEnabled {α : Type} {t : Toml F} {m : M α} {d : α} {P : Toml F → Prop} (h : Succ m ↔ P t) :
    Succ (enabled t >>= fun b => if b then m else .ok d) ↔ IfEnabled P t := by
  rw [succ_bind, IfEnabled, ← h]
  simp only [enabled, setting_bool, Setting, May, IsBool, Enabled]
  cases hg : t.get "enabled" with
  | none =>
    simp only [reduceCtorEq, true_and, false_or, false_implies, implies_true, or_true, true_implies]
    constructor
    · rintro ⟨b, rfl, h⟩; simpa using h
    · exact fun h => ⟨true, rfl, by simpa using h⟩
  | some v =>
    cases v with
    | bool b =>
      cases b with
      | true => simp
      | false => simp
    | _ => simp

theorem succ_ifGiven {α : Type} {t : Toml F} {key : String} {k : Str → M (Option α)} {P : Prop}
    (h : ∀ s, Succ (k s) ↔ P) :
    Succ (field? t key asStr >>= fun o => match o with | none => .ok none | some s => k s) ↔
      May t key fun v => IsStr v ∧ P := by
  rw [succ_bind]
  unfold May
  cases ht : t.get key with
  | none => simp [field?_ok, ht]
  | some v =>
    simp only [Option.some.injEq, forall_eq']
    cases v with
    | str s =>
      have : field? t key asStr = .ok (some s) := by rw [field?_ok]; exact .inl ⟨_, s, ht, rfl, rfl⟩
      simp [this, h, IsStr]
    | _ =>
      have hn : ∀ a, field? t key asStr ≠ .ok a := by
        intro a ha
        rw [field?_ok, ht] at ha
        simp at ha
      simp [hn, IsStr]

theorem succ_kafka {x : Ext F} {g : Nat} {e : Str × Toml F} : Succ (kafka x g e) ↔
    IfEnabled (fun s => May s "topic" fun topic => IsStr topic ∧
      May s "brokers" fun brokers => IsStr brokers ∧ May s "librdkafka" IsTable ∧
        May s "flush_interval" IsInterval ∧ May s "max_message_bytes" IsInt) e.2 := by
  refine succ_ifEnabled (succ_ifGiven fun _ => succ_ifGiven fun _ => ?_)
  rw [succ_then fun _ => succ_then fun _ => then_pure]
  simp only [succ_field?, then_pure, succ_asTable, succ_interval, succ_fieldOr, succ_asU64]

theorem succ_file {x : Ext F} {e : Str × Toml F} : Succ (file x e) ↔
    May e.2 "path" fun path => IsStr path ∧
      May e.2 "forwards" (IsArrayOf IsStr) ∧ May e.2 "max_read_bytes" IsInt := by
  have h1 : ∀ P, May e.2 "path" P ↔ ∀ v, e.2.get "path" = some v → P v := fun _ => Iff.rfl
  rw [h1]
  cases h : e.2.get "path" with
  | none => simp [file, h]
  | some v =>
    simp only [file, h, Option.some.injEq, forall_eq']
    rw [succ_then fun _ => succ_then fun _ => then_pure]
    simp only [succ_asStr, succ_forwards, succ_fieldOr, succ_asU64]

/-- Forwards that may not be missing. -/
def SomeForwards (t : Toml F) : Prop :=
  ∃ f fs, t.get "forwards" = some (.array (f :: fs)) ∧ IsStr f ∧ ∀ g ∈ fs, IsStr g

theorem someForwards {t : Toml F} : (∃ fs, forwards t = .ok fs ∧ fs ≠ []) ↔ SomeForwards t := by
  simp only [forwards_ok, ForwardsTo, SomeForwards]
  constructor
  · rintro ⟨fs, h | ⟨-, h⟩, hne⟩
    · obtain ⟨f, fs, rfl⟩ := List.exists_cons_of_ne_nil hne
      refine ⟨.str f, fs.map .str, by simpa using h, ⟨f, rfl⟩, ?_⟩
      intro g hg
      obtain ⟨s, -, rfl⟩ := List.mem_map.1 hg
      exact ⟨s, rfl⟩
    · exact absurd h hne
  · rintro ⟨_, fs, h, ⟨f, rfl⟩, hg⟩
    have : ∃ ss : List Str, fs = ss.map .str := by
      clear h
      induction fs with
      | nil => exact ⟨[], rfl⟩
      | cons g fs ih =>
        obtain ⟨ss, rfl⟩ := ih fun g hg' => hg g (List.mem_cons_of_mem _ hg')
        obtain ⟨s, rfl⟩ := hg g List.mem_cons_self
        exact ⟨s :: ss, rfl⟩
    obtain ⟨ss, rfl⟩ := this
    exact ⟨f :: ss, .inl (by simpa using h), by simp⟩

theorem succ_notEmpty {α : Type} {fs : List Str} {a : α} :
    Succ (if fs.isEmpty then .error .panic else pure a : M α) ↔ fs ≠ [] := by
  cases fs <;> simp

theorem succ_mapping {x : Ext F} {e : Str × Toml F} : Succ (mapping x e) ↔ IsMapping x e.2 := by
  simp only [mapping, IsMapping]
  cases hm : e.2.get "mask" with
  | none => simp
  | some v =>
    simp only [Option.some.injEq]
    rw [succ_bind]
    cases v with
    | str s =>
      simp only [asStr_ok, Toml.str.injEq, exists_eq_left']
      by_cases hr : x.regexOk s = true
      · simp only [hr, if_true, true_and]
        cases hb : e.2.get "bounds" with
        | none => simp
        | some b =>
          simp only [Option.some.injEq, exists_eq_left']
          rw [← succ_arrayOf fun _ => succ_asFloat, ← bind_assoc, then_pure]
      · simp [hr]
    | _ => simp

theorem succ_mappings {x : Ext F} {t : Toml F} : Succ (mappings x t) ↔
    May t "mapping" (IsTableOf (IsMapping x)) := by
  simp only [mappings, succ_fieldOr]
  refine may_congr fun v => ?_
  rw [succ_bind]
  simp only [asTable_ok, then_pure, succ_mapAll, succ_mapping]
  rfl

theorem succ_fwd {α : Type} {t : Toml F} {k : List Str → M α} {P : Prop} (h : ∀ fs, Succ (k fs) ↔ P ∧ fs ≠ []) :
    Succ (forwards t >>= k) ↔ SomeForwards t ∧ P := by
  rw [succ_bind, ← someForwards]
  simp only [h]
  constructor
  · rintro ⟨fs, h1, h2, h3⟩; exact ⟨⟨fs, h1, h3⟩, h2⟩
  · rintro ⟨⟨fs, h1, h3⟩, h2⟩; exact ⟨fs, h1, h2, h3⟩

theorem succ_statsd {x : Ext F} {e : Str × Toml F} : Succ (statsd x e) ↔
    IfEnabled (fun s => May s "port" IsInt ∧ May s "host" IsStr ∧ SomeForwards s ∧
      May s "mapping" (IsTableOf (IsMapping x)) ∧ May s "summarize_error_bound" IsFloat) e.2 := by
  refine succ_ifEnabled ?_
  rw [succ_then fun _ => succ_then fun _ => succ_fwd fun _ =>
    (succ_then fun _ => succ_then fun _ => succ_notEmpty).trans and_assoc.symm]
  simp only [succ_mappings, succ_fieldOr, succ_asU16, succ_asStr, succ_asFloat]

theorem succ_graphite {e : Str × Toml F} : Succ (graphite e) ↔
    IfEnabled (fun s => May s "port" IsInt ∧ May s "host" IsStr ∧ SomeForwards s) e.2 := by
  refine succ_ifEnabled ?_
  rw [succ_then fun _ => succ_then fun _ => succ_fwd fun _ => succ_notEmpty.trans (and_iff_right trivial).symm]
  simp only [succ_fieldOr, succ_asU16, succ_asStr, and_true]

theorem succ_avro {e : Str × Toml F} : Succ (avro e) ↔
    IfEnabled (fun s => May s "port" IsInt ∧ May s "host" IsStr ∧ SomeForwards s) e.2 := by
  refine succ_ifEnabled ?_
  rw [succ_then fun _ => succ_then fun _ => succ_fwd fun _ => succ_notEmpty.trans (and_iff_right trivial).symm]
  simp only [succ_fieldOr, succ_asU16, succ_asStr, and_true]

theorem succ_nativeSource {e : Str × Toml F} : Succ (nativeSource e) ↔
    IfEnabled (fun s => May s "port" IsInt ∧ May s "ip" IsStr ∧ May s "forwards" (IsArrayOf IsStr)) e.2 := by
  refine succ_ifEnabled ?_
  rw [succ_then fun _ => succ_then fun _ => then_pure]
  simp only [succ_fieldOr, succ_asU16, succ_asStr, succ_forwards]

theorem succ_filters {x : Ext F} {tags : TagMap} {a : Args F} {fs : Toml F} : Succ (filters x tags a fs) ↔
    May fs "delay" (IsTableOf fun f => May f "tolerance" fun tol =>
      IsInt tol ∧ May f "forwards" (IsArrayOf IsStr)) ∧
    May fs "json_encode" (IsTableOf fun f => May f "parse_line" IsBool ∧ May f "forwards" (IsArrayOf IsStr)) ∧
    May fs "flush_boundary" (IsTableOf fun f => May f "tolerance" fun tol =>
      IsInt tol ∧ May f "forwards" (IsArrayOf IsStr)) ∧
    May fs "programmable" (IsTableOf fun f => May f "script" fun s =>
      IsStr s ∧ May f "forwards" (IsArrayOf IsStr)) := by
  rw [filters, succ_then fun _ => succ_then fun _ => succ_then fun _ => then_pure]
  exact and_congr (succ_each fun _ => succ_delay) (and_congr (succ_each fun _ => succ_json)
    (and_congr (succ_each fun _ => succ_boundary) (succ_each fun _ => succ_prog)))

theorem succ_sinks {x : Ext F} {tags : TagMap} {a : Args F} {ss : Toml F} : Succ (sinks x tags a ss) ↔
    IsTable ss ∧
    May ss "console" (fun s => May s "bin_width" IsInt ∧ May s "flush_interval" IsInterval) ∧
    May ss "wavefront" (fun s =>
      May s "padding" (fun p => May p "set" IsBool ∧ May p "sum" IsBool ∧ May p "summarize" IsBool ∧
        May p "histogram" IsBool) ∧
      May s "percentiles" (fun p => IsTable p → IsTableOf IsFloat p) ∧ May s "port" IsInt ∧
      May s "age_threshold" IsInt ∧ May s "host" IsStr ∧ May s "bin_width" IsInt ∧
      May s "flush_interval" IsInterval) ∧
    May ss "influxdb" (fun s => May s "port" IsInt ∧ May s "secure" IsBool ∧ May s "host" IsStr ∧
      May s "db" IsStr ∧ May s "flush_interval" IsInterval) ∧
    May ss "prometheus" (fun s => May s "age_threshold" IsInt ∧ May s "port" IsInt ∧ May s "host" IsStr ∧
      May s "capacity_in_seconds" IsInt) ∧
    May ss "elasticsearch" (fun s => May s "delivery_attempt_limit" IsInt ∧ May s "port" IsInt ∧
      May s "host" IsStr ∧ May s "index-prefix" IsStr ∧ May s "secure" IsBool ∧ May s "index_type" IsStr ∧
      May s "flush_interval" IsInterval) ∧
    May ss "native" (fun s => May s "port" IsInt ∧ May s "host" IsStr ∧ May s "flush_interval" IsInterval) ∧
    May ss "kafka" (IsTableOf (IfEnabled fun s => May s "topic" fun topic => IsStr topic ∧
      May s "brokers" fun brokers => IsStr brokers ∧ May s "librdkafka" IsTable ∧
        May s "flush_interval" IsInterval ∧ May s "max_message_bytes" IsInt)) := by
  rw [sinks, succ_then fun _ => succ_then fun _ => succ_then fun _ => succ_then fun _ => succ_then fun _ =>
    succ_then fun _ => succ_then fun _ => then_pure]
  simp only [succ_asTable, succ_field?, succ_console, succ_wavefront, succ_influxdb, succ_prometheus,
    succ_elasticsearch, succ_nativeSink, succ_each fun _ => succ_kafka]

theorem succ_sources {x : Ext F} {a : Args F} {ss : Toml F} : Succ (sources x a ss) ↔ IsTable ss ∧
    May ss "files" (IsTableOf fun s => May s "path" fun path => IsStr path ∧
      May s "forwards" (IsArrayOf IsStr) ∧ May s "max_read_bytes" IsInt) ∧
    May ss "statsd" (IsTableOf (IfEnabled fun s => May s "port" IsInt ∧ May s "host" IsStr ∧ SomeForwards s ∧
      May s "mapping" (IsTableOf (IsMapping x)) ∧ May s "summarize_error_bound" IsFloat)) ∧
    May ss "graphite" (IsTableOf (IfEnabled fun s => May s "port" IsInt ∧ May s "host" IsStr ∧
      SomeForwards s)) ∧
    May ss "avro" (IsTableOf (IfEnabled fun s => May s "port" IsInt ∧ May s "host" IsStr ∧ SomeForwards s)) ∧
    May ss "native" (IsTableOf (IfEnabled fun s => May s "port" IsInt ∧ May s "ip" IsStr ∧
      May s "forwards" (IsArrayOf IsStr))) ∧
    May ss "internal" (fun s => May s "forwards" (IsArrayOf IsStr)) := by
  rw [sources, succ_then fun _ => succ_then fun _ => succ_then fun _ => succ_then fun _ => succ_then fun _ =>
    succ_then fun _ => then_pure]
  simp only [succ_asTable, succ_fieldOr, succ_forwards]
  exact and_congr_right' (and_congr (succ_each fun _ => succ_file) (and_congr (succ_each fun _ => succ_statsd)
    (and_congr (succ_each fun _ => succ_graphite) (and_congr (succ_each fun _ => succ_avro)
      (and_congr_left' (succ_each fun _ => succ_nativeSource))))))

theorem parse_succ {x : Ext F} {cfg : Toml F} : Succ (parse x cfg) ↔ Acceptable x cfg := by
  have hg : ∀ {β : Type} (k : Args F → M β) (P : Prop), (∀ a, Succ (k a) ↔ P) →
      (Succ (globals x cfg >>= k) ↔ (May cfg "max-hopper-queue-bytes" IsInt ∧
        May cfg "max-hopper-queue-files" IsInt ∧ May cfg "max-hopper-in-memory-bytes" IsInt ∧
        May cfg "data-directory" IsStr ∧ May cfg "scripts-directory" IsStr ∧
        May cfg "flush-interval" IsInterval) ∧ P) := by
    intro β k P h
    rw [succ_then h, globals, succ_then fun _ => succ_then fun _ => succ_then fun _ => succ_then fun _ =>
      succ_then fun _ => then_pure]
    simp only [succ_fieldOr, succ_asU64, succ_asStr, succ_interval]
  have hs : ∀ (P Q R : Toml F → Prop), (∀ tags a v, Succ (filters x tags a v) ↔ P v) →
      (∀ tags a v, Succ (sinks x tags a v) ↔ Q v) → (∀ a v, Succ (sources x a v) ↔ R v) →
      ∀ tags a, Succ (do
        let a ← fieldOr cfg "filters" (filters x tags a) a
        let a ← fieldOr cfg "sinks" (sinks x tags a) a
        fieldOr cfg "sources" (sources x a) a) ↔ May cfg "filters" P ∧ May cfg "sinks" Q ∧ May cfg "sources" R := by
    intro P Q R hP hQ hR tags a
    have e3 : ∀ a : Args F, Succ (fieldOr cfg "sources" (sources x a) a) ↔ May cfg "sources" R := fun a =>
      succ_fieldOr.trans (may_congr fun v => hR a v)
    have e2 : ∀ a : Args F, Succ (fieldOr cfg "sinks" (sinks x tags a) a) ↔ May cfg "sinks" Q := fun a =>
      succ_fieldOr.trans (may_congr fun v => hQ tags a v)
    have e1 : ∀ a : Args F, Succ (fieldOr cfg "filters" (filters x tags a) a) ↔ May cfg "filters" P := fun a =>
      succ_fieldOr.trans (may_congr fun v => hP tags a v)
    rw [succ_then (P := May cfg "sinks" Q ∧ May cfg "sources" R), e1]
    intro a
    rw [succ_then e3, e2]
  have hs := hs _ _ _ (fun _ _ _ => succ_filters) (fun _ _ _ => succ_sinks) (fun _ _ => succ_sources)
  rw [parse, hg _ _ fun a => succ_then fun tags => hs tags a, succ_tags]
  constructor
  · rintro ⟨⟨h1, h2, h3, h4, h5, h6⟩, h7, h8, h9, h10⟩
    exact ⟨h1, h2, h3, h4, h5, h6, h7, h8, h9, h10⟩
  · rintro ⟨h1, h2, h3, h4, h5, h6, h7, h8, h9, h10⟩
    exact ⟨⟨h1, h2, h3, h4, h5, h6⟩, h7, h8, h9, h10⟩

end Verif.Config
