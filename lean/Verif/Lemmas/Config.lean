import Verif.Spec.Config
import Verif.Spec.Topology
import Verif.Lemmas.Tags
/-! # Lemmas about the configuration loader -/
namespace Verif.Config
open Topology (Stop)
variable {F : Type}

/-! ## Inverting the loader -/

@[simp] theorem bind_ok {α β : Type} {m : M α} {f : α → M β} {b : β} :
    (m >>= f) = .ok b ↔ ∃ a, m = .ok a ∧ f a = .ok b := by
  cases m with
  | error e => simp [bind, Except.bind]
  | ok a => simp [bind, Except.bind]

@[simp] theorem pure_ok {α : Type} {a b : α} : (pure a : M α) = .ok b ↔ a = b := by
  simp [pure, Except.pure]

@[simp] theorem asInt_ok {v : Toml F} {i : Int} : asInt v = .ok i ↔ v = .int i := by
  cases v <;> simp [asInt]
@[simp] theorem asStr_ok {v : Toml F} {s : Str} : asStr v = .ok s ↔ v = .str s := by
  cases v <;> simp [asStr]
@[simp] theorem asBool_ok {v : Toml F} {b : Bool} : asBool v = .ok b ↔ v = .bool b := by
  cases v <;> simp [asBool]
@[simp] theorem asFloat_ok {v : Toml F} {f : F} : asFloat v = .ok f ↔ v = .float f := by
  cases v <;> simp [asFloat]
@[simp] theorem asTable_ok {v : Toml F} {t : List (Str × Toml F)} : asTable v = .ok t ↔ v = .table t := by
  cases v <;> simp [asTable]
@[simp] theorem asArray_ok {v : Toml F} {l : List (Toml F)} : asArray v = .ok l ↔ v = .array l := by
  cases v <;> simp [asArray]

theorem fieldOr_ok {α : Type} {t : Toml F} {key : String} {conv : Toml F → M α} {d v : α} :
    fieldOr t key conv d = .ok v ↔
      (∃ u, t.get key = some u ∧ conv u = .ok v) ∨ (t.get key = none ∧ v = d) := by
  cases h : t.get key <;> simp [fieldOr, h, eq_comm]

@[simp] theorem map_ok {α β : Type} {m : M α} {f : α → β} {b : β} :
    (f <$> m) = .ok b ↔ ∃ a, m = .ok a ∧ f a = b := by
  cases m with
  | error e => simp [Functor.map, Except.map]
  | ok a => simp [Functor.map, Except.map]

theorem field?_ok {α : Type} {t : Toml F} {key : String} {conv : Toml F → M α} {v : Option α} :
    field? t key conv = .ok v ↔
      (∃ u a, t.get key = some u ∧ conv u = .ok a ∧ v = some a) ∨ (t.get key = none ∧ v = none) := by
  cases h : t.get key with
  | none => simp [field?, h, eq_comm]
  | some u =>
    simp only [field?, h, bind_pure_comp, map_ok, Option.some.injEq, reduceCtorEq, false_and, or_false]
    constructor
    · rintro ⟨a, h1, rfl⟩; exact ⟨u, a, rfl, h1, rfl⟩
    · rintro ⟨_, a, rfl, h1, rfl⟩; exact ⟨a, h1, rfl⟩

theorem setting_str {t : Toml F} {key : String} {d v : Str} :
    fieldOr t key asStr d = .ok v ↔ Setting .str t key d v := by
  simp [fieldOr_ok, Setting]
theorem setting_bool {t : Toml F} {key : String} {d v : Bool} :
    fieldOr t key asBool d = .ok v ↔ Setting .bool t key d v := by
  simp [fieldOr_ok, Setting]
theorem setting_int {t : Toml F} {key : String} {d v : Int} :
    fieldOr t key asInt d = .ok v ↔ Setting .int t key d v := by
  simp [fieldOr_ok, Setting]
theorem setting_float {t : Toml F} {key : String} {d v : F} :
    fieldOr t key asFloat d = .ok v ↔ Setting .float t key d v := by
  simp [fieldOr_ok, Setting]
theorem optional_str {t : Toml F} {key : String} {v : Option Str} :
    field? t key asStr = .ok v ↔ Optional .str t key v := by
  simp only [field?_ok, Optional, asStr_ok]
  constructor
  · rintro (⟨u, a, h, rfl, rfl⟩ | h)
    · exact .inl ⟨a, h, rfl⟩
    · exact .inr h
  · rintro (⟨a, h, rfl⟩ | h)
    · exact .inl ⟨_, a, h, rfl, rfl⟩
    · exact .inr h

theorem toNat_mod (i : Int) (b n : Nat) : (i % 2 ^ b).toNat = n ↔ (n : Int) = i % 2 ^ b := by
  have : (0 : Int) < 2 ^ b := Int.pow_pos (by omega)
  have := Int.emod_nonneg i (show (2 : Int) ^ b ≠ 0 by omega)
  omega

private theorem wrapped_of {t : Toml F} {key : String} {d v b : Nat} {conv : Toml F → M Nat}
    (hc : ∀ u n, conv u = .ok n ↔ ∃ i, u = .int i ∧ (i % 2 ^ b).toNat = n) :
    fieldOr t key conv d = .ok v ↔ Wrapped b t key d v := by
  simp only [fieldOr_ok, Wrapped, hc, toNat_mod]
  constructor
  · rintro (⟨u, h, i, rfl, hi⟩ | h)
    · exact .inl ⟨i, h, hi⟩
    · exact .inr h
  · rintro (⟨i, h, hi⟩ | h)
    · exact .inl ⟨_, h, i, rfl, hi⟩
    · exact .inr h

theorem wrapped_64 {t : Toml F} {key : String} {d v : Nat} :
    fieldOr t key asU64 d = .ok v ↔ Wrapped 64 t key d v :=
  wrapped_of fun u n => by simp [asU64, u64]
theorem wrapped_16 {t : Toml F} {key : String} {d v : Nat} :
    fieldOr t key asU16 d = .ok v ↔ Wrapped 16 t key d v :=
  wrapped_of fun u n => by simp [asU16, u16]
theorem wrapped_8 {t : Toml F} {key : String} {d v : Nat} :
    fieldOr t key asU8 d = .ok v ↔ Wrapped 8 t key d v :=
  wrapped_of fun u n => by simp [asU8, u8]
theorem optional_64 {t : Toml F} {key : String} {v : Option Nat} :
    field? t key asU64 = .ok v ↔ OptionalWrapped 64 t key v := by
  simp only [field?_ok, OptionalWrapped, asU64, u64, bind_pure_comp, map_ok, asInt_ok, toNat_mod]
  constructor
  · rintro (⟨u, n, h, ⟨i, rfl, hi⟩, rfl⟩ | h)
    · exact .inl ⟨i, n, h, rfl, hi⟩
    · exact .inr h
  · rintro (⟨i, n, h, rfl, hi⟩ | h)
    · exact .inl ⟨_, n, h, ⟨i, rfl, hi⟩, rfl⟩
    · exact .inr h

theorem mapAll_ok {α β : Type} {f : α → M β} : ∀ {as : List α} {bs : List β},
    mapAll f as = .ok bs ↔ as.map f = bs.map .ok := by
  intro as
  induction as with
  | nil => intro bs; cases bs <;> simp [mapAll]
  | cons a as ih =>
    intro bs
    simp only [mapAll, bind_ok, pure_ok, ih]
    cases bs with
    | nil => simp
    | cons b bs =>
      simp only [List.map_cons, List.cons.injEq]
      constructor
      · rintro ⟨b', h1, bs', h2, rfl, rfl⟩; exact ⟨h1, h2⟩
      · rintro ⟨h1, h2⟩; exact ⟨b, h1, bs, h2, rfl, rfl⟩

theorem forwards_ok {t : Toml F} {fs : List Str} : forwards t = .ok fs ↔ ForwardsTo t fs := by
  have key : ∀ (l : List (Toml F)), mapAll asStr l = .ok fs ↔ l = fs.map .str := by
    intro l
    rw [mapAll_ok]
    induction l generalizing fs with
    | nil => cases fs <;> simp
    | cons v l ih => cases fs <;> simp [ih]
  simp only [forwards, fieldOr_ok, bind_ok, asArray_ok, ForwardsTo, key]
  constructor
  · rintro (⟨u, h, l, rfl, rfl⟩ | h)
    · exact .inl h
    · exact .inr h
  · rintro (h | h)
    · exact .inl ⟨_, h, _, rfl, rfl⟩
    · exact .inr h

theorem enabled_ok {t : Toml F} : enabled t = .ok true ↔ Enabled t := by
  simp [enabled, setting_bool, Setting, Enabled]

theorem flushInterval_ok {x : Ext F} {t : Toml F} {key : String} {d n : Nat}
    (h : flushIntervalOr x t key d = .ok n) : Interval x t key d n := by
  simp only [flushIntervalOr, bind_ok, pure_ok, parseFlushInterval] at h
  obtain ⟨o, h, rfl⟩ := h
  split at h
  · rename_i f hf
    simp only [Except.ok.injEq] at h
    subst h
    exact .fraction f hf
  · rename_i i hi
    simp only [Except.ok.injEq] at h
    subst h
    refine .seconds i _ hi ?_
    simp only [Option.getD_some, u64]
    omega
  · simp at h
  · rename_i hn
    simp only [Except.ok.injEq] at h
    subst h
    exact .absent hn

/-- What a loop over a table collects. -/
theorem collect_ok {α β : Type} {f : α → M (Option β)} : ∀ {as : List α} {bs : List β},
    collect f as = .ok bs → (∀ a ∈ as, ∃ o, f a = .ok o) ∧
      ∃ sub : List (α × β), (sub.map (·.1)).Sublist as ∧ sub.map (·.2) = bs ∧
        ∀ a b, (a, b) ∈ sub ↔ a ∈ as ∧ f a = .ok (some b) := by
  intro as
  induction as with
  | nil => intro bs h; simp [collect] at h; subst h; exact ⟨by simp, [], by simp, rfl, by simp⟩
  | cons a as ih =>
    intro bs h
    simp only [collect, bind_ok, pure_ok] at h
    obtain ⟨o, h1, bs', h2, h3⟩ := h
    obtain ⟨i1, sub, i2, i3, i4⟩ := ih h2
    refine ⟨by simpa [h1] using i1, ?_⟩
    cases o with
    | none =>
      refine ⟨sub, i2.cons _, by rw [i3]; exact h3, fun a' b => ?_⟩
      rw [i4]
      constructor
      · rintro ⟨h, h'⟩; exact ⟨List.mem_cons_of_mem _ h, h'⟩
      · rintro ⟨h, h'⟩
        rcases List.mem_cons.1 h with rfl | h
        · rw [h1] at h'; simp at h'
        · exact ⟨h, h'⟩
    | some b0 =>
      refine ⟨(a, b0) :: sub, by simpa using i2, by rw [List.map_cons, i3]; exact h3, fun a' b => ?_⟩
      simp only [List.mem_cons, Prod.mk.injEq, i4]
      constructor
      · rintro (⟨rfl, rfl⟩ | ⟨h, h'⟩)
        · exact ⟨.inl rfl, h1⟩
        · exact ⟨.inr h, h'⟩
      · rintro ⟨rfl | h, h'⟩
        · rw [h1] at h'
          simp only [Except.ok.injEq, Option.some.injEq] at h'
          exact .inl ⟨rfl, h'.symm⟩
        · exact .inr ⟨h, h'⟩

/-- `l` is what `f` makes of the entries under `path`. -/
structure Loaded {β : Type} (cfg : Toml F) (path : List String) (f : Str × Toml F → M (Option β))
    (l : List β) : Prop where
  /-- the loader accepts every entry -/
  total : ∀ n t, Entry cfg path n t → ∃ o, f (n, t) = .ok o
  /-- what it does not skip is in the list, once per entry -/
  sub : ∃ (tbl : List (Str × Toml F)) (sub : List ((Str × Toml F) × β)),
    (cfg.at path = some (.table tbl) ∨ (cfg.at path = none ∧ tbl = [])) ∧
    (sub.map (·.1)).Sublist tbl ∧ sub.map (·.2) = l ∧
    ∀ a b, (a, b) ∈ sub ↔ a ∈ tbl ∧ f a = .ok (some b)

theorem Loaded.mem {β : Type} {cfg : Toml F} {path : List String} {f : Str × Toml F → M (Option β)}
    {l : List β} (h : Loaded cfg path f l) (b : β) :
    b ∈ l ↔ ∃ n t, Entry cfg path n t ∧ f (n, t) = .ok (some b) := by
  obtain ⟨tbl, sub, h1, h2, rfl, h4⟩ := h.sub
  simp only [List.mem_map, Prod.exists, exists_eq_right]
  constructor
  · rintro ⟨n, t, hm⟩
    obtain ⟨hm, hf⟩ := (h4 _ _).1 hm
    rcases h1 with h1 | ⟨h1, rfl⟩
    · exact ⟨n, t, ⟨tbl, h1, hm⟩, hf⟩
    · simp at hm
  · rintro ⟨n, t, ⟨tbl', h5, h6⟩, hf⟩
    rcases h1 with h1 | ⟨h1, rfl⟩
    · rw [h1] at h5
      simp only [Option.some.injEq, Toml.table.injEq] at h5
      subst h5
      exact ⟨n, t, (h4 _ _).2 ⟨h6, hf⟩⟩
    · rw [h1] at h5; simp at h5

theorem find_mem {t : List (Str × Toml F)} {k : Str} {v : Toml F} (h : find k t = some v) : (k, v) ∈ t := by
  induction t with
  | nil => simp [find] at h
  | cons kv t ih =>
    obtain ⟨a, b⟩ := kv
    simp only [find] at h
    split at h
    · rename_i ha
      simp only [Option.some.injEq] at h
      subst ha h
      exact List.mem_cons_self
    · exact List.mem_cons_of_mem _ (ih h)

theorem get_within {u v w : Toml F} {k : String} (h : v.get k = some u) (hw : Within w u) : Within w v := by
  cases v with
  | table t => exact .entry _ _ _ _ (find_mem h) hw
  | _ => simp [Toml.get] at h

theorem at_within {v : Toml F} : ∀ {path : List String} {cfg : Toml F}, cfg.at path = some v →
    ∀ w, Within w v → Within w cfg := by
  intro path
  induction path with
  | nil => intro cfg h w hw; simp only [Toml.at, Option.some.injEq] at h; subst h; exact hw
  | cons k ks ih =>
    intro cfg h w hw
    simp only [Toml.at, Option.bind_eq_some_iff] at h
    obtain ⟨u, h1, h2⟩ := h
    exact get_within h1 (ih h2 w hw)

theorem WellFormed.at {cfg : Toml F} (h : WellFormed cfg) {path : List String} {t : List (Str × Toml F)}
    (ht : cfg.at path = some (.table t)) : (t.map (·.1)).Nodup :=
  h t (at_within ht _ (.refl _))

theorem wf_table {t : List (Str × Toml F)} :
    WellFormed (.table t) ↔ (t.map (·.1)).Nodup ∧ ∀ kv ∈ t, WellFormed kv.2 := by
  constructor
  · intro h
    exact ⟨h t (.refl _), fun kv hm l hl => h l (.entry _ _ _ _ hm hl)⟩
  · rintro ⟨h1, h2⟩ l hl
    cases hl with
    | refl => exact h1
    | entry k v _ hm hl => exact h2 (k, v) hm l hl

theorem wf_str {s : Str} : WellFormed (.str s : Toml F) := fun _ h => nomatch h
theorem wf_int {i : Int} : WellFormed (.int i : Toml F) := fun _ h => nomatch h
theorem wf_bool {b : Bool} : WellFormed (.bool b : Toml F) := fun _ h => nomatch h
theorem wf_array {l : List (Toml F)} : WellFormed (.array l : Toml F) := fun _ h => nomatch h

/-- Names taken from the keys are distinct. -/
theorem Loaded.nodup {β : Type} {cfg : Toml F} {path : List String} {f : Str × Toml F → M (Option β)}
    {l : List β} (h : Loaded cfg path f l) (hw : WellFormed cfg) (g : β → Str) (kind : String)
    (hg : ∀ n t b, f (n, t) = .ok (some b) → g b = named kind n) : (l.map g).Nodup := by
  obtain ⟨tbl, sub, h1, h2, rfl, h4⟩ := h.sub
  have hn : (tbl.map (·.1)).Nodup := by
    rcases h1 with h1 | ⟨-, rfl⟩
    · exact hw.at h1
    · simp
  have h3 : ((sub.map (·.2)).map g) = (sub.map (·.1.1)).map (named kind) := by
    simp only [List.map_map]
    apply List.map_congr_left
    rintro ⟨⟨n, t⟩, b⟩ hm
    exact hg n t b ((h4 _ _).1 hm).2
  rw [h3]
  have h5 : (sub.map (·.1.1)).Nodup := by
    have := (h2.map (·.1))
    rw [List.map_map] at this
    exact List.Nodup.sublist this hn
  refine List.Pairwise.map _ (fun a b hab he => hab ?_) h5
  exact List.append_cancel_left he

/-- `o` is what `conv` makes of the value under `path`, if there is one. -/
def Only {β : Type} (cfg : Toml F) (path : List String) (conv : Toml F → M β) (o : Option β) : Prop :=
  (∃ t v, cfg.at path = some t ∧ conv t = .ok v ∧ o = some v) ∨ (cfg.at path = none ∧ o = none)

/-- What a successful load consists of. -/
structure ParseOk (x : Ext F) (cfg : Toml F) (a : Args F) (tags : TagMap) : Prop where
  queueBytes : Wrapped 64 cfg "max-hopper-queue-bytes" 104857600 a.queueBytes
  queueFiles : Wrapped 64 cfg "max-hopper-queue-files" 100 a.queueFiles
  inMemoryBytes : Wrapped 64 cfg "max-hopper-in-memory-bytes" 1048576 a.inMemoryBytes
  dataDirectory : Setting .str cfg "data-directory" "/tmp/cernan-data".toList a.dataDirectory
  scriptsDirectory : Setting .str cfg "scripts-directory" "/tmp/cernan-scripts".toList a.scriptsDirectory
  flushInterval : Interval x cfg "flush-interval" 6000 a.flushInterval
  tagsOk : parseTags x cfg = .ok tags
  delays : Loaded cfg ["filters", "delay"] delay a.delays
  jsons : Loaded cfg ["filters", "json_encode"] (json tags) a.jsons
  boundaries : Loaded cfg ["filters", "flush_boundary"] boundary a.boundaries
  programmables : Loaded cfg ["filters", "programmable"] (prog x a.scriptsDirectory tags) a.programmables
  null : a.null = true ↔ (cfg.at ["sinks", "null"]).isSome
  console : Only cfg ["sinks", "console"] (console x a.flushInterval tags) a.console
  wavefront : Only cfg ["sinks", "wavefront"] (wavefront x a.flushInterval tags) a.wavefront
  influxdb : Only cfg ["sinks", "influxdb"] (influxdb x a.flushInterval tags) a.influxdb
  prometheus : Only cfg ["sinks", "prometheus"] (prometheus tags) a.prometheus
  elasticsearch : Only cfg ["sinks", "elasticsearch"] (elasticsearch x a.flushInterval tags) a.elasticsearch
  nativeSink : Only cfg ["sinks", "native"] (nativeSink x a.flushInterval tags) a.nativeSink
  kafkas : Loaded cfg ["sinks", "kafka"] (kafka x a.flushInterval) a.kafkas
  files : Loaded cfg ["sources", "files"] (file x) a.files
  statsds : Loaded cfg ["sources", "statsd"] (statsd x) a.statsds
  graphites : Loaded cfg ["sources", "graphite"] graphite a.graphites
  avros : Loaded cfg ["sources", "avro"] avro a.avros
  natives : Loaded cfg ["sources", "native"] nativeSource a.natives
  internal : (∃ t, cfg.at ["sources", "internal"] = some t ∧ forwards t = .ok a.internalForwards) ∨
    (cfg.at ["sources", "internal"] = none ∧ a.internalForwards = [])

theorem at_two (cfg : Toml F) (j k : String) : cfg.at [j, k] = (cfg.get j).bind (·.get k) := by
  simp only [Toml.at]
  cases cfg.get j with
  | none => rfl
  | some u => simp only [Option.bind_some]; cases u.get k <;> rfl

theorem loaded_none {β : Type} {cfg : Toml F} {path : List String} (f : Str × Toml F → M (Option β))
    (h : cfg.at path = none) : Loaded cfg path f [] := by
  constructor
  · rintro n t ⟨tbl, h1, -⟩; rw [h] at h1; simp at h1
  · exact ⟨[], [], .inr ⟨h, rfl⟩, by simp, rfl, by simp⟩

theorem each_loaded {β : Type} {cfg s : Toml F} {j k : String} {f : Str × Toml F → M (Option β)}
    {l : List β} (hs : cfg.get j = some s) (h : each s k f = .ok l) : Loaded cfg [j, k] f l := by
  simp only [each, fieldOr_ok, bind_ok, asTable_ok] at h
  have hat : cfg.at [j, k] = s.get k := by rw [at_two, hs]; rfl
  rcases h with ⟨u, h1, t, rfl, h2⟩ | ⟨h1, rfl⟩
  · obtain ⟨h3, sub, h4, h5, h6⟩ := collect_ok h2
    rw [← hat] at h1
    constructor
    · rintro n v ⟨tbl, h7, h8⟩
      rw [h1] at h7
      simp only [Option.some.injEq, Toml.table.injEq] at h7
      subst h7
      exact h3 _ h8
    · exact ⟨t, sub, .inl h1, h4, h5, h6⟩
  · exact loaded_none f (by rw [hat, h1])

theorem only_none {β : Type} {cfg : Toml F} {path : List String} (f : Toml F → M β)
    (h : cfg.at path = none) : Only cfg path f none := .inr ⟨h, rfl⟩

theorem field_only {β : Type} {cfg s : Toml F} {j k : String} {f : Toml F → M β}
    {o : Option β} (hs : cfg.get j = some s) (h : field? s k f = .ok o) : Only cfg [j, k] f o := by
  have hat : cfg.at [j, k] = s.get k := by rw [at_two, hs]; rfl
  rw [field?_ok] at h
  unfold Only
  rw [hat]
  exact h

/-- Inverting the loader. -/
theorem parse_ok {x : Ext F} {cfg : Toml F} {a : Args F} (h : parse x cfg = .ok a) :
    ∃ tags, ParseOk x cfg a tags := by
  simp only [parse, bind_ok] at h
  obtain ⟨a1, hg, tags, ht, a2, hf, a3, hs, ho⟩ := h
  refine ⟨tags, ?_⟩
  simp only [globals, bind_ok, pure_ok] at hg
  obtain ⟨v1, g1, v2, g2, v3, g3, v4, g4, v5, g5, v6, g6, rfl⟩ := hg
  rw [wrapped_64] at g1 g2 g3
  rw [setting_str] at g4 g5
  have g6 := flushInterval_ok g6
  -- the parts of the filters
  have hF : ∃ d js b p, a2 = { queueBytes := v1, queueFiles := v2, inMemoryBytes := v3, dataDirectory := v4, scriptsDirectory := v5, flushInterval := v6, delays := d, jsons := js, boundaries := b, programmables := p } ∧
      Loaded cfg ["filters", "delay"] delay d ∧ Loaded cfg ["filters", "json_encode"] (json tags) js ∧
      Loaded cfg ["filters", "flush_boundary"] boundary b ∧
      Loaded cfg ["filters", "programmable"] (prog x v5 tags) p := by
    rcases fieldOr_ok.1 hf with ⟨u, h1, h2⟩ | ⟨h1, rfl⟩
    · simp only [filters, bind_ok, pure_ok] at h2
      obtain ⟨d, h3, js, h4, b, h5, p, h6, rfl⟩ := h2
      exact ⟨d, js, b, p, rfl, each_loaded h1 h3, each_loaded h1 h4, each_loaded h1 h5, each_loaded h1 h6⟩
    · have hn : ∀ k, cfg.at ["filters", k] = none := by intro k; rw [at_two, h1]; rfl
      exact ⟨[], [], [], [], rfl, loaded_none _ (hn _), loaded_none _ (hn _), loaded_none _ (hn _),
        loaded_none _ (hn _)⟩
  obtain ⟨d, js, b, p, rfl, f1, f2, f3, f4⟩ := hF
  -- the sinks
  have hS : ∃ nl co wa infl pr el na ka, a3 = { queueBytes := v1, queueFiles := v2, inMemoryBytes := v3, dataDirectory := v4, scriptsDirectory := v5, flushInterval := v6, delays := d, jsons := js, boundaries := b, programmables := p, null := nl, console := co, wavefront := wa, influxdb := infl, prometheus := pr, elasticsearch := el, nativeSink := na, kafkas := ka } ∧
      (nl = true ↔ (cfg.at ["sinks", "null"]).isSome) ∧
      Only cfg ["sinks", "console"] (console x v6 tags) co ∧
      Only cfg ["sinks", "wavefront"] (wavefront x v6 tags) wa ∧
      Only cfg ["sinks", "influxdb"] (influxdb x v6 tags) infl ∧
      Only cfg ["sinks", "prometheus"] (prometheus tags) pr ∧
      Only cfg ["sinks", "elasticsearch"] (elasticsearch x v6 tags) el ∧
      Only cfg ["sinks", "native"] (nativeSink x v6 tags) na ∧
      Loaded cfg ["sinks", "kafka"] (kafka x v6) ka := by
    rcases fieldOr_ok.1 hs with ⟨u, h1, h2⟩ | ⟨h1, rfl⟩
    · simp only [sinks, bind_ok, pure_ok] at h2
      obtain ⟨_, -, co, h4, wa, h5, infl, h6, pr, h7, el, h8, na, h9, ka, h10, rfl⟩ := h2
      refine ⟨_, co, wa, infl, pr, el, na, ka, rfl, ?_, field_only h1 h4, field_only h1 h5,
        field_only h1 h6, field_only h1 h7, field_only h1 h8, field_only h1 h9, each_loaded h1 h10⟩
      rw [at_two, h1]; rfl
    · have hn : ∀ k, cfg.at ["sinks", k] = none := by intro k; rw [at_two, h1]; rfl
      refine ⟨false, none, none, none, none, none, none, [], rfl, ?_, only_none _ (hn _),
        only_none _ (hn _), only_none _ (hn _), only_none _ (hn _), only_none _ (hn _),
        only_none _ (hn _), loaded_none _ (hn _)⟩
      rw [hn]; simp
  obtain ⟨nl, co, wa, infl, pr, el, na, ka, rfl, s1, s2, s3, s4, s5, s6, s7, s8⟩ := hS
  rcases fieldOr_ok.1 ho with ⟨u, h1, h2⟩ | ⟨h1, rfl⟩
  · simp only [sources, bind_ok, pure_ok] at h2
    obtain ⟨_, -, fi, h4, st, h5, gr, h6, av, h7, nt, h8, it, h9, rfl⟩ := h2
    refine ⟨g1, g2, g3, g4, g5, g6, ht, f1, f2, f3, f4, s1, s2, s3, s4, s5, s6, s7, s8,
      each_loaded h1 h4, each_loaded h1 h5, each_loaded h1 h6, each_loaded h1 h7, each_loaded h1 h8, ?_⟩
    have hat : cfg.at ["sources", "internal"] = u.get "internal" := by rw [at_two, h1]; rfl
    rw [hat]
    exact fieldOr_ok.1 h9
  · have hn : ∀ k, cfg.at ["sources", k] = none := by intro k; rw [at_two, h1]; rfl
    exact ⟨g1, g2, g3, g4, g5, g6, ht, f1, f2, f3, f4, s1, s2, s3, s4, s5, s6, s7, s8,
      loaded_none _ (hn _), loaded_none _ (hn _), loaded_none _ (hn _), loaded_none _ (hn _),
      loaded_none _ (hn _), .inr ⟨hn _, rfl⟩⟩

/-! ## Tags -/

theorem parseTag_ok {x : Ext F} {v : Toml F} {s : Str} : parseTag x v = .ok s ↔
    v = .str s ∨ ∃ var, v.get "environment" = some (.bool true) ∧ v.get "value" = some (.str var) ∧
      x.env var = some s := by
  cases v with
  | table t =>
    simp only [parseTag, Toml.get, reduceCtorEq, false_or]
    generalize find "environment".toList t = e
    generalize find "value".toList t = val
    rcases e with _ | e
    · simp
    · cases e with
      | bool b =>
        cases b with
        | false => simp
        | true =>
          rcases val with _ | val
          · simp
          · cases val with
            | str var => cases hx : x.env var <;> simp [hx]
            | _ => simp
      | _ => simp
  | _ => simp [parseTag, Toml.get]

theorem parseTags_ok {x : Ext F} {cfg : Toml F} {tags : TagMap} (hw : WellFormed cfg)
    (h : parseTags x cfg = .ok tags) : HasGlobalTags x cfg tags := by
  have hat : cfg.at ["tags"] = cfg.get "tags" := by
    simp only [Toml.at]; cases cfg.get "tags" <;> rfl
  simp only [parseTags, fieldOr_ok, bind_ok, pure_ok, asTable_ok] at h
  rcases h with ⟨u, h1, t, rfl, kvs, h2, rfl⟩ | ⟨h1, rfl⟩
  · rw [← hat] at h1
    have hn := hw.at h1
    rw [mapAll_ok] at h2
    have hmem : ∀ k v, (k, v) ∈ kvs ↔ ∃ w, (k, w) ∈ t ∧ parseTag x w = .ok v := by
      clear h1 hn
      induction t generalizing kvs with
      | nil => cases kvs <;> simp_all
      | cons kv t ih =>
        obtain ⟨k0, w0⟩ := kv
        cases kvs with
        | nil => simp at h2
        | cons kv' kvs =>
          obtain ⟨k1, v1⟩ := kv'
          simp only [List.map_cons, List.cons.injEq, bind_ok, pure_ok, Prod.mk.injEq] at h2
          obtain ⟨⟨v2, h3, rfl, rfl⟩, h4⟩ := h2
          intro k v
          simp only [List.mem_cons, Prod.mk.injEq, ih _ h4]
          constructor
          · rintro (⟨rfl, rfl⟩ | ⟨w, h, h'⟩)
            · exact ⟨w0, .inl ⟨rfl, rfl⟩, h3⟩
            · exact ⟨w, .inr h, h'⟩
          · rintro ⟨w, ⟨rfl, rfl⟩ | h, h'⟩
            · rw [h3] at h'
              simp only [Except.ok.injEq] at h'
              exact .inl ⟨rfl, h'.symm⟩
            · exact .inr ⟨w, h, h'⟩
    have hok : TagMap.Ok kvs := by
      have : kvs.map (·.1) = t.map (·.1) := by
        clear hmem h1 hn
        induction t generalizing kvs with
        | nil => cases kvs <;> simp_all
        | cons kv t ih =>
          cases kvs with
          | nil => simp at h2
          | cons kv' kvs =>
            simp only [List.map_cons, List.cons.injEq, bind_ok, pure_ok] at h2
            obtain ⟨⟨v2, h3, rfl⟩, h4⟩ := h2
            simp [ih _ h4]
      rw [TagMap.Ok]
      rw [this]
      exact hn
    refine ⟨TagMap.Ok.nil.setAll _, fun k v => ?_⟩
    have : TagMap.get (TagMap.setAll [] kvs) k = TagMap.get kvs k := by
      rw [TagMap.get_setAll _ _ hok]
      cases TagMap.get kvs k <;> rfl
    rw [← TagMap.get_iff_mem (TagMap.Ok.nil.setAll _)]
    rw [this, TagMap.get_iff_mem hok, hmem]
    constructor
    · rintro ⟨w, h3, h4⟩
      rcases parseTag_ok.1 h4 with rfl | ⟨var, h5, h6, h7⟩
      · exact .plain ⟨t, h1, h3⟩
      · exact .env w var ⟨t, h1, h3⟩ h5 h6 h7
    · rintro (⟨tbl, h3, h4⟩ | ⟨w, var, ⟨tbl, h3, h4⟩, h5, h6, h7⟩)
      · rw [h1] at h3
        simp only [Option.some.injEq, Toml.table.injEq] at h3
        subst h3
        exact ⟨_, h4, parseTag_ok.2 (.inl rfl)⟩
      · rw [h1] at h3
        simp only [Option.some.injEq, Toml.table.injEq] at h3
        subst h3
        exact ⟨_, h4, parseTag_ok.2 (.inr ⟨var, h5, h6, h7⟩)⟩
  · refine ⟨TagMap.Ok.nil, fun k v => ?_⟩
    simp only [List.not_mem_nil, false_iff]
    rintro (⟨tbl, h3, h4⟩ | ⟨w, var, ⟨tbl, h3, h4⟩, h5, h6, h7⟩) <;>
      rw [hat, h1] at h3 <;> simp at h3

/-! ## The entries -/

theorem ForwardsTo.unique {t : Toml F} {fs gs : List Str} (h : ForwardsTo t fs) (h' : ForwardsTo t gs) :
    fs = gs := by
  rcases h with h | ⟨h, rfl⟩ <;> rcases h' with h' | ⟨h', rfl⟩
  · rw [h] at h'
    simp only [Option.some.injEq, Toml.array.injEq] at h'
    clear h
    induction fs generalizing gs with
    | nil => cases gs <;> simp_all
    | cons f fs ih =>
      cases gs with
      | nil => simp at h'
      | cons g gs => simp only [List.map_cons, List.cons.injEq, Toml.str.injEq] at h'; rw [h'.1, ih h'.2]
  · rw [h] at h'; simp at h'
  · rw [h] at h'; simp at h'
  · rfl

/-- Switched off. -/
def Disabled (t : Toml F) : Prop := t.get "enabled" = some (.bool false)

theorem Enabled.not_disabled {t : Toml F} (h : Enabled t) : ¬ Disabled t := by
  intro h'; unfold Disabled at h'; rcases h with h | h <;> rw [h'] at h <;> simp at h

theorem enabled_cases {t : Toml F} {b : Bool} (h : enabled t = .ok b) :
    (b = true ∧ Enabled t) ∨ (b = false ∧ Disabled t) := by
  simp only [enabled, setting_bool, Setting] at h
  cases b with
  | true => exact .inl ⟨rfl, by simpa [Enabled] using h⟩
  | false => exact .inr ⟨rfl, by simpa [Disabled] using h⟩

theorem delay_ok {n : Str} {t : Toml F} {o : Option Delay} (h : delay (n, t) = .ok o) :
    (t.get "tolerance" = none ∧ o = none) ∨ ∃ d, o = some d ∧ d.path = named "filters.delay." n ∧
      t.get "tolerance" = some (.int d.tolerance) ∧ ForwardsTo t d.forwards := by
  simp only [delay] at h
  split at h
  · rename_i tol ht
    simp only [bind_ok, pure_ok, asInt_ok, forwards_ok] at h
    obtain ⟨i, rfl, fs, hf, rfl⟩ := h
    exact .inr ⟨_, rfl, rfl, ht, hf⟩
  · rename_i ht
    simp only [Except.ok.injEq] at h
    exact .inl ⟨ht, h.symm⟩

theorem json_ok {n : Str} {t : Toml F} {tags : TagMap} {o : Option Json} (h : json tags (n, t) = .ok o) :
    ∃ d, o = some d ∧ d.path = named "filters.json_encode." n ∧
      Setting .bool t "parse_line" false d.parseLine ∧ ForwardsTo t d.forwards ∧ d.tags = tags := by
  simp only [json, bind_ok, pure_ok, setting_bool, forwards_ok] at h
  obtain ⟨b, hb, fs, hf, rfl⟩ := h
  exact ⟨_, rfl, rfl, hb, hf, rfl⟩

theorem boundary_ok {n : Str} {t : Toml F} {o : Option Boundary} (h : boundary (n, t) = .ok o) :
    (t.get "tolerance" = none ∧ o = none) ∨
    ∃ d, o = some d ∧ d.path = named "filters.flush_boundary." n ∧
      (∃ i, t.get "tolerance" = some (.int i) ∧ (d.tolerance : Int) = i % 2 ^ 64) ∧
      ForwardsTo t d.forwards := by
  simp only [boundary] at h
  split at h
  · rename_i tol ht
    simp only [bind_ok, pure_ok, asU64, asInt_ok, forwards_ok] at h
    obtain ⟨m, ⟨i, rfl, rfl⟩, fs, hf, rfl⟩ := h
    exact .inr ⟨_, rfl, rfl, ⟨i, ht, (toNat_mod i 64 _).1 rfl⟩, hf⟩
  · rename_i ht
    simp only [Except.ok.injEq] at h
    exact .inl ⟨ht, h.symm⟩

theorem prog_ok {x : Ext F} {dir n : Str} {t : Toml F} {tags : TagMap} {o : Option Prog}
    (h : prog x dir tags (n, t) = .ok o) :
    (t.get "script" = none ∧ o = none) ∨ ∃ d, o = some d ∧ d.path = named "filters.programmable." n ∧
      (∃ p, t.get "script" = some (.str p) ∧ d.script = x.join dir p) ∧ d.scriptsDirectory = dir ∧
      ForwardsTo t d.forwards ∧ d.tags = tags := by
  simp only [prog] at h
  split at h
  · rename_i pth ht
    simp only [bind_ok, pure_ok, asStr_ok, forwards_ok] at h
    obtain ⟨p, rfl, fs, hf, rfl⟩ := h
    exact .inr ⟨_, rfl, rfl, ⟨p, ht, rfl⟩, rfl, hf, rfl⟩
  · rename_i ht
    simp only [Except.ok.injEq] at h
    exact .inl ⟨ht, h.symm⟩

theorem kafka_ok {x : Ext F} {g : Nat} {n : Str} {t : Toml F} {o : Option Kafka}
    (h : kafka x g (n, t) = .ok o) :
    ((Disabled t ∨ t.get "topic" = none ∨ t.get "brokers" = none) ∧ o = none) ∨
    ∃ k, o = some k ∧ Enabled t ∧ k.path = named "sinks.kafka." n ∧ t.get "topic" = some (.str k.topic) ∧
      t.get "brokers" = some (.str k.brokers) ∧
      ((∃ tbl, t.get "librdkafka" = some (.table tbl) ∧ k.rdkafka = some (tbl.filterMap (rdkafkaEntry x))) ∨
        (t.get "librdkafka" = none ∧ k.rdkafka = none)) ∧
      Interval x t "flush_interval" g k.flushInterval ∧
      Wrapped 64 t "max_message_bytes" 10485760 k.maxMessageBytes := by
  simp only [kafka, bind_ok] at h
  obtain ⟨b, hb, h⟩ := h
  rcases enabled_cases hb with ⟨rfl, he⟩ | ⟨rfl, he⟩
  · simp only [if_true, bind_ok] at h
    obtain ⟨tp, h1, h⟩ := h
    rw [optional_str] at h1
    rcases h1 with ⟨s, h1, rfl⟩ | ⟨h1, rfl⟩
    · simp only [bind_ok] at h
      obtain ⟨br, h2, h⟩ := h
      rw [optional_str] at h2
      rcases h2 with ⟨s2, h2, rfl⟩ | ⟨h2, rfl⟩
      · simp only [bind_ok, pure_ok, wrapped_64] at h
        obtain ⟨rd, h3, fi, h4, mb, h5, rfl⟩ := h
        refine .inr ⟨_, rfl, he, rfl, h1, h2, ?_, flushInterval_ok h4, h5⟩
        rw [field?_ok] at h3
        rcases h3 with ⟨u, l, h6, h7, rfl⟩ | h3
        · simp only [bind_ok, pure_ok, asTable_ok] at h7
          obtain ⟨tbl, rfl, rfl⟩ := h7
          exact .inl ⟨tbl, h6, rfl⟩
        · exact .inr h3
      · simp only [Except.ok.injEq] at h
        exact .inl ⟨.inr (.inr h2), h.symm⟩
    · simp only [Except.ok.injEq] at h
      exact .inl ⟨.inr (.inl h1), h.symm⟩
  · simp only [Bool.false_eq_true, if_false, Except.ok.injEq] at h
    exact .inl ⟨.inl he, h.symm⟩

theorem file_ok {x : Ext F} {n : Str} {t : Toml F} {o : Option File} (h : file x (n, t) = .ok o) :
    (t.get "path" = none ∧ o = none) ∨
    ∃ f, o = some f ∧ t.get "path" = some (.str f.file) ∧ f.path = named "sources.files." (x.quote f.file) ∧
      ForwardsTo t f.forwards ∧ Wrapped 64 t "max_read_bytes" 2048 f.maxReadBytes := by
  simp only [file] at h
  split at h
  · rename_i pth ht
    simp only [bind_ok, pure_ok, asStr_ok, forwards_ok, wrapped_64] at h
    obtain ⟨p, rfl, fs, hf, m, hm, rfl⟩ := h
    exact .inr ⟨_, rfl, ht, rfl, hf, hm⟩
  · rename_i ht
    simp only [Except.ok.injEq] at h
    exact .inl ⟨ht, h.symm⟩

theorem statsd_ok {x : Ext F} {n : Str} {t : Toml F} {o : Option (Statsd F)}
    (h : statsd x (n, t) = .ok o) :
    (Disabled t ∧ o = none) ∨ ∃ s, o = some s ∧ Enabled t ∧ s.path = named "sources.statsd." n ∧
      Wrapped 16 t "port" 8125 s.port ∧ Setting .str t "host" "localhost".toList s.host ∧
      ForwardsTo t s.forwards ∧ s.forwards ≠ [] ∧ mappings x t = .ok s.masks ∧
      Setting .float t "summarize_error_bound" x.hundredth s.errorBound := by
  simp only [statsd, bind_ok] at h
  obtain ⟨b, hb, h⟩ := h
  rcases enabled_cases hb with ⟨rfl, he⟩ | ⟨rfl, he⟩
  · simp only [if_true, bind_ok, wrapped_16, setting_str, forwards_ok, setting_float] at h
    obtain ⟨p, h1, ho, h2, fs, h3, ms, h4, e, h5, h⟩ := h
    cases fs with
    | nil => simp at h
    | cons f fs =>
      simp only [List.isEmpty_cons, Bool.false_eq_true, if_false, pure_ok] at h
      subst h
      exact .inr ⟨_, rfl, he, rfl, h1, h2, h3, by simp, h4, h5⟩
  · simp only [Bool.false_eq_true, if_false, Except.ok.injEq] at h
    exact .inl ⟨he, h.symm⟩

theorem graphite_ok {n : Str} {t : Toml F} {o : Option Tcp} (h : graphite (n, t) = .ok o) :
    (Disabled t ∧ o = none) ∨ ∃ s, o = some s ∧ Enabled t ∧ s.path = named "sources.graphite." n ∧
      Wrapped 16 t "port" 2003 s.port ∧ Setting .str t "host" "localhost".toList s.host ∧
      ForwardsTo t s.forwards ∧ s.forwards ≠ [] := by
  simp only [graphite, bind_ok] at h
  obtain ⟨b, hb, h⟩ := h
  rcases enabled_cases hb with ⟨rfl, he⟩ | ⟨rfl, he⟩
  · simp only [if_true, bind_ok, wrapped_16, setting_str, forwards_ok] at h
    obtain ⟨p, h1, ho, h2, fs, h3, h⟩ := h
    cases fs with
    | nil => simp at h
    | cons f fs =>
      simp only [List.isEmpty_cons, Bool.false_eq_true, if_false, pure_ok] at h
      subst h
      exact .inr ⟨_, rfl, he, rfl, h1, h2, h3, by simp⟩
  · simp only [Bool.false_eq_true, if_false, Except.ok.injEq] at h
    exact .inl ⟨he, h.symm⟩

theorem avro_ok {n : Str} {t : Toml F} {o : Option Tcp} (h : avro (n, t) = .ok o) :
    (Disabled t ∧ o = none) ∨ ∃ s, o = some s ∧ Enabled t ∧ s.path = named "sources.avro." n ∧
      Wrapped 16 t "port" 2002 s.port ∧ Setting .str t "host" "localhost".toList s.host ∧
      ForwardsTo t s.forwards ∧ s.forwards ≠ [] := by
  simp only [avro, bind_ok] at h
  obtain ⟨b, hb, h⟩ := h
  rcases enabled_cases hb with ⟨rfl, he⟩ | ⟨rfl, he⟩
  · simp only [if_true, bind_ok, wrapped_16, setting_str, forwards_ok] at h
    obtain ⟨p, h1, ho, h2, fs, h3, h⟩ := h
    cases fs with
    | nil => simp at h
    | cons f fs =>
      simp only [List.isEmpty_cons, Bool.false_eq_true, if_false, pure_ok] at h
      subst h
      exact .inr ⟨_, rfl, he, rfl, h1, h2, h3, by simp⟩
  · simp only [Bool.false_eq_true, if_false, Except.ok.injEq] at h
    exact .inl ⟨he, h.symm⟩

theorem nativeSource_ok {n : Str} {t : Toml F} {o : Option Tcp} (h : nativeSource (n, t) = .ok o) :
    (Disabled t ∧ o = none) ∨ ∃ s, o = some s ∧ Enabled t ∧ s.path = named "sources.native." n ∧
      Wrapped 16 t "port" 1972 s.port ∧ Setting .str t "ip" "0.0.0.0".toList s.host ∧
      ForwardsTo t s.forwards := by
  simp only [nativeSource, bind_ok] at h
  obtain ⟨b, hb, h⟩ := h
  rcases enabled_cases hb with ⟨rfl, he⟩ | ⟨rfl, he⟩
  · simp only [if_true, bind_ok, wrapped_16, setting_str, forwards_ok, pure_ok] at h
    obtain ⟨p, h1, ho, h2, fs, h3, rfl⟩ := h
    exact .inr ⟨_, rfl, he, rfl, h1, h2, h3⟩
  · simp only [Bool.false_eq_true, if_false, Except.ok.injEq] at h
    exact .inl ⟨he, h.symm⟩

/-! ## Names -/

theorem named_ne {p q : String} (h : ¬ p.toList <+: q.toList ∧ ¬ q.toList <+: p.toList) (a b : Str) :
    named p a ≠ named q b := by
  intro he
  have h1 : p.toList <+: named p a := List.prefix_append _ _
  have h2 : q.toList <+: named p a := by rw [he]; exact List.prefix_append _ _
  rcases List.prefix_or_prefix_of_prefix h1 h2 with h3 | h3
  · exact h.1 h3
  · exact h.2 h3

theorem named_nil (p : String) : named p [] = p.toList := List.append_nil _

theorem named_inj {p : String} {a b : Str} (h : named p a = named p b) : a = b :=
  List.append_cancel_left h

/-- Groups of names under prefixes none of which starts another have no name in common. -/
theorem nodup_groups : ∀ (gs : List (String × List Str)),
    (∀ g ∈ gs, g.2.Nodup ∧ ∀ s ∈ g.2, ∃ n, s = named g.1 n) →
    (gs.map (·.1)).Pairwise (fun p q => ¬ p.toList <+: q.toList ∧ ¬ q.toList <+: p.toList) →
    (gs.map (·.2)).flatten.Nodup := by
  intro gs
  induction gs with
  | nil => simp
  | cons g gs ih =>
    intro h1 h2
    rw [List.map_cons, List.pairwise_cons] at h2
    rw [List.map_cons, List.flatten_cons, List.nodup_append]
    refine ⟨(h1 g List.mem_cons_self).1, ih (fun g hg => h1 g (List.mem_cons_of_mem _ hg)) h2.2, ?_⟩
    intro a ha b hb he
    obtain ⟨l, hl, hb⟩ := List.mem_flatten.1 hb
    obtain ⟨g', hg', rfl⟩ := List.mem_map.1 hl
    obtain ⟨n, rfl⟩ := (h1 g List.mem_cons_self).2 a ha
    obtain ⟨m, rfl⟩ := (h1 g' (List.mem_cons_of_mem _ hg')).2 b hb
    exact named_ne (h2.1 _ (List.mem_map.2 ⟨g', hg', rfl⟩)) n m he

/-- The groups of names of a loaded configuration. -/
def groups (a : Args F) : List (String × List Str) :=
  [("sinks.null", if a.null then [named "sinks.null" []] else []),
   ("sinks.console", (a.console.map fun _ => named "sinks.console" []).toList),
   ("sinks.wavefront", (a.wavefront.map fun _ => named "sinks.wavefront" []).toList),
   ("sinks.prometheus", (a.prometheus.map fun _ => named "sinks.prometheus" []).toList),
   ("sinks.influxdb", (a.influxdb.map fun _ => named "sinks.influxdb" []).toList),
   ("sinks.native", (a.nativeSink.map fun _ => named "sinks.native" []).toList),
   ("sinks.elasticsearch", (a.elasticsearch.map fun _ => named "sinks.elasticsearch" []).toList),
   ("sinks.kafka.", a.kafkas.map (·.path)),
   ("filters.programmable.", a.programmables.map (·.path)),
   ("filters.delay.", a.delays.map (·.path)),
   ("filters.json_encode.", a.jsons.map (·.path)),
   ("filters.flush_boundary.", a.boundaries.map (·.path)),
   ("sources.native.", a.natives.map (·.path)),
   ("sources.internal", [named "sources.internal" []]),
   ("sources.statsd.", a.statsds.map (·.path)),
   ("sources.graphite.", a.graphites.map (·.path)),
   ("sources.avro.", a.avros.map (·.path)),
   ("sources.files.", a.files.map (·.path))]

theorem groups_flatten (a : Args F) : ((groups a).map (·.2)).flatten =
    a.topology.sinks ++ (a.topology.filters ++ a.topology.natives ++ a.topology.sources).map (·.1) := by
  simp [groups, Args.topology, Args.sinkNames, Args.filterNodes, Args.nativeNodes, Args.sourceNodes,
    Function.comp_def]

theorem groups_prefixes (a : Args F) : ((groups a).map (·.1)).Pairwise
    (fun p q => ¬ p.toList <+: q.toList ∧ ¬ q.toList <+: p.toList) := by
  show ["sinks.null", "sinks.console", "sinks.wavefront", "sinks.prometheus", "sinks.influxdb",
    "sinks.native", "sinks.elasticsearch", "sinks.kafka.", "filters.programmable.", "filters.delay.",
    "filters.json_encode.", "filters.flush_boundary.", "sources.native.", "sources.internal",
    "sources.statsd.", "sources.graphite.", "sources.avro.", "sources.files."].Pairwise _
  decide +kernel

theorem Loaded.group {β : Type} {cfg : Toml F} {path : List String} {f : Str × Toml F → M (Option β)}
    {l : List β} (h : Loaded cfg path f l) (hw : WellFormed cfg) {g : β → Str} {kind : String}
    (hg : ∀ n t b, f (n, t) = .ok (some b) → g b = named kind n) :
    (l.map g).Nodup ∧ ∀ s ∈ l.map g, ∃ n, s = named kind n := by
  refine ⟨h.nodup hw g kind hg, ?_⟩
  intro s hs
  obtain ⟨b, hb, rfl⟩ := List.mem_map.1 hs
  obtain ⟨n, t, -, hf⟩ := (h.mem b).1 hb
  exact ⟨n, hg n t b hf⟩

/-- If the file sources have distinct names, so have all nodes. -/
theorem distinct_of_files {x : Ext F} {cfg : Toml F} {a : Args F} {tags : TagMap} (h : ParseOk x cfg a tags)
    (hw : WellFormed cfg) (hf : (a.files.map (·.path)).Nodup) : Topology.Distinct a.topology := by
  unfold Topology.Distinct
  rw [← groups_flatten]
  refine nodup_groups _ ?_ (groups_prefixes a)
  have one : ∀ {β : Type} (o : Option β) (s : String),
      ((o.map fun _ => named s []).toList).Nodup ∧
        ∀ y ∈ (o.map fun _ => named s []).toList, ∃ n, y = named s n := by
    intro β o s
    cases o with
    | none => simp
    | some v => simp only [Option.map_some, Option.toList_some, List.nodup_cons, List.not_mem_nil,
        not_false_eq_true, List.nodup_nil, and_self, List.mem_singleton, true_and]; exact fun y hy => ⟨[], hy⟩
  intro g hg
  simp only [groups, List.mem_cons, List.not_mem_nil, or_false] at hg
  rcases hg with rfl | rfl | rfl | rfl | rfl | rfl | rfl | rfl | rfl | rfl | rfl | rfl | rfl | rfl | rfl |
    rfl | rfl | rfl
  · refine ⟨by dsimp only; split <;> simp, ?_⟩
    intro s hs
    dsimp only at hs
    split at hs
    · exact ⟨[], by simpa using hs⟩
    · simp at hs
  · exact one _ _
  · exact one _ _
  · exact one _ _
  · exact one _ _
  · exact one _ _
  · exact one _ _
  · refine h.kafkas.group hw fun n t b hb => ?_
    rcases kafka_ok hb with ⟨-, h⟩ | ⟨k, h, -, h', -⟩
    · simp at h
    · simp only [Option.some.injEq] at h; subst h; exact h'
  · refine h.programmables.group hw fun n t b hb => ?_
    rcases prog_ok hb with ⟨-, h⟩ | ⟨k, h, h', -⟩
    · simp at h
    · simp only [Option.some.injEq] at h; subst h; exact h'
  · refine h.delays.group hw fun n t b hb => ?_
    rcases delay_ok hb with ⟨-, h⟩ | ⟨k, h, h', -⟩
    · simp at h
    · simp only [Option.some.injEq] at h; subst h; exact h'
  · refine h.jsons.group hw fun n t b hb => ?_
    obtain ⟨k, h, h', -⟩ := json_ok hb
    simp only [Option.some.injEq] at h; subst h; exact h'
  · refine h.boundaries.group hw fun n t b hb => ?_
    rcases boundary_ok hb with ⟨-, h⟩ | ⟨k, h, h', -⟩
    · simp at h
    · simp only [Option.some.injEq] at h; subst h; exact h'
  · refine h.natives.group hw fun n t b hb => ?_
    rcases nativeSource_ok hb with ⟨-, h⟩ | ⟨k, h, -, h', -⟩
    · simp at h
    · simp only [Option.some.injEq] at h; subst h; exact h'
  · refine ⟨by simp, fun s hs => ⟨[], List.mem_singleton.1 hs⟩⟩
  · refine h.statsds.group hw fun n t b hb => ?_
    rcases statsd_ok hb with ⟨-, h⟩ | ⟨k, h, -, h', -⟩
    · simp at h
    · simp only [Option.some.injEq] at h; subst h; exact h'
  · refine h.graphites.group hw fun n t b hb => ?_
    rcases graphite_ok hb with ⟨-, h⟩ | ⟨k, h, -, h', -⟩
    · simp at h
    · simp only [Option.some.injEq] at h; subst h; exact h'
  · refine h.avros.group hw fun n t b hb => ?_
    rcases avro_ok hb with ⟨-, h⟩ | ⟨k, h, -, h', -⟩
    · simp at h
    · simp only [Option.some.injEq] at h; subst h; exact h'
  · refine ⟨hf, ?_⟩
    intro s hs
    obtain ⟨b, hb, rfl⟩ := List.mem_map.1 hs
    obtain ⟨n, t, -, hb⟩ := (h.files.mem b).1 hb
    rcases file_ok hb with ⟨-, h⟩ | ⟨k, h, -, h', -⟩
    · simp at h
    · simp only [Option.some.injEq] at h; subst h; exact ⟨_, h'⟩

/-- File sources have distinct names exactly if they have distinct paths. -/
theorem files_nodup {x : Ext F} {cfg : Toml F} {l : List File} (h : Loaded cfg ["sources", "files"] (file x) l)
    (hw : WellFormed cfg) (hq : ∀ p q, x.quote p = x.quote q → p = q) :
    (l.map (·.path)).Nodup ↔ FilesDistinct cfg := by
  obtain ⟨tbl, sub, h1, h2, rfl, h4⟩ := h.sub
  have hn : (tbl.map (·.1)).Nodup := by
    rcases h1 with h1 | ⟨-, rfl⟩
    · exact hw.at h1
    · simp
  have hE : ∀ n t, Entry cfg ["sources", "files"] n t ↔ (n, t) ∈ tbl := by
    intro n t
    constructor
    · rintro ⟨tbl', h5, h6⟩
      rcases h1 with h1 | ⟨h1, rfl⟩
      · rw [h1] at h5
        simp only [Option.some.injEq, Toml.table.injEq] at h5
        subst h5; exact h6
      · rw [h1] at h5; simp at h5
    · intro hm
      rcases h1 with h1 | ⟨h1, rfl⟩
      · exact ⟨tbl, h1, hm⟩
      · simp at hm
  have hs : ∀ n t f, ((n, t), f) ∈ sub → t.get "path" = some (.str f.file) ∧
      f.path = named "sources.files." (x.quote f.file) := by
    intro n t f hm
    rcases file_ok ((h4 _ _).1 hm).2 with ⟨-, h⟩ | ⟨k, h, h', h'', -⟩
    · simp at h
    · simp only [Option.some.injEq] at h; subst h; exact ⟨h', h''⟩
  have hex : ∀ n t p, (n, t) ∈ tbl → t.get "path" = some (.str p) → ∃ f, ((n, t), f) ∈ sub ∧ f.file = p := by
    intro n t p hm hp
    obtain ⟨o, ho⟩ := h.total n t ((hE n t).2 hm)
    rcases file_ok ho with ⟨h, -⟩ | ⟨k, rfl, h', -⟩
    · rw [hp] at h; simp at h
    · refine ⟨k, (h4 _ _).2 ⟨hm, ho⟩, ?_⟩
      rw [hp] at h'; simpa using h'.symm
  have hsub : (sub.map (·.1.1)).Nodup := by
    have := h2.map (·.1)
    rw [List.map_map] at this
    exact List.Nodup.sublist this hn
  rw [List.map_map]
  unfold FilesDistinct
  simp only [hE]
  constructor
  · intro hnd n m t u p hnt hmu ht hu
    obtain ⟨f, hf, hfp⟩ := hex n t p hnt ht
    obtain ⟨g, hg, hgp⟩ := hex m u p hmu hu
    obtain ⟨i, hi, hi'⟩ := List.mem_iff_getElem.1 hf
    obtain ⟨j, hj, hj'⟩ := List.mem_iff_getElem.1 hg
    have : i = j := by
      refine (List.getElem_inj (h₀ := by simpa using hi) (h₁ := by simpa using hj) hnd).1 ?_
      simp only [List.getElem_map, hi', hj', Function.comp_apply]
      rw [(hs _ _ _ hf).2, (hs _ _ _ hg).2, hfp, hgp]
    subst this
    rw [hi'] at hj'
    simp only [Prod.mk.injEq] at hj'
    exact hj'.1.1
  · intro hd
    rw [List.nodup_iff_pairwise_ne] at *
    rw [List.pairwise_map] at hsub ⊢
    refine (List.Pairwise.and_mem.1 hsub).imp ?_
    rintro ⟨⟨n, t⟩, f⟩ ⟨⟨m, u⟩, g⟩ ⟨hf, hg, hne⟩ he
    apply hne
    simp only [Function.comp_apply] at he ⊢
    rw [(hs _ _ _ hf).2, (hs _ _ _ hg).2] at he
    have hp := hq _ _ (named_inj he)
    refine hd n m t u f.file ?_ ?_ (hs _ _ _ hf).1 (by rw [hp]; exact (hs _ _ _ hg).1)
    · exact ((h4 _ _).1 hf).1
    · exact ((h4 _ _).1 hg).1

end Verif.Config
