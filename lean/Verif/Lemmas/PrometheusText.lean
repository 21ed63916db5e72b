import Verif.Lemmas.Prometheus
/-!
# Lemmas about reports and the exposition text
-/
namespace Verif
namespace Prometheus
section
variable {F : Type} [F64 F]

/-- Every accumulator reports; a window reports the merge of its samples with the count and sum
of all insertions. -/
theorem report_acc (now : Int) (acc : Acc F) :
    acc.report now = some (match acc with
      | .perpetual t => some t
      | .windowed _ _ _ [] => none
      | .windowed _ sum count (s :: rest) =>
        some { rest.foldl Telemetry.addAssign s with overrideCount := some count, overrideSampleSum := some sum })
    ∨ ∃ cap sum count s rest, acc = .windowed cap sum count (s :: rest) ∧
      (rest.foldl Telemetry.addAssign s).kind ≠ .summarize := by
  cases acc with
  | perpetual t => left; rfl
  | windowed cap sum count samples =>
    cases samples with
    | nil => left; rfl
    | cons s rest =>
      by_cases hk : (rest.foldl Telemetry.addAssign s).kind = .summarize
      · left
        simp only [Acc.report]
        generalize rest.foldl (fun start t => start.addAssign t) s = p at hk ⊢
        obtain ⟨name, value, persist, tags, ts, oc, os⟩ := p
        cases value <;> simp [Telemetry.kind, Value.kind] at hk
        rfl
      · right; exact ⟨cap, sum, count, s, rest, rfl, hk⟩

theorem foldl_P {P : Telemetry F → Prop} (hadd : ∀ a b, P a → P b → P (a.addAssign b)) :
    ∀ (ts : List (Telemetry F)) (t0 : Telemetry F), P t0 → (∀ t ∈ ts, P t) →
      P (ts.foldl Telemetry.addAssign t0)
  | [], _, h, _ => h
  | t :: ts, t0, h, hs => foldl_P hadd ts _ (hadd _ _ h (hs t (List.mem_cons_self ..)))
      (fun u hu => hs u (List.mem_cons_of_mem _ hu))

/-- The report of an accumulator that meets the invariant. -/
theorem AccOk.report {ext : Ext F} {cap : Nat} {P : Telemetry F → Prop} {t0 : Telemetry F}
    {ts : List (Telemetry F)} {acc : Acc F} (h : AccOk ext cap P (t0 :: ts) acc)
    (hadd : ∀ a b, P a → P b → P (a.addAssign b)) (now : Int) :
    ∃ o, acc.report now = some o ∧ ∀ p, o = some p → p.kind = t0.kind ∧
      (∃ q, P q ∧ p.name = q.name ∧ p.value = q.value) ∧
      (t0.kind ≠ .summarize → p = ts.foldl Telemetry.addAssign t0) ∧
      (t0.kind = .summarize → p.count = ts.length + 1 ∧ ∃ v0 vs,
        (t0 :: ts).map (fun t => t.query (F64.ofNat 1)) = (v0 :: vs).map some ∧
        p.samplesSum = some (vs.foldl (wrapSum ext) v0)) := by
  cases h with
  | perpetual _ _ hk0 hk hP =>
    refine ⟨_, rfl, fun p hp => ?_⟩
    simp only [Option.some.injEq] at hp
    subst hp
    exact ⟨foldl_kind ts t0 hk, ⟨_, hP, rfl, rfl⟩, fun _ => rfl, fun h => absurd h hk0⟩
  | windowed _ _ hk0 hk samples v0 vs hv hlen hsort hP =>
    cases samples with
    | nil => exact ⟨none, rfl, fun p hp => by simp at hp⟩
    | cons s rest =>
      have hPf : P (rest.foldl Telemetry.addAssign s) := foldl_P hadd rest s
        (hP s (List.mem_cons_self ..)).1 (fun t ht => (hP t (List.mem_cons_of_mem _ ht)).1)
      have hkf : (rest.foldl Telemetry.addAssign s).kind = .summarize :=
        foldl_P (P := fun t => t.kind = .summarize) (fun a b _ h => (addAssign_kind a b).trans h)
          rest s (hP s (List.mem_cons_self ..)).2 (fun t ht => (hP t (List.mem_cons_of_mem _ ht)).2)
      rcases report_acc now (Acc.windowed cap (vs.foldl (wrapSum ext) v0) (ts.length + 1) (s :: rest)) with e | ⟨_, _, _, s', rest', e, e'⟩
      · refine ⟨_, e, fun p hp => ?_⟩
        simp only [Option.some.injEq] at hp
        subst hp
        refine ⟨hkf.trans hk0.symm, ⟨_, hPf, rfl, rfl⟩, fun h => absurd hk0 h, fun _ => ⟨rfl, v0, vs, hv, ?_⟩⟩
        have hv : (rest.foldl Telemetry.addAssign s).value.kind = .summarize := hkf
        simp only [Telemetry.samplesSum]
        generalize (rest.foldl Telemetry.addAssign s).value = w at hv
        cases w <;> simp [Value.kind] at hv ⊢
      · simp only [Acc.windowed.injEq, List.cons.injEq] at e
        obtain ⟨_, _, _, rfl, rfl⟩ := e
        exact absurd hkf e'

/-- Reports succeed if every entry's does; every reported point comes from an entry. -/
theorem report_mem (now : Int) : ∀ (order : List (Str × Acc F)),
    (∀ ka ∈ order, ∃ o, ka.2.report now = some o) →
    ∃ pts, report now order = some pts ∧
      pts = order.filterMap fun ka => (ka.2.report now).getD none
  | [], _ => ⟨[], rfl, rfl⟩
  | (k, acc) :: rest, h => by
    obtain ⟨o, ho⟩ := h (k, acc) (List.mem_cons_self ..)
    obtain ⟨pts, e1, e2⟩ := report_mem now rest (fun ka hka => h ka (List.mem_cons_of_mem _ hka))
    simp only at ho
    simp only [report, ho, e1, List.filterMap_cons, Option.getD_some, ← e2]
    cases o with
    | none => exact ⟨_, rfl, rfl⟩
    | some t => exact ⟨_, rfl, rfl⟩

/-- The lines for one point after its TYPE line. -/
def body (ext : Ext F) (default : TagMap) (t : Telemetry F) : Option (List (Line F)) :=
  let name := sanitize t.name
  let tags := t.iterTags default
  match t.value with
  | .sum v | .set v => some [.sample name tags (.real v)]
  | .histogram h => some (bucketLines ext name tags 0 (F64.histBins h) ++ tailLines name tags t)
  | .quantiles _ _ => (quantileLines ext name tags t quantiles).map (· ++ tailLines name tags t)

theorem typeName_cases : typeName .sum = ['c', 'o', 'u', 'n', 't', 'e', 'r'] ∧
    typeName .set = ['g', 'a', 'u', 'g', 'e'] ∧
    typeName .histogram = ['h', 'i', 's', 't', 'o', 'g', 'r', 'a', 'm'] ∧
    typeName .summarize = ['s', 'u', 'm', 'm', 'a', 'r', 'y'] := by decide

/-- One step of `write_text`. -/
theorem writeText_cons (ext : Ext F) (default : TagMap) (seen : List Str) (t : Telemetry F)
    (ts : List (Telemetry F)) :
    writeText ext default seen (t :: ts) =
      match body ext default t, writeText ext default (t.name :: seen) ts with
      | some b, some rest => some ((if t.name ∈ seen then [] else
          [.type (sanitize t.name) (typeName t.kind)]) ++ (b ++ rest))
      | _, _ => none := by
  obtain ⟨h1, h2, h3, h4⟩ := typeName_cases
  cases hv : t.value with
  | sum v =>
    have hk : t.kind = .sum := by simp [Telemetry.kind, hv, Value.kind]
    have hs : t.sum = some v := by simp [Telemetry.sum, hv]
    simp only [writeText, hk, hs, body, hv, h1]
    cases writeText ext default (t.name :: seen) ts <;> simp
  | set v =>
    have hk : t.kind = .set := by simp [Telemetry.kind, hv, Value.kind]
    have hs : t.set = some v := by simp [Telemetry.set, hv]
    simp only [writeText, hk, hs, body, hv, h2]
    cases writeText ext default (t.name :: seen) ts <;> simp
  | histogram h =>
    have hk : t.kind = .histogram := by simp [Telemetry.kind, hv, Value.kind]
    have hs : t.bins = some (F64.histBins h) := by simp [Telemetry.bins, hv]
    simp only [writeText, hk, hs, body, hv, h3]
    cases writeText ext default (t.name :: seen) ts <;> simp
  | quantiles c s =>
    have hk : t.kind = .summarize := by simp [Telemetry.kind, hv, Value.kind]
    simp only [writeText, hk, body, hv, h4]
    cases quantileLines ext (sanitize t.name) (t.iterTags default) t quantiles with
    | none => simp
    | some qs => cases writeText ext default (t.name :: seen) ts <;> simp

/-- With distinct names the text is one block per point, each with its TYPE line first. -/
theorem writeText_blocks (ext : Ext F) (default : TagMap) :
    ∀ (pts : List (Telemetry F)) (seen : List Str) (ls : List (Line F)),
      (pts.map (·.name)).Nodup → (∀ t ∈ pts, t.name ∉ seen) →
      writeText ext default seen pts = some ls →
      ∃ bs : List (List (Line F)), pts.map (body ext default) = bs.map some ∧
        ls = ((pts.zip bs).map fun tb =>
          Line.type (sanitize tb.1.name) (typeName tb.1.kind) :: tb.2).flatten
  | [], _, ls, _, _, h => by
    simp only [writeText, Option.some.injEq] at h
    exact ⟨[], rfl, by rw [← h]; rfl⟩
  | t :: pts, seen, ls, hn, hs, h => by
    rw [writeText_cons] at h
    simp only [List.map_cons, List.nodup_cons] at hn
    cases hb : body ext default t with
    | none => rw [hb] at h; simp at h
    | some b =>
      cases hr : writeText ext default (t.name :: seen) pts with
      | none => rw [hb, hr] at h; simp at h
      | some rest =>
        rw [hb, hr, if_neg (hs t (List.mem_cons_self ..))] at h
        simp only [List.cons_append, List.nil_append, Option.some.injEq] at h
        obtain ⟨bs, e1, e2⟩ := writeText_blocks ext default pts (t.name :: seen) rest hn.2 (by
          intro u hu hmem
          rcases List.mem_cons.mp hmem with h | h
          · exact hn.1 (h ▸ List.mem_map_of_mem (f := (·.name)) hu)
          · exact hs u (List.mem_cons_of_mem _ hu) h) hr
        refine ⟨b :: bs, by simp [hb, e1], ?_⟩
        rw [← h, e2]
        simp

theorem bucketLines_samples (ext : Ext F) (name : Str) (tags : List (Str × Str)) :
    ∀ (bins : List (Option F × Nat)) (r : Nat), ∀ l ∈ bucketLines ext name tags r bins, SampleOf name l
  | [], _, l, h => by simp [bucketLines] at h
  | (b, v) :: bins, r, l, h => by
    simp only [bucketLines, List.mem_cons] at h
    rcases h with rfl | h
    · exact Or.inl rfl
    · exact bucketLines_samples ext name tags bins _ l h

theorem quantileLines_samples (ext : Ext F) (name : Str) (tags : List (Str × Str)) (t : Telemetry F) :
    ∀ (qs : List F) (ls : List (Line F)), quantileLines ext name tags t qs = some ls →
      ∀ l ∈ ls, SampleOf name l
  | [], ls, h, l, hl => by
    simp only [quantileLines, Option.some.injEq] at h
    subst h; simp at hl
  | q :: qs, ls, h, l, hl => by
    simp only [quantileLines] at h
    cases hq : t.query q with
    | none => rw [hq] at h; simp at h
    | some v =>
      cases hr : quantileLines ext name tags t qs with
      | none => rw [hq, hr] at h; simp at h
      | some rest =>
        rw [hq, hr] at h
        simp only [Option.some.injEq] at h
        subst h
        rcases List.mem_cons.mp hl with rfl | hl
        · exact Or.inl rfl
        · exact quantileLines_samples ext name tags t qs rest hr l hl

theorem body_samples (ext : Ext F) (default : TagMap) (t : Telemetry F) (b : List (Line F))
    (h : body ext default t = some b) : ∀ l ∈ b, SampleOf (sanitize t.name) l := by
  have htail : ∀ l ∈ tailLines (sanitize t.name) (t.iterTags default) t,
      SampleOf (sanitize t.name) l := by
    intro l hl
    simp only [tailLines, List.mem_cons, List.not_mem_nil, or_false] at hl
    rcases hl with rfl | rfl
    · exact Or.inr (Or.inl rfl)
    · exact Or.inr (Or.inr rfl)
  intro l hl
  simp only [body] at h
  cases hv : t.value with
  | sum v =>
    rw [hv] at h; simp only [Option.some.injEq] at h; subst h
    rw [List.mem_singleton] at hl; subst hl; exact Or.inl rfl
  | set v =>
    rw [hv] at h; simp only [Option.some.injEq] at h; subst h
    rw [List.mem_singleton] at hl; subst hl; exact Or.inl rfl
  | histogram hh =>
    rw [hv] at h; simp only [Option.some.injEq] at h; subst h
    rcases List.mem_append.mp hl with hl | hl
    · exact bucketLines_samples _ _ _ _ _ l hl
    · exact htail l hl
  | quantiles c s =>
    rw [hv] at h
    simp only at h
    cases hq : quantileLines ext (sanitize t.name) (t.iterTags default) t quantiles with
    | none => rw [hq] at h; simp at h
    | some qs =>
      rw [hq] at h
      simp only [Option.map_some, Option.some.injEq] at h
      subst h
      rcases List.mem_append.mp hl with hl | hl
      · exact quantileLines_samples _ _ _ _ _ qs hq l hl
      · exact htail l hl

/-- Whole numbers at the end of sample lines. -/
def natOf : Line F → Option Nat
  | .sample _ _ (.nat n) => some n
  | _ => none

theorem bucketLines_counts (ext : Ext F) (name : Str) (tags : List (Str × Str)) :
    ∀ (bins : List (Option F × Nat)) (r : Nat),
      let cs := (bucketLines ext name tags r bins).filterMap natOf
      cs.Pairwise (· ≤ ·) ∧ (∀ c ∈ cs, r ≤ c) ∧ cs.length = bins.length ∧
      (bins ≠ [] → cs.getLast? = some (r + (bins.map (·.2)).sum))
  | [], r => by simp [bucketLines]
  | (b, v) :: bins, r => by
    obtain ⟨h1, h2, h3, h4⟩ := bucketLines_counts ext name tags bins (r + v)
    simp only [bucketLines, List.filterMap_cons, natOf]
    refine ⟨?_, ?_, by simp [h3], ?_⟩
    · rw [List.pairwise_cons]
      refine ⟨fun c hc => ?_, h1⟩
      have := h2 c hc; omega
    · intro c hc
      rcases List.mem_cons.mp hc with rfl | hc
      · omega
      · have := h2 c hc; omega
    · intro _
      cases bins with
      | nil => simp [bucketLines]; omega
      | cons b2 bins =>
        have := h4 (by simp)
        rw [List.getLast?_cons, this]
        simp only [Option.getD_some, List.map_cons, List.sum_cons]
        congr 1
        omega

/-! ### Names -/

instance (c : Char) : Decidable (NameChar c) := inferInstanceAs (Decidable (_ ∨ _))

set_option maxRecDepth 8000 in
theorem high_byte : ∀ n : Fin 256, 128 ≤ n.val → keepByte (UInt8.ofNat n.val) = false := by decide

theorem low_byte : ∀ n : Fin 128,
    (if keepByte (UInt8.ofNat n.val) then Char.ofNat (UInt8.ofNat n.val).toNat else '_') =
      if NameChar (Char.ofNat n.val) then Char.ofNat n.val else '_' := by decide

theorem nameChar_low (c : Char) (h : NameChar c) : c.val.toNat ≤ 127 := by
  have h1 : ∀ a b : Char, a ≤ b ↔ a.val.toNat ≤ b.val.toNat := fun a b => Iff.rfl
  simp only [NameChar, h1] at h
  rcases h with h | h | h | h | h
  · have : 'z'.val.toNat = 122 := rfl
    omega
  · have : 'Z'.val.toNat = 90 := rfl
    omega
  · have : '9'.val.toNat = 57 := rfl
    omega
  · rw [h]; decide
  · rw [h]; decide

/-- `sanitize` on one character. -/
theorem sanitize_char (c : Char) :
    (String.utf8EncodeChar c).map (fun b => if keepByte b then Char.ofNat b.toNat else '_') =
      if NameChar c then [c] else List.replicate (String.utf8EncodeChar c).length '_' := by
  by_cases hv : c.val.toNat ≤ 127
  · have hc : Char.ofNat c.val.toNat = c := Char.ofNat_toNat c
    have e : String.utf8EncodeChar c = [UInt8.ofNat c.val.toNat] := by
      simp only [String.utf8EncodeChar, hv, if_true]
    have := low_byte ⟨c.val.toNat, by omega⟩
    rw [e]
    simp only [List.map_cons, List.map_nil, hc] at this ⊢
    rw [this]
    by_cases hn : NameChar c <;> simp [hn]
  · have hn : ¬ NameChar c := fun h => hv (nameChar_low c h)
    rw [if_neg hn]
    have hb : ∀ b ∈ String.utf8EncodeChar c, keepByte b = false := by
      have hk : ∀ n, n < 128 → keepByte (UInt8.ofNat (n + 128)) = false := by
        intro n hn
        exact high_byte ⟨n + 128, by omega⟩ (by simp)
      have hk2 : ∀ n m, n < m → 128 ≤ m → n + m < 256 → keepByte (UInt8.ofNat (n + m)) = false := by
        intro n m _ _ _
        exact high_byte ⟨n + m, by omega⟩ (by simp; omega)
      intro b hb
      simp only [String.utf8EncodeChar, hv, if_false] at hb
      split at hb
      · simp only [List.mem_cons, List.not_mem_nil, or_false] at hb
        rcases hb with rfl | rfl
        · exact hk2 _ 192 (by omega) (by omega) (by omega)
        · exact hk _ (by omega)
      · split at hb
        · simp only [List.mem_cons, List.not_mem_nil, or_false] at hb
          rcases hb with rfl | rfl | rfl
          · exact hk2 _ 224 (by omega) (by omega) (by omega)
          · exact hk _ (by omega)
          · exact hk _ (by omega)
        · simp only [List.mem_cons, List.not_mem_nil, or_false] at hb
          rcases hb with rfl | rfl | rfl | rfl
          · exact hk2 _ 240 (by omega) (by omega) (by omega)
          · exact hk _ (by omega)
          · exact hk _ (by omega)
          · exact hk _ (by omega)
    generalize String.utf8EncodeChar c = bs at hb
    induction bs with
    | nil => rfl
    | cons b bs ih =>
      rw [List.map_cons, ih (fun b' h => hb b' (List.mem_cons_of_mem _ h)),
        hb b (List.mem_cons_self ..)]
      rfl

theorem sanitize_eq (name : Str) :
    sanitize name = name.flatMap fun c =>
      if NameChar c then [c] else List.replicate (String.utf8EncodeChar c).length '_' := by
  simp only [sanitize, List.map_flatMap, sanitize_char]

end
end Prometheus
end Verif
