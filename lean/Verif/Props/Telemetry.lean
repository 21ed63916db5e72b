import Verif.Lemmas.Cmp
/-!
# Properties C03–C07: telemetry points
-/
namespace Verif
section
variable {F : Type} [F64 F]

/-! ## C03 -/

/-- The rules a builder must meet, in the order they are enforced, each with the
failure reported when it is the first one broken.  A rule is `(broken, failure)`. -/
def builderRules (s : SoftTelemetry F) : List (Bool × HardenError) :=
  let kind := s.kind.getD .set
  [ (s.initialValue.isSome && s.thawedValue.isSome, .cannotHaveTwoValues),
    (s.initialValue.isNone && s.thawedValue.isNone, .noValue),
    (s.name.isNone, .noName),
    -- an error bound only for summaries
    (kind != .summarize && s.error.isSome, .cannotSetError),
    -- bounds only for histograms
    (kind != .histogram && s.bounds.isSome, .cannotSetBounds),
    -- an error bound below 1
    (kind == .summarize && s.error.any (fun e => F64.ge e (F64.ofNat 1)), .summarizeErrorTooLarge),
    -- bounds the histogram library refuses: the code panics
    (kind == .histogram && s.initialValue.isSome &&
      (F64.histNew (s.bounds.getD [F64.ofNat 1, F64.ofNat 10, F64.ofNat 100, F64.ofNat 1000])).isNone,
      .panicBounds) ]

/-- **C03** (acceptance) hardening fails with `e` exactly when `e` belongs to the
first broken rule; in particular it succeeds exactly when no rule is broken. -/
theorem C03_harden_failure (now : Int) (s : SoftTelemetry F) :
    (∀ e, s.harden now = .error e ↔ ((builderRules s).find? (·.1)).map (·.2) = some e) ∧
    ((∃ t, s.harden now = .ok t) ↔ ∀ r ∈ builderRules s, r.1 = false) := by
  obtain ⟨name, iv, tv, kind, error, bounds, ts, tags, persist, oc, os⟩ := s
  have main : ∀ k : Kind, kind.getD .set = k →
      (match SoftTelemetry.harden now (⟨name, iv, tv, kind, error, bounds, ts, tags, persist, oc, os⟩ : SoftTelemetry F) with
       | .error e => ((builderRules (⟨name, iv, tv, kind, error, bounds, ts, tags, persist, oc, os⟩ : SoftTelemetry F)).find? (·.1)).map (·.2) = some e
       | .ok _ => ((builderRules (⟨name, iv, tv, kind, error, bounds, ts, tags, persist, oc, os⟩ : SoftTelemetry F)).find? (·.1)).map (·.2) = none) := by
    intro k hk
    simp only [SoftTelemetry.harden, builderRules, hk]
    cases iv <;> cases tv <;> cases name <;> cases k <;> cases error <;> cases bounds <;>
      simp [List.find?_cons]
    all_goals grind
  have hm := main _ rfl
  generalize (⟨name, iv, tv, kind, error, bounds, ts, tags, persist, oc, os⟩ : SoftTelemetry F) = s at *
  have hnone : ((builderRules s).find? (·.1)).map (·.2) = none ↔ ∀ r ∈ builderRules s, r.1 = false := by
    simp only [Option.map_eq_none_iff, List.find?_eq_none]
    constructor
    · intro h r hr; simpa using h r hr
    · intro h r hr; simp [h r hr]
  cases hh : s.harden now with
  | error e0 =>
    rw [hh] at hm
    simp only at hm
    refine ⟨fun e => by rw [hm]; simp, ?_⟩
    constructor
    · rintro ⟨t, ht⟩; simp at ht
    · intro h; rw [hnone.2 h] at hm; simp at hm
  | ok t =>
    rw [hh] at hm
    simp only at hm
    refine ⟨fun e => by rw [hm]; simp, ?_⟩
    exact ⟨fun _ => hnone.1 hm, fun _ => ⟨t, rfl⟩⟩

/-- **C03** (result) a hardened point carries the builder's name, tags, timestamp, overrides (of summaries)
and persistence, with the documented defaults; its value is the thawed value, or a
fresh value of the builder's kind holding the initial value. -/
theorem C03_harden_result (now : Int) (s : SoftTelemetry F) (t : Telemetry F)
    (h : s.harden now = .ok t) :
    s.name = some t.name ∧ t.tags = s.tags ∧
    t.timestamp = s.timestamp.getD now ∧ t.persist = s.persist.getD false ∧
    (t.overrideCount, t.overrideSampleSum) =
      (if s.kind.getD .set = .summarize then (s.overrideCount, s.overrideSampleSum) else (none, none)) ∧
    (∀ v, s.thawedValue = some v → t.value = v) ∧
    (∀ x, s.initialValue = some x → t.kind = s.kind.getD .set ∧
      (t.kind = .set → t.set = some x) ∧ (t.kind = .sum → t.sum = some x) ∧
      (t.kind = .summarize →
        t.value = .quantiles (F64.ckmsInsert (F64.ckmsNew (s.error.getD (F64.div (F64.ofNat 1) (F64.ofNat 1000)))) x) x) ∧
      (t.kind = .histogram → ∃ h0, F64.histNew (s.bounds.getD
          [F64.ofNat 1, F64.ofNat 10, F64.ofNat 100, F64.ofNat 1000]) = some h0 ∧
        t.value = .histogram (F64.histInsert h0 x))) := by
  obtain ⟨name, iv, tv, kind, error, bounds, ts, tags, persist, oc, os⟩ := s
  generalize hk : kind.getD .set = k
  simp only [SoftTelemetry.harden, hk] at h
  cases iv <;> cases tv <;> cases name <;> cases k <;> cases error <;> cases bounds <;>
    simp [SoftTelemetry.build] at h
  all_goals first
    | (subst h; simp [Telemetry.kind, Value.kind, Telemetry.set, Telemetry.sum]; done)
    | (obtain ⟨_, h⟩ := h; subst h; simp [Telemetry.kind, Value.kind, Telemetry.set, Telemetry.sum]; done)
    | (split at h
       · simp at h
       · next hh =>
         simp only [Except.ok.injEq] at h
         subst h
         simp_all [Telemetry.kind, Value.kind])

/-- Non-vacuity of C03: a summary with an error bound below 1 hardens; one with
both values fails on the first rule. -/
example : (∃ t : Telemetry Int, (SoftTelemetry.harden 7
      ({ name := some ['a'], initialValue := some 3, kind := some .summarize, error := some 0 } :
        SoftTelemetry Int)) = .ok t
      ∧ t.timestamp = 7 ∧ t.value = .quantiles ([3] : List Int) 3) ∧
    (SoftTelemetry.harden 7 ({ initialValue := some 3, thawedValue := some (.set 1) } : SoftTelemetry Int))
      = .error .cannotHaveTwoValues := by
  exact ⟨⟨_, rfl, rfl, rfl⟩, rfl⟩

/-! ## C04 -/

/-- **C04** thawing and hardening again is the identity up to the overrides. -/
theorem C04_thaw_harden (now : Int) (t : Telemetry F) :
    t.thaw.harden now = .ok { t with overrideCount := none, overrideSampleSum := none } := by
  obtain ⟨name, value, persist, tags, ts, oc, os⟩ := t
  cases value <;> rfl

/-- The statement of C04 is about every point; here one with tags, persistence and
an override. -/
example : (Telemetry.thaw ⟨['a'], .sum 4, true, some [(['k'], ['v'])], 9, some 2, none⟩).harden 100
    = .ok (⟨['a'], .sum 4, true, some [(['k'], ['v'])], 9, none, none⟩ : Telemetry Int) := rfl

/-! ## C05 -/

/-- The number carried by a scalar value. -/
def scalarOf : Value F → Option F
  | .set x | .sum x => some x
  | _ => none

/-- **C05** adding `b` into `a`. -/
theorem C05_add_rule [LawfulSketch F] (a b : Telemetry F) :
    let r := a.addAssign b
    r.kind = b.kind ∧ r.name = a.name ∧ r.tags = a.tags ∧ r.timestamp = a.timestamp ∧
    -- SUM results add the numbers
    (∀ x y, scalarOf a.value = some x → b.value = .sum y → r.value = .sum (F64.add x y)) ∧
    -- a summary or histogram added into a counter contributes its sample sum
    (∀ c s y, a.value = .quantiles c s → b.value = .sum y → r.value = .sum (F64.add s y)) ∧
    (∀ h s y, a.value = .histogram h → F64.histSum h = some s → b.value = .sum y →
      r.value = .sum (F64.add s y)) ∧
    -- SET results are the right-hand number
    (∀ y, b.value = .set y → r.value = .set y) ∧
    -- like kinds of sketches add their sample counts
    (a.kind = b.kind → (a.kind = .histogram ∨ a.kind = .summarize) →
      r.value.count = a.value.count + b.value.count) ∧
    -- summaries also add their sample sums
    (∀ c s c' s', a.value = .quantiles c s → b.value = .quantiles c' s' →
      r.value = .quantiles (F64.ckmsMerge c c') (F64.add s s')) ∧
    -- a scalar added into a sketch kind is one more sample of it
    (∀ x, scalarOf a.value = some x → (b.kind = .histogram ∨ b.kind = .summarize) →
      r.value.count = b.value.count + 1) := by
  obtain ⟨_, av, _, _, _, _, _⟩ := a
  obtain ⟨_, bv, _, _, _, _, _⟩ := b
  cases av <;> cases bv <;>
    simp [Telemetry.addAssign, Telemetry.kind, Value.kind, Value.add, Value.count, scalarOf,
      LawfulSketch.hist_insert, LawfulSketch.hist_merge, LawfulSketch.ckms_insert,
      LawfulSketch.ckms_merge]
  all_goals grind

/-- Non-vacuity of C05: two summaries, and a counter added into a histogram. -/
example :
    let q : Telemetry Int := ⟨['a'], .quantiles ([1, 2] : List Int) 3, false, none, 0, none, none⟩
    let c : Telemetry Int := ⟨['a'], .sum 5, false, none, 0, none, none⟩
    let h : Telemetry Int := ⟨['a'], .histogram (⟨[10], [4]⟩ : IHist), false, none, 0, none, none⟩
    q.kind = q.kind ∧ (q.addAssign q).value.count = 4 ∧ (c.addAssign h).value.count = 2 ∧
    (h.addAssign c).value = .sum 9 := by decide

/-- C05 boundary: adding a summary into a histogram keeps nothing of the
histogram's samples (src/metric/telemetry.rs:122), so counts are *not* additive
across unlike sketch kinds. -/
theorem C05_unlike_sketches_not_additive :
    ¬ ∀ a b : Telemetry Int, (a.addAssign b).value.count = a.value.count + b.value.count := by
  intro h
  have := h ⟨[], .histogram (⟨[10], [4]⟩ : IHist), false, none, 0, none, none⟩
    ⟨[], .quantiles ([1] : List Int) 1, false, none, 0, none, none⟩
  revert this; decide

/-! ## C06 -/

/-- The full statement of C06. -/
def C06Statement (F : Type) [F64 F] : Prop :=
  ∀ a b : Telemetry F, (a.persist = true ∨ b.persist = true) → (a.addAssign b).persist = true

/-- **C06 is false of the code**: a persistent point with a non-persistent point
added into it is no longer persistent (src/metric/telemetry.rs:229). -/
theorem C06_add_preserves_persistence_false : ¬ C06Statement Int := by
  intro h
  have := h ⟨['a'], .set 1, true, none, 0, none, none⟩ ⟨['a'], .sum 1, false, none, 0, none, none⟩
    (.inl rfl)
  revert this; decide

/-- What does hold: the result is persistent exactly when the right-hand side is. -/
theorem C06_add_persistence_partial (a b : Telemetry F) :
    (a.addAssign b).persist = true ↔ b.persist = true := Iff.rfl

example : ((⟨['a'], .set 1, false, none, 0, none, none⟩ : Telemetry Int).addAssign
    ⟨['a'], .sum 1, true, none, 0, none, none⟩).persist = true := by decide

/-! ## C07 -/

/-- The full statement of C07 (transitivity of "not after", and equality only of
points with the same name, tags and bin). -/
def C07Statement (F : Type) [F64 F] : Prop :=
  ∀ w : Int, 0 < w →
    (∀ a : Telemetry F, a.within w a = .eq) ∧
    (∀ a b : Telemetry F, (a.within w b).swap = b.within w a) ∧
    (∀ a b c : Telemetry F, a.within w b ≠ .gt → b.within w c ≠ .gt → a.within w c ≠ .gt) ∧
    (∀ a b : Telemetry F, a.within w b = .eq ↔
      (a.name = b.name ∧ a.tags = b.tags ∧ a.timestamp.tdiv w = b.timestamp.tdiv w))

/-- **C07 is false of the code**: a point without tags compares equal to points of
the same name with any tags (src/metric/mod.rs:36-39), and comparison through such
a point is not transitive. -/
theorem C07_within_order_false : ¬ C07Statement Int := by
  intro h
  have h := (h 1 (by decide)).2.2.1
    ⟨['a'], .set 1, true, some [(['z'], [])], 0, none, none⟩
    ⟨['a'], .set 1, true, none, 0, none, none⟩
    ⟨['a'], .set 1, true, some [(['b'], [])], 0, none, none⟩ (by decide) (by decide)
  revert h; decide

/-- **C07, proved part**: comparison is reflexive and antisymmetric for all points,
and on points that all carry a tag map it is transitive, total, and equal exactly
for equal name, tags (in iteration order) and time bin.  Missing: points without a
tag map compared with points that have one. -/
theorem C07_within_order_partial (w : Int) :
    (∀ a : Telemetry F, a.within w a = .eq) ∧
    (∀ a b : Telemetry F, (a.within w b).swap = b.within w a) ∧
    (∀ a b c : Telemetry F, a.tags.isSome → b.tags.isSome → c.tags.isSome →
      a.within w b ≠ .gt → b.within w c ≠ .gt → a.within w c ≠ .gt) ∧
    (∀ a b c : Telemetry F, a.tags.isSome → b.tags.isSome → c.tags.isSome →
      a.within w b = .lt → b.within w c = .lt → a.within w c = .lt) ∧
    (∀ a b : Telemetry F, a.tags.isSome → b.tags.isSome → (a.within w b = .eq ↔
      (a.name = b.name ∧ a.tags = b.tags ∧ a.timestamp.tdiv w = b.timestamp.tdiv w))) := by
  have heq : ∀ a b : Telemetry F, a.tags.isSome → b.tags.isSome → (a.within w b = .eq ↔
      (a.name = b.name ∧ a.tags = b.tags ∧ a.timestamp.tdiv w = b.timestamp.tdiv w)) := by
    intro a b ha hb
    rw [within_eq_then, Ordering.then_eq_eq, Ordering.then_eq_eq, cmpStr_eq, compare_int_eq]
    obtain ⟨x, hx⟩ := Option.isSome_iff_exists.1 ha
    obtain ⟨y, hy⟩ := Option.isSome_iff_exists.1 hb
    rw [hx, hy, cmpTagmap_eq_some, Option.some.injEq]
    rfl
  have hlt : ∀ a b c : Telemetry F, a.tags.isSome → b.tags.isSome → c.tags.isSome →
      a.within w b = .lt → b.within w c = .lt → a.within w c = .lt := by
    intro a b c ha hb hc
    obtain ⟨x, hx⟩ := Option.isSome_iff_exists.1 ha
    obtain ⟨y, hy⟩ := Option.isSome_iff_exists.1 hb
    obtain ⟨z, hz⟩ := Option.isSome_iff_exists.1 hc
    rw [within_eq_then, within_eq_then, within_eq_then, hx, hy, hz]
    refine then_lt_trans cmpStr_lt_trans ?_ ?_ (then_lt_trans cmpTagmap_some_lt_trans ?_ ?_ ?_)
    · intro h; rw [cmpStr_eq.1 h]
    · intro h; rw [cmpStr_eq.1 h]
    · intro h; rw [cmpTagmap_eq_some.1 h]
    · intro h; rw [cmpTagmap_eq_some.1 h]
    · simp only [compare_int_lt]; omega
  refine ⟨fun a => within_refl a w, fun a b => within_swap a b w, ?_, hlt, heq⟩
  have hcong : ∀ a b c : Telemetry F, a.tags.isSome → b.tags.isSome → a.within w b = .eq →
      a.within w c = b.within w c := by
    intro a b c ha hb h
    obtain ⟨h1, h2, h3⟩ := (heq a b ha hb).1 h
    rw [within_eq_then, within_eq_then, h1, h2]
    unfold Telemetry.bin
    rw [h3]
  intro a b c ha hb hc h1 h2
  cases h1' : a.within w b with
  | gt => exact absurd h1' h1
  | eq => rw [hcong a b c ha hb h1']; exact h2
  | lt =>
    cases h2' : b.within w c with
    | gt => exact absurd h2' h2
    | lt => rw [hlt a b c ha hb hc h1' h2']; simp
    | eq =>
      have h3 : c.within w b = .eq := by rw [← within_swap, h2']; rfl
      rw [← within_swap, hcong c b a hc hb h3, within_swap, h1']
      simp

/-- Non-vacuity of C07: three tagged points in increasing order. -/
example : (⟨['a'], .set 1, true, some [(['b'], [])], 0, none, none⟩ : Telemetry Int).within 10
      ⟨['a'], .set 1, true, some [(['z'], [])], 0, none, none⟩ = .lt ∧
    (⟨['a'], .set 1, true, some [(['z'], [])], 0, none, none⟩ : Telemetry Int).within 10
      ⟨['a'], .set 1, true, some [(['z'], [])], 10, none, none⟩ = .lt := by decide

end
end Verif
