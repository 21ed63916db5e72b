import Verif.Spec.Statsd
/-! # Lemmas about the statsd parser -/
namespace Verif.Statsd

theorem cut_append (c : Char) (a b : Str) (h : c ∉ a) : cut c (a ++ c :: b) = some (a, b) := by
  induction a with
  | nil => simp [cut]
  | cons x a ih =>
    simp only [List.mem_cons, not_or] at h
    simp only [List.cons_append, cut, if_neg (fun e => h.1 (Eq.symm e)), ih h.2, Option.map_some]

theorem cut_none (c : Char) (s : Str) (h : c ∉ s) : cut c s = none := by
  induction s with
  | nil => rfl
  | cons x s ih =>
    simp only [List.mem_cons, not_or] at h
    simp only [cut, if_neg (fun e => h.1 (Eq.symm e)), ih h.2, Option.map_none]

theorem cut_some {c : Char} {s a b : Str} (h : cut c s = some (a, b)) : s = a ++ c :: b ∧ c ∉ a := by
  induction s generalizing a with
  | nil => simp [cut] at h
  | cons x s ih =>
    simp only [cut] at h
    split at h
    · next hx =>
      simp only [Option.some.injEq, Prod.mk.injEq] at h
      obtain ⟨rfl, rfl⟩ := h
      simp [hx]
    · next hx =>
      cases hc : cut c s with
      | none => simp [hc] at h
      | some p =>
        simp only [hc, Option.map_some, Option.some.injEq, Prod.mk.injEq] at h
        obtain ⟨rfl, rfl⟩ := h
        obtain ⟨e1, e2⟩ := ih (a := p.1) (by rw [hc])
        constructor
        · simp [← e1]
        · simp only [List.mem_cons, not_or]
          exact ⟨fun e => hx (Eq.symm e), e2⟩

theorem splitTerminator_line (l s : Str) (h : '\n' ∉ l) :
    splitTerminator (l ++ '\n' :: s) = l :: splitTerminator s := by
  induction l with
  | nil => simp [splitTerminator]
  | cons c l ih =>
    simp only [List.mem_cons, not_or] at h
    simp only [List.cons_append, splitTerminator, if_neg (fun e => h.1 (Eq.symm e)), ih h.2]

theorem splitTerminator_last (l : Str) (h : '\n' ∉ l) (hne : l ≠ []) : splitTerminator l = [l] := by
  induction l with
  | nil => exact absurd rfl hne
  | cons c l ih =>
    simp only [List.mem_cons, not_or] at h
    simp only [splitTerminator, if_neg (fun e => h.1 (Eq.symm e))]
    cases l with
    | nil => rfl
    | cons d l => rw [ih h.2 (by simp)]

/-- a line that survives `str::lines` as it is -/
def Clean (l : Str) : Prop := '\n' ∉ l ∧ l.getLast? ≠ some '\r'

theorem stripCr_clean (l : Str) (h : Clean l) : stripCr l = l := by
  simp only [stripCr, if_neg h.2]

theorem stripCr_cr (l : Str) : stripCr (l ++ ['\r']) = l := by
  simp [stripCr]

theorem lines_unlines (ls : List (Str × Bool)) (s : Str) (h : ∀ l ∈ ls, Clean l.1) :
    lines (unlines ls ++ s) = ls.map Prod.fst ++ lines s := by
  induction ls with
  | nil => simp [unlines, lines]
  | cons l ls ih =>
    have ih := ih (fun x hx => h x (by simp [hx]))
    have hl := h l (by simp)
    obtain ⟨l, crlf⟩ := l
    simp only at hl
    simp only [unlines, List.flatMap_cons, List.map_cons, List.cons_append] at ih ⊢
    cases crlf with
    | false =>
      simp only [Bool.false_eq_true, if_false, List.append_assoc, List.cons_append, List.nil_append]
      simp only [lines] at ih ⊢
      rw [splitTerminator_line l _ hl.1]
      simp only [List.map_cons, stripCr_clean l hl, ih]
    | true =>
      have : (l ++ if true = true then ['\r', '\n'] else ['\n']) ++
          (List.flatMap (fun l => l.1 ++ if l.2 = true then ['\r', '\n'] else ['\n']) ls) ++ s =
          (l ++ ['\r']) ++ '\n' :: ((List.flatMap (fun l => l.1 ++ if l.2 = true then ['\r', '\n'] else ['\n']) ls) ++ s) := by
        simp
      rw [this]
      simp only [lines] at ih ⊢
      rw [splitTerminator_line (l ++ ['\r']) _ (by simp [hl.1])]
      simp only [List.map_cons, stripCr_cr, ih]

theorem lines_last (l : Str) (h : Clean l) (hne : l ≠ []) : lines l = [l] := by
  simp [lines, splitTerminator_last l h.1 hne, stripCr_clean l h]

section
variable {F : Type} [F64 F]

/-- the type field of a reading -/
def Reading.tyText (r : Reading) : Str :=
  r.ty.text ++ match r.rate with
    | none => []
    | some (bar, rate) => (if bar then ['|'] else []) ++ ['@'] ++ rate

theorem Reading.text_eq (r : Reading) : r.text = r.name ++ ':' :: (r.value ++ '|' :: r.tyText) := by
  obtain ⟨n, v, ty, rate⟩ := r
  cases rate <;> simp [Reading.text, Reading.tyText]

theorem tyText_ne (r : Reading) : r.tyText ≠ [] := by
  obtain ⟨n, v, ty, rate⟩ := r
  cases ty <;> simp [Reading.tyText, Ty.text]

/-- the point under construction when the type field is looked at -/
def base (now : Int) (name : Str) (val : F) : SoftTelemetry F :=
  { ((Telemetry.default now : Telemetry F).thaw.setValue val) with
      name := some name, timestamp := some now }

/-- what the type field does to it -/
def typed (cfg : Config F) (now : Int) (r : Reading) (val : F) (signed : Bool) : SoftTelemetry F :=
  match r.ty with
  | .counter => { base now r.name val with kind := some .sum, persist := some false }
  | .gauge => { base now r.name val with persist := some true, kind := some (if signed then .sum else .set) }
  | .timer | .histogram => timer cfg r.name (base now r.name val)

theorem timer_setValue (cfg : Config F) (now : Int) (name : Str) (val x : F) :
    (timer cfg name (base now name val)).setValue x = timer cfg name (base now name x) := by
  simp only [timer]
  split <;> rfl

theorem typed_setValue (cfg : Config F) (now : Int) (r : Reading) (val x : F) (signed : Bool) :
    (typed cfg now r val signed).setValue x = typed cfg now r x signed := by
  simp only [typed]
  split
  · rfl
  · rfl
  · exact timer_setValue cfg now r.name val x
  · exact timer_setValue cfg now r.name val x

theorem applyType_text (cfg : Config F) (now : Int) (r : Reading) (val : F) (signed : Bool)
    (hv : cfg.parseF r.value = some val)
    (hr : ∀ bar rate, r.rate = some (bar, rate) → (cfg.parseF rate).isSome) :
    ∃ x, r.number cfg = some x ∧
      applyType cfg r.name val signed (base now r.name val) r.tyText =
        some (typed cfg now r x signed) := by
  obtain ⟨name, value, ty, rate⟩ := r
  simp only at hv hr
  cases rate with
  | none =>
    refine ⟨val, by simp [Reading.number, hv], ?_⟩
    cases ty <;> simp [Reading.tyText, Ty.text, applyType, cut, typed]
  | some br =>
    obtain ⟨bar, rate⟩ := br
    have hs := hr bar rate rfl
    obtain ⟨s, hs⟩ := Option.isSome_iff_exists.1 hs
    refine ⟨_, by simp only [Reading.number, hv, Option.bind_some, hs, Option.map_some]; rfl, ?_⟩
    have h1 := typed_setValue cfg now ⟨name, value, ty, some (bar, rate)⟩ val
      (F64.mul val (F64.div (F64.ofNat 1) s)) signed
    rw [← h1]
    cases ty <;> cases bar <;>
      simp [Reading.tyText, Ty.text, applyType, cut, typed, hs]

theorem applyType_some (cfg : Config F) (now : Int) (name value : Str) (val : F) (signed : Bool)
    (ty : Str) (m : SoftTelemetry F)
    (h : applyType cfg name val signed (base now name val) ty = some m) :
    ∃ t rate, ty = (Reading.mk name value t rate).tyText ∧
      (∀ bar s, rate = some (bar, s) → (cfg.parseF s).isSome) := by
  simp only [applyType] at h
  cases hc : cut '@' ty with
  | some p =>
    obtain ⟨t, s⟩ := p
    obtain ⟨e1, e2⟩ := cut_some hc
    have hsome : (cfg.parseF s).isSome := by
      cases hp : cfg.parseF s with
      | some x => rfl
      | none => simp [hc, hp] at h
    simp only [hc] at h
    have fin : ∀ (ty' : Ty) (bar : Bool), t = ty'.text ++ (if bar then ['|'] else []) →
        ∃ t rate, ty = (Reading.mk name value t rate).tyText ∧
          (∀ bar s, rate = some (bar, s) → (cfg.parseF s).isSome) := by
      intro ty' bar ht
      refine ⟨ty', some (bar, s), ?_, ?_⟩
      · rw [e1, ht]; simp [Reading.tyText]
      · intro b s' hb
        simp only [Option.some.injEq, Prod.mk.injEq] at hb
        rw [← hb.2]; exact hsome
    split at h
    · next h1 =>
      rcases h1 with h1 | h1
      · exact fin .gauge true (by simp [h1, Ty.text])
      · exact fin .gauge false (by simp [h1, Ty.text])
    · split at h
      · next h1 =>
        rcases h1 with h1 | h1
        · exact fin .counter true (by simp [h1, Ty.text])
        · exact fin .counter false (by simp [h1, Ty.text])
      · split at h
        · next h1 =>
          rcases h1 with h1 | h1 | h1 | h1
          · exact fin .timer false (by simp [h1, Ty.text])
          · exact fin .timer true (by simp [h1, Ty.text])
          · exact fin .histogram false (by simp [h1, Ty.text])
          · exact fin .histogram true (by simp [h1, Ty.text])
        · simp at h
  | none =>
    simp only [hc] at h
    have fin : ∀ (ty' : Ty), ty = ty'.text →
        ∃ t rate, ty = (Reading.mk name value t rate).tyText ∧
          (∀ bar s, rate = some (bar, s) → (cfg.parseF s).isSome) := by
      intro ty' ht
      exact ⟨ty', none, by simp [Reading.tyText, ht], by simp⟩
    split at h
    · next h1 => exact fin .gauge h1
    · split at h
      · next h1 =>
        rcases h1 with h1 | h1
        · exact fin .timer h1
        · exact fin .histogram h1
      · split at h
        · next h1 => exact fin .counter h1
        · simp at h

/-- hardening the point under construction gives the point of the specification -/
theorem harden_typed (cfg : Config F) (now : Int) (r : Reading) (x : F) (signed : Bool)
    (hsg : signed = decide (r.value.head? = some '+' ∨ r.value.head? = some '-')) :
    (∀ t, (typed cfg now r x signed).harden now = .ok t →
      (r.pointValue cfg x).map (fun value =>
        ({ name := r.name, value := value, persist := decide (r.ty = .gauge), tags := none, timestamp := now, overrideCount := none, overrideSampleSum := none } : Telemetry F)) = some t) ∧
    (cfg.Usable → ∃ t, (typed cfg now r x signed).harden now = .ok t) := by
  obtain ⟨name, value, ty, rate⟩ := r
  simp only at hsg
  have hgauge : ∀ b : Bool, b = signed → ({ base now name x with persist := some true, kind := some (if b then Kind.sum else .set) } : SoftTelemetry F).harden now =
      .ok { name := name, value := if b then .sum x else .set x, persist := true, tags := none, timestamp := now, overrideCount := none, overrideSampleSum := none } := by
    intro b _
    cases b <;> simp [SoftTelemetry.harden, base, Telemetry.default, Telemetry.thaw, SoftTelemetry.setValue, SoftTelemetry.build]
  have htimer : ∀ tt : Ty, (tt = .timer ∨ tt = .histogram) →
      (∀ t, (timer cfg name (base now name x)).harden now = .ok t →
        ((Reading.mk name value tt rate).pointValue cfg x).map (fun value =>
          ({ name := name, value := value, persist := false, tags := none, timestamp := now, overrideCount := none, overrideSampleSum := none } : Telemetry F)) = some t) ∧
      (cfg.Usable → ∃ t, (timer cfg name (base now name x)).harden now = .ok t) := by
    intro tt htt
    have hpv : (Reading.mk name value tt rate).pointValue cfg x =
        match cfg.histogramMasks.find? fun mb => mb.1 name with
        | some (_, bounds) =>
          (F64.histNew (F64.sort bounds)).map fun h => .histogram (F64.histInsert h x)
        | none => some (.quantiles (F64.ckmsInsert (F64.ckmsNew cfg.summarizeErrorBound) x) x) := by
      rcases htt with rfl | rfl <;> rfl
    rw [hpv]
    cases hf : cfg.histogramMasks.find? fun mb => mb.1 name with
    | none =>
      simp only [timer, hf]
      constructor
      · intro t h
        simp only [SoftTelemetry.harden, base, Telemetry.default, Telemetry.thaw, SoftTelemetry.setValue] at h
        by_cases hge : F64.ge cfg.summarizeErrorBound (F64.ofNat 1)
        · simp [hge] at h
        · simp only [hge] at h
          simpa [SoftTelemetry.build] using h
      · intro hu
        simp [SoftTelemetry.harden, base, Telemetry.default, Telemetry.thaw, SoftTelemetry.setValue,
          hu.1]
    | some mb =>
      obtain ⟨mask, bounds⟩ := mb
      simp only [timer, hf]
      constructor
      · intro t h
        simp only [SoftTelemetry.harden, base, Telemetry.default, Telemetry.thaw, SoftTelemetry.setValue,
          SoftTelemetry.setBounds] at h
        cases hn : F64.histNew (F64.sort bounds) with
        | none => simp [hn] at h
        | some hist => simpa [hn, SoftTelemetry.build] using h
      · intro hu
        have := hu.2 (mask, bounds) (List.mem_of_find?_eq_some hf)
        obtain ⟨hist, hn⟩ := Option.isSome_iff_exists.1 this
        simp only at hn
        simp [SoftTelemetry.harden, base, Telemetry.default, Telemetry.thaw, SoftTelemetry.setValue,
          SoftTelemetry.setBounds, hn]
  cases ty with
  | counter =>
    have : (typed cfg now ⟨name, value, .counter, rate⟩ x signed).harden now =
        .ok { name := name, value := .sum x, persist := false, tags := none, timestamp := now, overrideCount := none, overrideSampleSum := none } := by
      simp [typed, SoftTelemetry.harden, base, Telemetry.default, Telemetry.thaw, SoftTelemetry.setValue, SoftTelemetry.build]
    rw [this]
    constructor
    · intro t h
      simpa [Reading.pointValue] using h
    · intro _; exact ⟨_, rfl⟩
  | gauge =>
    have : (typed cfg now ⟨name, value, .gauge, rate⟩ x signed).harden now = _ := hgauge signed rfl
    rw [this]
    constructor
    · intro t h
      simp only [Except.ok.injEq] at h
      rw [← h, hsg]
      by_cases hs : value.head? = some '+' ∨ value.head? = some '-'
      · simp [Reading.pointValue, hs]
      · simp [Reading.pointValue, hs]
    · intro _; exact ⟨_, rfl⟩
  | timer => exact htimer .timer (Or.inl rfl)
  | histogram => exact htimer .histogram (Or.inr rfl)

/-- a rendered line, up to hardening -/
theorem parseLine_text (cfg : Config F) (now : Int) (r : Reading) (hv : r.Valid cfg)
    (ha : cfg.AsciiNumbers) :
    ∃ x, r.number cfg = some x ∧ parseLine cfg now r.text =
      match (typed cfg now r x (decide (r.value.head? = some '+' ∨ r.value.head? = some '-'))).harden now with
      | .ok t => .point t
      | .error _ => .panic := by
  obtain ⟨h1, h2, h3, h4, h5⟩ := hv
  obtain ⟨c, tl, hval, hc⟩ := ha _ h4
  obtain ⟨val, hp⟩ := Option.isSome_iff_exists.1 h4
  obtain ⟨x, e1, e2⟩ := applyType_text cfg now r val (decide (c = '+' ∨ c = '-')) hp h5
  have hh : r.value.head? = some c := by simp [hval]
  refine ⟨x, e1, ?_⟩
  rw [Reading.text_eq, parseLine, cut_append _ _ _ h2]
  simp only [if_neg h1]
  have hrest : r.value ++ '|' :: r.tyText = c :: (tl ++ '|' :: r.tyText) := by simp [hval]
  rw [hrest]
  simp only
  rw [← hrest, cut_append _ _ _ h3]
  simp only [hp, hc, ne_eq, not_true, if_false, if_neg (tyText_ne r)]
  simp only [base] at e2
  rw [e2]
  simp only [hh, Option.some.injEq]
  rfl

theorem parseLine_point (cfg : Config F) (now : Int) (src : Str)
    (ha : cfg.AsciiNumbers) (h : parseLine cfg now src ≠ .bad) :
    ∃ r : Reading, r.Valid cfg ∧ src = r.text := by
  simp only [parseLine] at h
  cases h1 : cut ':' src with
  | none => simp [h1] at h
  | some p =>
    obtain ⟨name, rest⟩ := p
    simp only [h1] at h
    split at h
    · simp at h
    · next hne =>
      cases rest with
      | nil => simp at h
      | cons c rest =>
        simp only at h
        cases h2 : cut '|' (c :: rest) with
        | none => simp [h2] at h
        | some p =>
          obtain ⟨value, ty⟩ := p
          simp only [h2] at h
          cases h3 : cfg.parseF value with
          | none => simp [h3] at h
          | some val =>
            simp only [h3] at h
            obtain ⟨f1, f2⟩ := cut_some h1
            obtain ⟨g1, g2⟩ := cut_some h2
            obtain ⟨c', tl, hval, hc⟩ := ha value (by simp [h3])
            have hcc : c = c' := by
              rw [hval] at g1
              simp only [List.cons_append, List.cons.injEq] at g1
              exact g1.1
            subst hcc
            simp only [hc, ne_eq, not_true, if_false] at h
            split at h
            · simp at h
            · cases hap : applyType cfg name val (decide (c = '+' ∨ c = '-')) (base now name val) ty with
              | none =>
                simp only [base] at hap
                rw [hap] at h
                simp at h
              | some m =>
                obtain ⟨t, rate, i1, i2⟩ := applyType_some cfg now name value val _ ty m hap
                refine ⟨⟨name, value, t, rate⟩, ⟨hne, f2, g2, by simp [h3], i2⟩, ?_⟩
                rw [Reading.text_eq, f1, g1, i1]

end
end Verif.Statsd
