import Verif.Spec.Wavefront
/-!
# Padding: the iterator equals a direct description
-/
namespace Verif.Wavefront
section
variable {F : Type} [F64 F]

/-- The zero points between `x` and what follows it. -/
def gapPads (ext : Ext F) (span : Int) (x : Telemetry F) : List (Pad F) → List (Pad F)
  | [] => []
  | y :: _ =>
    if y.hash ext = telemHash ext x then
      if (((x.timestamp - y.timestamp).natAbs : Int).tdiv span = 0 ∨
          ((x.timestamp - y.timestamp).natAbs : Int).tdiv span = 1) then []
      else [.zero x (x.timestamp + 1), y.zeroAt (y.timestamp - 1)]
    else []

/-- Whether what follows is of the series with hash `h`, or nothing. -/
def linked (ext : Ext F) (h : Nat) : List (Pad F) → Bool
  | [] => true
  | y :: _ => decide (y.hash ext = h)

/-- The padded sequence, by recursion over the points. -/
def paddedS (ext : Ext F) (span : Int) (seen : LastSeen) (pc : PadControl) :
    List Nat → List (Pad F) → List (Pad F)
  | _, [] => []
  | fp, .zero t ts :: rest => .zero t ts :: paddedS ext span seen pc fp rest
  | fp, .telem x :: rest =>
    if (Pad.telem x).skipPad pc = true ∨ linked ext (telemHash ext x) rest = false then
      .telem x :: paddedS ext span seen pc fp rest
    else if telemHash ext x ∈ fp then
      .telem x :: gapPads ext span x rest ++ paddedS ext span seen pc fp rest
    else match seen (telemHash ext x) with
      | none => .telem x :: gapPads ext span x rest ++ paddedS ext span seen pc fp rest
      | some l =>
        if x.timestamp > l then
          (if (x.timestamp - l).tdiv span > 1 then [.zero x (l + 1), .zero x (x.timestamp - 1)]
            else []) ++ .telem x :: gapPads ext span x rest ++
            paddedS ext span seen pc (telemHash ext x :: fp) rest
        else .telem x :: paddedS ext span seen pc fp rest

/-- Upper bound on the number of pads still to come. -/
def weight (ext : Ext F) (fp : List Nat) : Pad F → Nat
  | .zero _ _ => 1
  | .telem t => if telemHash ext t ∈ fp then 3 else 5

def potential (ext : Ext F) (fp : List Nat) : List (Pad F) → Nat
  | [] => 0
  | x :: xs => weight ext fp x + potential ext fp xs

theorem weight_pos (ext : Ext F) (fp : List Nat) (x : Pad F) : 0 < weight ext fp x := by
  cases x <;> simp only [weight] <;> (try split) <;> omega

theorem potential_mono (ext : Ext F) (fp : List Nat) (h : Nat) (xs : List (Pad F)) :
    potential ext (h :: fp) xs ≤ potential ext fp xs := by
  induction xs with
  | nil => simp [potential]
  | cons x xs ih =>
    simp only [potential]
    have : weight ext (h :: fp) x ≤ weight ext fp x := by
      cases x with
      | zero => simp [weight]
      | telem t =>
        simp only [weight]
        by_cases h1 : telemHash ext t ∈ fp
        · simp [h1]
        · by_cases h2 : telemHash ext t = h <;> simp [h1, h2]
          split <;> omega
    omega

/-- What the iterator still has in front of it. -/
def Padding.view (p : Padding F) : List (Pad F) := p.emitQ ++ p.orig.map .telem

theorem pull_view (p : Padding F) :
    (p.pull.1 = none ∧ p.view = [] ∧ p.pull.2 = p) ∨
    (∃ x, p.pull.1 = some x ∧ p.view = x :: p.pull.2.view ∧ p.pull.2.flushPadded = p.flushPadded) := by
  rcases p with ⟨orig, q, fp⟩
  cases q with
  | cons x q => right; exact ⟨x, rfl, rfl, rfl⟩
  | nil =>
    cases orig with
    | cons t ts => right; exact ⟨_, rfl, rfl, rfl⟩
    | nil => left; exact ⟨rfl, rfl, rfl⟩

theorem take_eq_paddedS (ext : Ext F) (span : Int) (seen : LastSeen) (pc : PadControl) :
    ∀ (n : Nat) (p : Padding F), potential ext p.flushPadded p.view < n →
      Padding.take ext span seen pc n p = paddedS ext span seen pc p.flushPadded p.view := by
  intro n
  induction n with
  | zero => intro p h; omega
  | succ n ih =>
    intro p hp
    simp only [Padding.take, Padding.next]
    rcases pull_view p with ⟨h1, h2, _⟩ | ⟨x, h1, h2, h3⟩
    · rcases hq : p.pull with ⟨a, p'⟩
      rw [hq] at h1; simp only at h1; subst h1
      simp [h2, paddedS]
    · rcases hq : p.pull with ⟨a, p1⟩
      rw [hq] at h1 h2 h3; simp only at h1 h2 h3; subst h1
      simp only
      rw [h2, ← h3] at hp ⊢
      simp only [potential] at hp
      have hx0 := weight_pos ext p1.flushPadded x
      rcases pull_view p1 with ⟨k1, k2, k3⟩ | ⟨y, k1, k2, k3⟩
      · rcases hq1 : p1.pull with ⟨a, p2⟩
        rw [hq1] at k1 k3; simp only at k1 k3; subst k1; subst k3
        simp only [Padding.nextOne]
        have hv0 : p2.orig = [] ∧ p2.emitQ = [] := by
          simp only [Padding.view, List.append_eq_nil_iff, List.map_eq_nil_iff] at k2
          exact ⟨k2.2, k2.1⟩
        have hrest : ∀ fp, paddedS ext span seen pc fp p2.view = [] := by
          intro fp; rw [k2]; rfl
        have hcont : Padding.take ext span seen pc n p2 = [] := by
          rw [ih p2 (by omega), hrest]
        rw [k2]
        cases x with
        | zero t ts =>
          simp only [Pad.skipPad, if_true, paddedS]; rw [hcont]
        | telem t =>
          simp only [paddedS, linked, gapPads]
          by_cases hs : (Pad.telem t).skipPad pc = true
          · simp only [hs, if_true, true_or, hcont]
          · have hh : Pad.hash ext (.telem t) = telemHash ext t := rfl
            simp only [hs, hh, if_false, false_or, Bool.true_eq_false, Bool.false_eq_true,
              List.append_nil]
            by_cases hm : telemHash ext t ∈ p2.flushPadded
            · simp only [hm, if_true, hcont]
            · simp only [hm, if_false]
              cases hl : seen (telemHash ext t) with
              | none => simp only [hcont]
              | some l =>
                simp only [Pad.timestamp]
                by_cases hg : t.timestamp > l
                · simp only [hg, if_true]
                  by_cases hd : (t.timestamp - l).tdiv span > 1
                  · simp only [hd, if_true, Pad.zeroAt]
                    rw [ih]
                    · simp only [Padding.view, hv0.1, hv0.2, List.map_nil, List.append_nil, paddedS,
                        linked, List.mem_cons, true_or, if_true, gapPads, hs, Bool.true_eq_false,
                        Bool.false_eq_true, or_false, if_false]
                      rfl
                    · simp only [weight, hm, if_false] at hp
                      simp only [Padding.view, hv0.1, hv0.2, List.map_nil, List.append_nil,
                        potential, weight, List.mem_cons, true_or, if_true]
                      omega
                  · simp only [hd, if_false, List.nil_append]
                    rw [ih]
                    · simp [Padding.view, hv0.1, hv0.2, paddedS]
                    · simp only [Padding.view, hv0.1, hv0.2, List.map_nil, List.append_nil,
                        potential]
                      omega
                · simp only [hg, if_false, hcont]
      · rcases hq1 : p1.pull with ⟨a, p2⟩
        rw [hq1] at k1 k2 k3; simp only at k1 k2 k3; subst k1
        simp only [Padding.nextTwo]
        rw [← k3] at hp hx0 ⊢
        have hview : ∀ q fp, ({ p2 with emitQ := q ++ p2.emitQ, flushPadded := fp } : Padding F).view
            = q ++ p2.view := by intro q fp; simp [Padding.view]
        rw [k2] at hp ⊢
        have hcont : Padding.take ext span seen pc n { p2 with emitQ := y :: p2.emitQ }
            = paddedS ext span seen pc p2.flushPadded (y :: p2.view) := by
          have hv := hview [y] p2.flushPadded
          have := ih { p2 with emitQ := y :: p2.emitQ } (by
            have hv' : ({ p2 with emitQ := y :: p2.emitQ } : Padding F).view = y :: p2.view := hv
            rw [hv']; show potential ext p2.flushPadded _ < n
            omega)
          rw [this]
          have hv' : ({ p2 with emitQ := y :: p2.emitQ } : Padding F).view = y :: p2.view := hv
          rw [hv']
        cases x with
        | zero t ts =>
          simp only [Pad.skipPad, if_true, paddedS, ite_self]
          rw [hcont]
        | telem t =>
          have hh : Pad.hash ext (.telem t) = telemHash ext t := rfl
          simp only [paddedS, linked, gapPads, hh, Pad.timestamp, Pad.zeroAt]
          by_cases he : telemHash ext t = y.hash ext
          · have he' : y.hash ext = telemHash ext t := he.symm
            simp only [he', if_true, decide_true, Bool.true_eq_false, or_false]
            by_cases hs : (Pad.telem t).skipPad pc = true
            · simp only [hs, if_true, hcont]
            · simp only [hs, Bool.false_eq_true, if_false]
              -- the gap branch, for any set of padded hashes
              have hgap : ∀ fp, potential ext fp (y :: p2.view) + 3 ≤ n →
                  (match
                    (if ((t.timestamp - y.timestamp).natAbs : Int).tdiv span = 0 ∨
                        ((t.timestamp - y.timestamp).natAbs : Int).tdiv span = 1
                      then (Pad.telem t, { p2 with emitQ := y :: p2.emitQ, flushPadded := fp })
                      else (Pad.telem t, { p2 with
                        emitQ := .zero t (t.timestamp + 1) :: y.zeroAt (y.timestamp - 1) :: y :: p2.emitQ,
                        flushPadded := fp }) : Pad F × Padding F) with
                    | (o, p) => o :: Padding.take ext span seen pc n p) =
                  Pad.telem t :: (if ((t.timestamp - y.timestamp).natAbs : Int).tdiv span = 0 ∨
                        ((t.timestamp - y.timestamp).natAbs : Int).tdiv span = 1 then []
                      else [Pad.zero t (t.timestamp + 1), y.zeroAt (y.timestamp - 1)]) ++
                    paddedS ext span seen pc fp (y :: p2.view) := by
                intro fp hlt
                by_cases hd : ((t.timestamp - y.timestamp).natAbs : Int).tdiv span = 0 ∨
                        ((t.timestamp - y.timestamp).natAbs : Int).tdiv span = 1
                · simp only [hd, if_true]
                  have hv : ({ p2 with emitQ := y :: p2.emitQ, flushPadded := fp } : Padding F).view
                      = y :: p2.view := hview [y] fp
                  have := ih { p2 with emitQ := y :: p2.emitQ, flushPadded := fp } (by
                    rw [hv]; show potential ext fp _ < n; omega)
                  rw [this, hv]; rfl
                · simp only [hd, if_false]
                  have hv : ({ p2 with emitQ := .zero t (t.timestamp + 1) :: y.zeroAt (y.timestamp - 1) :: y :: p2.emitQ, flushPadded := fp } : Padding F).view
                      = .zero t (t.timestamp + 1) :: y.zeroAt (y.timestamp - 1) :: y :: p2.view :=
                    hview [.zero t (t.timestamp + 1), y.zeroAt (y.timestamp - 1), y] fp
                  have := ih { p2 with emitQ := .zero t (t.timestamp + 1) :: y.zeroAt (y.timestamp - 1) :: y :: p2.emitQ, flushPadded := fp } (by
                    rw [hv]; show potential ext fp _ < n
                    have hz : weight ext fp (y.zeroAt (y.timestamp - 1)) = 1 := by cases y <;> rfl
                    have hz0 : weight ext fp (Pad.zero t (t.timestamp + 1)) = 1 := rfl
                    simp only [potential, hz, hz0] at hlt ⊢
                    omega)
                  rw [this, hv]
                  have hz : ∃ u a, y.zeroAt (y.timestamp - 1) = .zero u a := by
                    cases y <;> exact ⟨_, _, rfl⟩
                  obtain ⟨u, a, hz⟩ := hz
                  rw [hz]; rfl
              have hw3 : 3 ≤ weight ext p2.flushPadded (.telem t) := by
                simp only [weight]; split <;> omega
              have hgap0 := hgap p2.flushPadded (by omega)
              by_cases hm : telemHash ext t ∈ p2.flushPadded
              · simp only [hm, if_true]
                exact hgap0
              · simp only [hm, if_false]
                cases hl : seen (telemHash ext t) with
                | none => exact hgap0
                | some l =>
                  simp only
                  by_cases hg : t.timestamp > l
                  · simp only [hg, if_true]
                    have hw5 : weight ext p2.flushPadded (.telem t) = 5 := by simp [weight, hm]
                    have hmono := potential_mono ext p2.flushPadded (telemHash ext t) (y :: p2.view)
                    by_cases hd : (t.timestamp - l).tdiv span > 1
                    · simp only [hd, if_true]
                      have hv : ({ p2 with emitQ := .zero t (t.timestamp - 1) :: .telem t :: y :: p2.emitQ, flushPadded := telemHash ext t :: p2.flushPadded } : Padding F).view
                          = .zero t (t.timestamp - 1) :: .telem t :: y :: p2.view :=
                        hview [.zero t (t.timestamp - 1), .telem t, y] _
                      have := ih { p2 with emitQ := .zero t (t.timestamp - 1) :: .telem t :: y :: p2.emitQ, flushPadded := telemHash ext t :: p2.flushPadded } (by
                        rw [hv]
                        show potential ext (telemHash ext t :: p2.flushPadded) _ < n
                        simp only [potential] at hmono hp ⊢
                        simp only [weight, List.mem_cons, true_or, if_true] at hmono hp ⊢
                        rw [if_neg hm] at hp
                        omega)
                      rw [this, hv]
                      simp only [paddedS, linked, he', decide_true, Bool.true_eq_false, or_false, hs,
                        Bool.false_eq_true, if_false, List.mem_cons, true_or, if_true, gapPads]
                      rfl
                    · simp only [hd, if_false, List.nil_append]
                      exact hgap (telemHash ext t :: p2.flushPadded) (by omega)
                  · simp only [hg, if_false, hcont]
          · have he' : ¬ y.hash ext = telemHash ext t := fun h => he h.symm
            simp only [he, if_false, he', decide_false, or_true, if_true, hcont]

theorem padding_eq (ext : Ext F) (pts : List (Telemetry F)) (span : Int) (seen : LastSeen)
    (pc : PadControl) :
    padding ext pts span seen pc = paddedS ext span seen pc [] (pts.map .telem) := by
  unfold padding
  rw [take_eq_paddedS]
  · rfl
  · show potential ext [] (pts.map .telem) < _
    have : potential ext [] (pts.map .telem) = 5 * pts.length := by
      induction pts with
      | nil => rfl
      | cons a l ih => simp only [List.map_cons, potential, ih, weight, List.length_cons,
          List.not_mem_nil, if_false]; omega
    omega

end
end Verif.Wavefront

namespace Verif.Wavefront
section
variable {F : Type} [F64 F]

theorem sameLine_iff {a b : Telemetry F} :
    SameLine a b ↔ (a.hashInput, a.kind) = (b.hashInput, b.kind) := by
  simp only [SameLine, SameSeries, Telemetry.hashInput, Prod.mk.injEq, and_assoc]

theorem SameLine.hash {ext : Ext F} {a b : Telemetry F} (h : SameLine a b) :
    telemHash ext a = telemHash ext b := by
  unfold telemHash; rw [sameLine_iff.mp h]

theorem skipPad_telem (pc : PadControl) (t : Telemetry F) :
    (Pad.telem t).skipPad pc = !pads pc t.kind := by
  cases h : t.kind <;> simp [Pad.skipPad, pads, h]

theorem gapPads_map (ext : Ext F) (span : Int) (x : Telemetry F) (rest : List (Telemetry F)) :
    gapPads ext span x (rest.map .telem) = [] ∨
    ∃ y B, rest = y :: B ∧ telemHash ext y = telemHash ext x ∧
      ¬ (((x.timestamp - y.timestamp).natAbs : Int).tdiv span = 0 ∨
        ((x.timestamp - y.timestamp).natAbs : Int).tdiv span = 1) ∧
      gapPads ext span x (rest.map .telem) =
        [.zero x (x.timestamp + 1), .zero y (y.timestamp - 1)] := by
  cases rest with
  | nil => left; rfl
  | cons y B =>
    by_cases h : telemHash ext y = telemHash ext x
    · by_cases hd : ((x.timestamp - y.timestamp).natAbs : Int).tdiv span = 0 ∨
        ((x.timestamp - y.timestamp).natAbs : Int).tdiv span = 1
      · left; simp only [List.map_cons, gapPads, Pad.hash, h, if_true, Pad.timestamp, hd]
      · right
        refine ⟨y, B, rfl, h, hd, ?_⟩
        simp only [List.map_cons, gapPads, Pad.hash, h, if_true, Pad.timestamp, hd, if_false,
          Pad.zeroAt]
    · left; simp only [List.map_cons, gapPads, Pad.hash, h, if_false]

/-- One step of `paddedS` on stored points: padding for the time since the last flush,
the point, padding up to the next point. -/
theorem paddedS_cons (ext : Ext F) (span : Int) (seen : LastSeen) (pc : PadControl)
    (fp : List Nat) (x : Telemetry F) (rest : List (Telemetry F)) :
    ∃ pre post fp', paddedS ext span seen pc fp ((x :: rest).map .telem) =
        pre ++ .telem x :: post ++ paddedS ext span seen pc fp' (rest.map .telem) ∧
      ((pre = [] ∧ (fp' = fp ∨ fp' = telemHash ext x :: fp)) ∨
        ∃ l, seen (telemHash ext x) = some l ∧ l < x.timestamp ∧ 1 < (x.timestamp - l).tdiv span ∧
          telemHash ext x ∉ fp ∧ pads pc x.kind = true ∧
          fp' = telemHash ext x :: fp ∧
          pre = [.zero x (l + 1), .zero x (x.timestamp - 1)]) ∧
      (post = [] ∨ ∃ y B, rest = y :: B ∧ telemHash ext y = telemHash ext x ∧
        pads pc x.kind = true ∧
        ¬ (((x.timestamp - y.timestamp).natAbs : Int).tdiv span = 0 ∨
          ((x.timestamp - y.timestamp).natAbs : Int).tdiv span = 1) ∧
        (telemHash ext x ∈ fp' ∨ seen (telemHash ext x) = none) ∧
        post = [.zero x (x.timestamp + 1), .zero y (y.timestamp - 1)]) ∧
      -- what decides the padding
      (pads pc x.kind = true → linked ext (telemHash ext x) (rest.map .telem) = true →
        (telemHash ext x ∈ fp ∨ seen (telemHash ext x) = none ∨
          ∃ l, seen (telemHash ext x) = some l ∧ l < x.timestamp) →
        post = gapPads ext span x (rest.map .telem) ∧
        (telemHash ext x ∈ fp' ∨ seen (telemHash ext x) = none)) ∧
      (pads pc x.kind = true → linked ext (telemHash ext x) (rest.map .telem) = true →
        ∀ l, telemHash ext x ∉ fp → seen (telemHash ext x) = some l → l < x.timestamp →
        1 < (x.timestamp - l).tdiv span → pre = [.zero x (l + 1), .zero x (x.timestamp - 1)]) ∧
      (linked ext (telemHash ext x) (rest.map .telem) = true → pads pc x.kind = true →
        telemHash ext x ∉ fp' → ∀ l, seen (telemHash ext x) = some l → x.timestamp ≤ l) ∧
      (∀ h ∈ fp, h ∈ fp') := by
  simp only [List.map_cons, paddedS, skipPad_telem]
  by_cases hc : (!pads pc x.kind) = true ∨
      linked ext (telemHash ext x) (rest.map .telem) = false
  · simp only [hc, if_true]
    refine ⟨[], [], fp, by simp, Or.inl ⟨rfl, Or.inl rfl⟩, Or.inl rfl, ?_, ?_, ?_, fun _ h => h⟩
    all_goals
      intro h1 h2
      rcases hc with hc | hc
      · simp_all
      · simp_all
  · simp only [hc, if_false]
    have hp : pads pc x.kind = true := by
      cases h : pads pc x.kind <;> simp [h] at hc ⊢
    by_cases hm : telemHash ext x ∈ fp
    · simp only [hm, if_true]
      refine ⟨[], gapPads ext span x (rest.map .telem), fp, by simp, Or.inl ⟨rfl, Or.inl rfl⟩, ?_,
        fun _ _ _ => ⟨rfl, Or.inl hm⟩, fun _ _ l h => absurd trivial h, fun _ _ h => absurd hm h,
        fun _ h => h⟩
      rcases gapPads_map ext span x rest with h | ⟨y, B, h1, h2, h3, h4⟩
      · exact Or.inl h
      · exact Or.inr ⟨y, B, h1, h2, hp, h3, Or.inl hm, h4⟩
    · simp only [hm, if_false]
      cases hl : seen (telemHash ext x) with
      | none =>
        refine ⟨[], gapPads ext span x (rest.map .telem), fp, by simp, Or.inl ⟨rfl, Or.inl rfl⟩,
          ?_, fun _ _ _ => ⟨rfl, Or.inr rfl⟩, fun _ _ l _ h => by simp at h,
          fun _ _ _ l h => by simp at h, fun _ h => h⟩
        rcases gapPads_map ext span x rest with h | ⟨y, B, h1, h2, h3, h4⟩
        · exact Or.inl h
        · exact Or.inr ⟨y, B, h1, h2, hp, h3, Or.inr rfl, h4⟩
      | some l =>
        simp only
        by_cases hg : x.timestamp > l
        · simp only [hg, if_true]
          have hmem : telemHash ext x ∈ telemHash ext x :: fp := List.mem_cons_self ..
          refine ⟨if (x.timestamp - l).tdiv span > 1 then
              [.zero x (l + 1), .zero x (x.timestamp - 1)] else [],
            gapPads ext span x (rest.map .telem), telemHash ext x :: fp, by simp, ?_, ?_,
            fun _ _ _ => ⟨rfl, Or.inl hmem⟩, ?_, fun _ _ h => absurd hmem h,
            fun _ h => List.mem_cons_of_mem _ h⟩
          · by_cases hd : (x.timestamp - l).tdiv span > 1
            · right; exact ⟨l, rfl, hg, hd, not_false, hp, rfl, by simp only [hd, if_true]⟩
            · left; exact ⟨by simp only [hd, if_false], Or.inr rfl⟩
          · rcases gapPads_map ext span x rest with h | ⟨y, B, h1, h2, h3, h4⟩
            · exact Or.inl h
            · exact Or.inr ⟨y, B, h1, h2, hp, h3, Or.inl hmem, h4⟩
          · intro _ _ l' _ hl' _ hd
            simp only [Option.some.injEq] at hl'; subst hl'
            exact if_pos hd
        · simp only [hg, if_false]
          refine ⟨[], [], fp, by simp, Or.inl ⟨rfl, Or.inl rfl⟩, Or.inl rfl, ?_, ?_, ?_, fun _ h => h⟩
          · intro _ _ h
            rcases h with h | h | ⟨l', h, h'⟩
            · exact h.elim
            · simp at h
            · simp only [Option.some.injEq] at h; omega
          · intro _ _ l' _ h h'
            simp only [Option.some.injEq] at h; omega
          · intro _ _ _ l' h
            simp only [Option.some.injEq] at h; omega

end
end Verif.Wavefront

namespace Verif.Wavefront
section
variable {F : Type} [F64 F]

theorem storedPoints_append (A B : List (Pad F)) :
    storedPoints (A ++ B) = storedPoints A ++ storedPoints B := List.filterMap_append ..

theorem padded_points (ext : Ext F) (span : Int) (seen : LastSeen) (pc : PadControl) :
    ∀ (pts : List (Telemetry F)) (fp : List Nat),
      storedPoints (paddedS ext span seen pc fp (pts.map .telem)) = pts := by
  intro pts
  induction pts with
  | nil => intro fp; rfl
  | cons x rest ih =>
    intro fp
    obtain ⟨pre, post, fp', e, hpre, hpost, _⟩ := paddedS_cons ext span seen pc fp x rest
    rw [e, storedPoints_append, ih, storedPoints_append]
    have h1 : storedPoints pre = [] := by
      rcases hpre with ⟨h, _⟩ | ⟨l, _, _, _, _, _, _, h⟩ <;> rw [h] <;> rfl
    have h2 : storedPoints (.telem x :: post) = [x] := by
      rcases hpost with h | ⟨y, B, _, _, _, _, _, h⟩ <;> rw [h] <;> rfl
    rw [h1, h2]; rfl

/-- Where padding comes from. -/
theorem padded_zero (ext : Ext F) (span : Int) (seen : LastSeen) (pc : PadControl)
    (t : Telemetry F) (ts : Int) :
    ∀ (pts : List (Telemetry F)) (fp : List Nat),
      Pad.zero t ts ∈ paddedS ext span seen pc fp (pts.map .telem) →
      (∃ A x y B, pts = A ++ x :: y :: B ∧ telemHash ext y = telemHash ext x ∧
        pads pc x.kind = true ∧
        ¬ (((x.timestamp - y.timestamp).natAbs : Int).tdiv span = 0 ∨
          ((x.timestamp - y.timestamp).natAbs : Int).tdiv span = 1) ∧
        ((t = x ∧ ts = x.timestamp + 1) ∨ (t = y ∧ ts = y.timestamp - 1))) ∨
      (∃ l, t ∈ pts ∧ pads pc t.kind = true ∧ seen (telemHash ext t) = some l ∧
        l < t.timestamp ∧ 1 < (t.timestamp - l).tdiv span ∧
        (ts = l + 1 ∨ ts = t.timestamp - 1)) := by
  intro pts
  induction pts with
  | nil => intro fp h; simp [paddedS] at h
  | cons x rest ih =>
    intro fp h
    obtain ⟨pre, post, fp', e, hpre, hpost, _⟩ := paddedS_cons ext span seen pc fp x rest
    rw [e, List.mem_append, List.mem_append, List.mem_cons] at h
    rcases h with (h | h | h) | h
    · rcases hpre with ⟨h', _⟩ | ⟨l, h1, h2, h3, h4, h5, h6, h7⟩
      · rw [h'] at h; simp at h
      · rw [h7] at h
        simp only [List.mem_cons, Pad.zero.injEq, List.not_mem_nil, or_false] at h
        right
        rcases h with ⟨rfl, rfl⟩ | ⟨rfl, rfl⟩
        · exact ⟨l, List.mem_cons_self .., h5, h1, h2, h3, Or.inl rfl⟩
        · exact ⟨l, List.mem_cons_self .., h5, h1, h2, h3, Or.inr rfl⟩
    · cases h
    · rcases hpost with h' | ⟨y, B, h1, h2, h3, h4, h5, h6⟩
      · rw [h'] at h; simp at h
      · rw [h6] at h
        simp only [List.mem_cons, Pad.zero.injEq, List.not_mem_nil, or_false] at h
        left
        exact ⟨[], x, y, B, by rw [h1]; rfl, h2, h3, h4, h⟩
    · rcases ih fp' h with ⟨A, x', y, B, h1, h2⟩ | ⟨l, h1, h2⟩
      · left; exact ⟨x :: A, x', y, B, by rw [h1]; rfl, h2⟩
      · right; exact ⟨l, List.mem_cons_of_mem _ h1, h2⟩

/-- Everything emitted belongs to a stored point's series. -/
theorem padded_hash (ext : Ext F) (span : Int) (seen : LastSeen) (pc : PadControl)
    (pts : List (Telemetry F)) (fp : List Nat) (e : Pad F)
    (he : e ∈ paddedS ext span seen pc fp (pts.map .telem)) : e.origin ∈ pts := by
  cases e with
  | telem t =>
    have : t ∈ storedPoints (paddedS ext span seen pc fp (pts.map .telem)) :=
      List.mem_filterMap.mpr ⟨_, he, rfl⟩
    rw [padded_points] at this
    exact this
  | zero t ts =>
    rcases padded_zero ext span seen pc t ts pts fp he with ⟨A, x, y, B, h1, _, _, _, h⟩ | ⟨l, h1, _⟩
    · rw [h1]
      rcases h with ⟨rfl, _⟩ | ⟨rfl, _⟩ <;> simp [Pad.origin]
    · exact h1

theorem hash_origin (ext : Ext F) (e : Pad F) : e.hash ext = telemHash ext e.origin := by
  cases e <;> rfl

theorem two_spans {span d : Int} (hs : 0 < span) (hd : 0 ≤ d)
    (h : ¬ (d.tdiv span = 0 ∨ d.tdiv span = 1)) : 2 * span ≤ d := by
  rw [Int.tdiv_eq_ediv_of_nonneg hd] at h
  have h0 : 0 ≤ d / span := Int.ediv_nonneg hd (by omega)
  have h2 : 2 ≤ d / span := by omega
  have := Int.mul_ediv_self_le (x := d) (k := span) (by omega)
  have h3 : span * 2 ≤ span * (d / span) := Int.mul_le_mul_of_nonneg_left h2 (by omega)
  omega

theorem two_spans' {span d : Int} (hs : 0 < span) (hd : 0 ≤ d)
    (h : 1 < d.tdiv span) : 2 * span ≤ d := two_spans hs hd (by omega)

/-- Increasing time per hash. -/
def Rising (ext : Ext F) (pts : List (Telemetry F)) : Prop :=
  pts.Pairwise (fun a c => telemHash ext a = telemHash ext c → a.timestamp < c.timestamp)

/-- Nothing of a series is emitted before a lower bound of its points, unless it pads the
time since the last flush. -/
theorem padded_lower (ext : Ext F) (span : Int) (hs : 0 < span) (seen : LastSeen) (pc : PadControl)
    (h : Nat) (m : Int) :
    ∀ (pts : List (Telemetry F)) (fp : List Nat), Rising ext pts →
      (∀ t ∈ pts, telemHash ext t = h → m ≤ t.timestamp) →
      ((∃ t ∈ pts, telemHash ext t = h ∧ pads pc t.kind = true) → h ∉ fp →
        ∀ l, seen h = some l → m ≤ l + 1) →
      ∀ e ∈ paddedS ext span seen pc fp (pts.map .telem), e.hash ext = h → m ≤ e.timestamp := by
  intro pts
  induction pts with
  | nil => intro fp _ _ _ e he; simp [paddedS] at he
  | cons x rest ih =>
    intro fp hr hm hl e he hh
    obtain ⟨pre, post, fp', eq, hpre, hpost, _, _, _, hfp⟩ := paddedS_cons ext span seen pc fp x rest
    rw [eq, List.mem_append, List.mem_append, List.mem_cons] at he
    rcases he with (he | he | he) | he
    · rcases hpre with ⟨h', _⟩ | ⟨l, h1, h2, h3, h4, h5, h6, h7⟩
      · rw [h'] at he; simp at he
      · rw [h7] at he
        have h8 := two_spans' hs (by omega) h3
        simp only [List.mem_cons, List.not_mem_nil, or_false] at he
        have hx : telemHash ext x = h := by
          rcases he with rfl | rfl <;> exact hh
        have := hl ⟨x, List.mem_cons_self .., hx, h5⟩ (hx ▸ h4) l (hx ▸ h1)
        rcases he with rfl | rfl
        · exact this
        · show m ≤ x.timestamp - 1; omega
    · subst he; exact hm x (List.mem_cons_self ..) hh
    · rcases hpost with h' | ⟨y, B, h1, h2, h3, h4, h5, h6⟩
      · rw [h'] at he; simp at he
      · rw [h6] at he
        simp only [List.mem_cons, List.not_mem_nil, or_false] at he
        have hx : telemHash ext x = h := by
          rcases he with rfl | rfl
          · exact hh
          · exact h2 ▸ hh
        have hxy : x.timestamp < y.timestamp :=
          (List.pairwise_cons.mp hr).1 y (by rw [h1]; simp) h2.symm
        have := two_spans hs (by omega) h4
        have := hm x (List.mem_cons_self ..) hx
        rcases he with rfl | rfl
        · show m ≤ x.timestamp + 1; omega
        · show m ≤ y.timestamp - 1; omega
    · refine ih fp' (List.pairwise_cons.mp hr).2 (fun t ht => hm t (List.mem_cons_of_mem _ ht)) ?_
        e he hh
      rintro ⟨t, ht, ht2⟩ hn
      exact hl ⟨t, List.mem_cons_of_mem _ ht, ht2⟩ (fun hin => hn (hfp h hin))

/-- Points of one series (by hash) are next to each other. -/
def Grouped (ext : Ext F) (pts : List (Telemetry F)) : Prop :=
  ∀ A x y B, pts = A ++ x :: y :: B → telemHash ext x ≠ telemHash ext y →
    ∀ z ∈ B, telemHash ext x ≠ telemHash ext z

/-- The output is in time order within every series. -/
theorem padded_sorted (ext : Ext F) (span : Int) (hs : 0 < span) (seen : LastSeen)
    (pc : PadControl) :
    ∀ (pts : List (Telemetry F)) (fp : List Nat), Rising ext pts → Grouped ext pts →
      (∀ a ∈ pts, ∀ b ∈ pts, telemHash ext a = telemHash ext b → a.kind = b.kind) →
      (paddedS ext span seen pc fp (pts.map .telem)).Pairwise
        (fun a c => a.hash ext = c.hash ext → a.timestamp ≤ c.timestamp) := by
  intro pts
  induction pts with
  | nil => intro fp _ _ _; simp [paddedS]
  | cons x rest ih =>
    intro fp hr hg hk
    obtain ⟨pre, post, fp', eq, hpre, hpost, _, _, hle, hfp⟩ := paddedS_cons ext span seen pc fp x rest
    have hr' := (List.pairwise_cons.mp hr)
    have hg' : Grouped ext rest := fun A a b B e => hg (x :: A) a b B (by rw [e]; rfl)
    have ih' := ih fp' hr'.2 hg'
      (fun a ha b hb => hk a (List.mem_cons_of_mem _ ha) b (List.mem_cons_of_mem _ hb))
    -- the tail is never before `x`
    have htail : ∀ e ∈ paddedS ext span seen pc fp' (rest.map .telem),
        telemHash ext x = e.hash ext → x.timestamp ≤ e.timestamp := by
      intro e he hh
      refine padded_lower ext span hs seen pc (telemHash ext x) x.timestamp rest fp' hr'.2
        (fun t ht h => by have := hr'.1 t ht h.symm; omega) ?_ e he hh.symm
      rintro ⟨t, ht, ht1, ht2⟩ hn l hl
      have hp : pads pc x.kind = true := by
        rw [← hk t (List.mem_cons_of_mem _ ht) x (List.mem_cons_self ..) ht1]; exact ht2
      have hlk : linked ext (telemHash ext x) (rest.map .telem) = true := by
        cases rest with
        | nil => rfl
        | cons y B =>
          refine decide_eq_true (p := telemHash ext y = telemHash ext x) ?_
          rcases List.mem_cons.mp ht with rfl | ht
          · exact ht1
          · by_cases hxy : telemHash ext x = telemHash ext y
            · exact hxy.symm
            · exact absurd ht1.symm (hg [] x y B rfl hxy t ht)
      have := hle hlk hp hn l hl
      omega
    rw [eq, List.append_assoc, List.pairwise_append]
    have hxpost : ∀ c ∈ post, x.timestamp < c.timestamp ∧
        (∀ e ∈ paddedS ext span seen pc fp' (rest.map .telem), c.hash ext = e.hash ext →
          c.timestamp ≤ e.timestamp) := by
      intro c hc
      rcases hpost with h' | ⟨y, B, h1, h2, h3, h4, h5, h6⟩
      · rw [h'] at hc; simp at hc
      · have hxy : x.timestamp < y.timestamp := hr'.1 y (by rw [h1]; simp) h2.symm
        have h8 := two_spans hs (by omega) h4
        have hlow : ∀ e ∈ paddedS ext span seen pc fp' (rest.map .telem),
            e.hash ext = telemHash ext x → y.timestamp ≤ e.timestamp := by
          refine padded_lower ext span hs seen pc (telemHash ext x) y.timestamp rest fp' hr'.2 ?_ ?_
          · intro t ht hth
            rw [h1] at ht
            rcases List.mem_cons.mp ht with rfl | ht
            · omega
            · have hr2 := hr'.2
              rw [h1] at hr2
              have := (List.pairwise_cons.mp hr2).1 t ht (by rw [h2, hth])
              omega
          · intro _ hn l hl
            rcases h5 with h5 | h5
            · exact absurd h5 hn
            · rw [h5] at hl; simp at hl
        rw [h6] at hc
        simp only [List.mem_cons, List.not_mem_nil, or_false] at hc
        rcases hc with rfl | rfl
        · refine ⟨by show x.timestamp < x.timestamp + 1; omega, fun e he hh => ?_⟩
          have := hlow e he hh.symm
          show x.timestamp + 1 ≤ _; omega
        · refine ⟨by show x.timestamp < y.timestamp - 1; omega, fun e he hh => ?_⟩
          have := hlow e he (by rw [← hh]; exact h2)
          show y.timestamp - 1 ≤ _; omega
    have hpre' : ∀ a ∈ pre, a.hash ext = telemHash ext x ∧ a.timestamp ≤ x.timestamp := by
      intro a ha
      rcases hpre with ⟨h', _⟩ | ⟨l, h1, h2, h3, h4, h5, h6, h7⟩
      · rw [h'] at ha; simp at ha
      · have := two_spans' hs (by omega) h3
        rw [h7] at ha
        simp only [List.mem_cons, List.not_mem_nil, or_false] at ha
        rcases ha with rfl | rfl
        · exact ⟨rfl, by show l + 1 ≤ _; omega⟩
        · exact ⟨rfl, by show x.timestamp - 1 ≤ _; omega⟩
    refine ⟨?_, ?_, ?_⟩
    · rcases hpre with ⟨h', _⟩ | ⟨l, h1, h2, h3, h4, h5, h6, h7⟩
      · rw [h']; simp
      · rw [h7]
        have := two_spans' hs (by omega) h3
        simp only [List.pairwise_cons, List.mem_cons, List.not_mem_nil, or_false, forall_eq,
          List.Pairwise.nil, and_true]
        refine ⟨?_, by simp⟩
        intro _; show l + 1 ≤ x.timestamp - 1; omega
    · rw [List.cons_append, List.pairwise_cons, List.pairwise_append]
      refine ⟨?_, ?_, ih', fun c hc e he => (hxpost c hc).2 e he⟩
      · intro e he hh
        rcases List.mem_append.mp he with he | he
        · have := (hxpost e he).1
          show x.timestamp ≤ _; omega
        · exact htail e he hh
      · rcases hpost with h' | ⟨y, B, h1, h2, h3, h4, h5, h6⟩
        · rw [h']; simp
        · rw [h6]
          have hxy : x.timestamp < y.timestamp := hr'.1 y (by rw [h1]; simp) h2.symm
          have h8 := two_spans hs (by omega) h4
          simp only [List.pairwise_cons, List.mem_cons, List.not_mem_nil, or_false, forall_eq,
            List.Pairwise.nil, and_true]
          refine ⟨?_, by simp⟩
          intro _; show x.timestamp + 1 ≤ y.timestamp - 1; omega
    · intro a ha e he hh
      have ⟨hah, hat⟩ := hpre' a ha
      rw [List.cons_append, List.mem_cons, List.mem_append] at he
      rcases he with rfl | he | he
      · exact hat
      · have := (hxpost e he).1; omega
      · have := htail e he (by rw [← hah]; exact hh); omega

/-- Emission passes through every suffix of the points. -/
theorem padded_suffix (ext : Ext F) (span : Int) (seen : LastSeen) (pc : PadControl)
    (rest : List (Telemetry F)) :
    ∀ (A : List (Telemetry F)) (fp : List Nat), ∃ P fp',
      paddedS ext span seen pc fp ((A ++ rest).map .telem) =
        P ++ paddedS ext span seen pc fp' (rest.map .telem) ∧
      ∀ h ∈ fp', h ∈ fp ∨ ∃ a ∈ A, telemHash ext a = h := by
  intro A
  induction A with
  | nil => intro fp; exact ⟨[], fp, rfl, fun h hh => Or.inl hh⟩
  | cons a A ih =>
    intro fp
    obtain ⟨pre, post, fp1, e, hpre, _⟩ := paddedS_cons ext span seen pc fp a (A ++ rest)
    obtain ⟨P, fp', e', hf⟩ := ih fp1
    refine ⟨pre ++ .telem a :: post ++ P, fp', ?_, ?_⟩
    · rw [List.cons_append, e, e']; simp only [List.append_assoc]
    · intro h hh
      have hfp1 : ∀ h ∈ fp1, h ∈ fp ∨ telemHash ext a = h := by
        intro h hh
        rcases hpre with ⟨_, h' | h'⟩ | ⟨l, _, _, _, _, _, h', _⟩
        · rw [h'] at hh; exact Or.inl hh
        · rw [h'] at hh
          rcases List.mem_cons.mp hh with hh | hh
          · exact Or.inr hh.symm
          · exact Or.inl hh
        · rw [h'] at hh
          rcases List.mem_cons.mp hh with hh | hh
          · exact Or.inr hh.symm
          · exact Or.inl hh
      rcases hf h hh with hh | ⟨b, hb, hb2⟩
      · rcases hfp1 h hh with hh | hh
        · exact Or.inl hh
        · exact Or.inr ⟨a, List.mem_cons_self .., hh⟩
      · exact Or.inr ⟨b, List.mem_cons_of_mem _ hb, hb2⟩

end
end Verif.Wavefront
