import Verif.Spec.Graphite
/-! # Lemmas about reading lines -/
namespace Verif.Graphite
open Wire

theorem utf8Lead_ranges (a : UInt8) (rs : List (UInt8 × UInt8)) (h : utf8Lead a = some rs) :
    ∀ r ∈ rs, 0x80 ≤ r.1 := by
  simp only [utf8Lead] at h
  repeat' split at h
  all_goals (try simp only [Option.some.injEq, reduceCtorEq] at h)
  all_goals (subst h)
  all_goals decide

theorem utf8_lf (b : Bytes) (a : Bytes) : ∀ rs : List (UInt8 × UInt8), (∀ r ∈ rs, 0x80 ≤ r.1) →
    utf8From rs (a ++ 10 :: b) = (utf8From rs a && utf8Valid b) := by
  induction a with
  | nil =>
    intro rs hrs
    cases rs with
    | nil =>
      have : utf8Lead 10 = some [] := by decide
      simp [utf8From, this, utf8Valid]
    | cons r rs =>
      obtain ⟨lo, hi⟩ := r
      have h1 := hrs (lo, hi) (by simp)
      have : ¬ lo ≤ 10 := by
        intro h2
        exact absurd (UInt8.le_trans h1 h2) (by decide)
      simp [utf8From, this]
  | cons x a ih =>
    intro rs hrs
    cases rs with
    | nil =>
      simp only [List.cons_append, utf8From]
      cases hx : utf8Lead x with
      | none => simp
      | some ranges => simp only; exact ih ranges (utf8Lead_ranges x ranges hx)
    | cons r rs =>
      obtain ⟨lo, hi⟩ := r
      simp only [List.cons_append, utf8From]
      rw [ih rs (fun r hr => hrs r (by simp [hr])), Bool.and_assoc, Bool.and_assoc, Bool.and_assoc]

theorem utf8_line (a b : Bytes) : utf8Valid (a ++ [10] ++ b) = (utf8Valid (a ++ [10]) && utf8Valid b) := by
  have h1 := utf8_lf b a [] (by simp)
  have h2 := utf8_lf [] a [] (by simp)
  simp only [utf8Valid] at h1 h2 ⊢
  have : a ++ [10] ++ b = a ++ 10 :: b := by simp
  rw [this, h1, h2]
  simp [utf8From]

theorem splitLine_some {bs l r : Bytes} (h : splitLine bs = some (l, r)) :
    ∃ p, l = p ++ [10] ∧ (10 : UInt8) ∉ p ∧ bs = l ++ r := by
  induction bs generalizing l with
  | nil => simp [splitLine] at h
  | cons b bs ih =>
    simp only [splitLine] at h
    split at h
    · next hb =>
      simp only [Option.some.injEq, Prod.mk.injEq] at h
      obtain ⟨rfl, rfl⟩ := h
      exact ⟨[], by simp [hb], by simp, by simp⟩
    · next hb =>
      cases hs : splitLine bs with
      | none => simp [hs] at h
      | some p =>
        simp only [hs, Option.map_some, Option.some.injEq, Prod.mk.injEq] at h
        obtain ⟨rfl, rfl⟩ := h
        obtain ⟨q, e1, e2, e3⟩ := ih (l := p.1) (by rw [hs])
        exact ⟨b :: q, by simp [e1], by simp [e2, Ne.symm hb], by simp [← e3]⟩

theorem splitLine_none {bs : Bytes} (h : splitLine bs = none) : (10 : UInt8) ∉ bs := by
  induction bs with
  | nil => simp
  | cons b bs ih =>
    simp only [splitLine] at h
    split at h
    · simp at h
    · next hb =>
      simp only [Option.map_eq_none_iff] at h
      simp [ih h, Ne.symm hb]

theorem WholeChars_line (a r : Bytes) (s : List NetItem) (h : WholeChars (a ++ [10] ++ r) s) :
    utf8Valid (a ++ [10]) = true ∧ WholeChars r s := by
  induction s generalizing r with
  | nil =>
    simp only [WholeChars] at h ⊢
    rw [utf8_line] at h
    simpa using h
  | cons x s ih =>
    cases x with
    | data bs =>
      simp only [WholeChars] at h ⊢
      rw [List.append_assoc (a ++ [10])] at h
      exact ⟨(ih _ h.2).1, h.1, (ih _ h.2).2⟩
    | interrupted => exact ih _ h
    | wouldBlock =>
      simp only [WholeChars] at h ⊢
      rw [utf8_line] at h
      simp only [Bool.and_eq_true] at h
      exact ⟨h.1.1, h.1.2, h.2⟩
    | failed => exact h.elim

/-- the three ways `read_until` ends on a behaving socket -/
theorem readUntil_cases (stream : List NetItem) : ∀ (pre staged : Bytes), (10 : UInt8) ∉ pre →
    WholeChars (pre ++ staged) stream →
    ∀ l e r s, readUntil staged stream = (l, e, r, s) →
    (e = .ok () ∧ (∃ p, l = p ++ [10] ∧ (10 : UInt8) ∉ p) ∧ utf8Valid (pre ++ l) = true ∧
      WholeChars r s ∧ staged ++ bytesOf stream = l ++ (r ++ bytesOf s) ∧ s.length ≤ stream.length) ∨
    (e = .error .wouldBlock ∧ (10 : UInt8) ∉ l ∧ utf8Valid (pre ++ l) = true ∧ r = [] ∧
      WholeChars [] s ∧ staged ++ bytesOf stream = l ++ bytesOf s ∧ s.length < stream.length) ∨
    (e = .ok () ∧ (10 : UInt8) ∉ l ∧ r = [] ∧ s = [] ∧ utf8Valid (pre ++ l) = true ∧
      staged ++ bytesOf stream = l) := by
  induction stream with
  | nil =>
    intro pre staged hp hw l e r s h
    unfold readUntil at h
    cases hs : splitLine staged with
    | some lr =>
      obtain ⟨l', r'⟩ := lr
      simp only [hs, Prod.mk.injEq] at h
      obtain ⟨rfl, rfl, rfl, rfl⟩ := h
      obtain ⟨p, e1, e2, e3⟩ := splitLine_some hs
      rw [e3, e1, ← List.append_assoc, ← List.append_assoc] at hw
      obtain ⟨w1, w2⟩ := WholeChars_line _ _ _ hw
      exact Or.inl ⟨rfl, ⟨p, e1, e2⟩, by rw [e1, ← List.append_assoc]; exact w1, w2, by simp [e3, bytesOf], Nat.le_refl _⟩
    | none =>
      simp only [hs, Prod.mk.injEq] at h
      obtain ⟨rfl, rfl, rfl, rfl⟩ := h
      exact Or.inr (Or.inr ⟨rfl, splitLine_none hs, rfl, rfl, hw, by simp [bytesOf]⟩)
  | cons x stream ih =>
    intro pre staged hp hw l e r s h
    unfold readUntil at h
    cases hs : splitLine staged with
    | some lr =>
      obtain ⟨l', r'⟩ := lr
      simp only [hs, Prod.mk.injEq] at h
      obtain ⟨rfl, rfl, rfl, rfl⟩ := h
      obtain ⟨p, e1, e2, e3⟩ := splitLine_some hs
      rw [e3, e1, ← List.append_assoc, ← List.append_assoc] at hw
      obtain ⟨w1, w2⟩ := WholeChars_line _ _ _ hw
      exact Or.inl ⟨rfl, ⟨p, e1, e2⟩, by rw [e1, ← List.append_assoc]; exact w1, w2, by simp [e3], Nat.le_refl _⟩
    | none =>
      have hst := splitLine_none hs
      have hpre : (10 : UInt8) ∉ pre ++ staged := by simp [hp, hst]
      -- one more item, then the induction hypothesis with `staged` moved to `pre`
      have step : ∀ (bs : Bytes), WholeChars (pre ++ staged ++ bs) stream →
          (∀ l' e' r' s', readUntil bs stream = (l', e', r', s') → l = staged ++ l' ∧ e = e' ∧ r = r' ∧ s = s') →
          bytesOf (x :: stream) = bs ++ bytesOf stream →
          (e = .ok () ∧ (∃ p, l = p ++ [10] ∧ (10 : UInt8) ∉ p) ∧ utf8Valid (pre ++ l) = true ∧
            WholeChars r s ∧ staged ++ bytesOf (x :: stream) = l ++ (r ++ bytesOf s) ∧ s.length ≤ (x :: stream).length) ∨
          (e = .error .wouldBlock ∧ (10 : UInt8) ∉ l ∧ utf8Valid (pre ++ l) = true ∧ r = [] ∧
            WholeChars [] s ∧ staged ++ bytesOf (x :: stream) = l ++ bytesOf s ∧ s.length < (x :: stream).length) ∨
          (e = .ok () ∧ (10 : UInt8) ∉ l ∧ r = [] ∧ s = [] ∧ utf8Valid (pre ++ l) = true ∧
            staged ++ bytesOf (x :: stream) = l) := by
        intro bs hw' heq hb
        rcases hru : readUntil bs stream with ⟨l', e', r', s'⟩
        obtain ⟨rfl, rfl, rfl, rfl⟩ := heq _ _ _ _ hru
        rw [hb]
        rcases ih (pre ++ staged) bs hpre hw' l' e r s hru with
          ⟨a1, ⟨p, a2, a3⟩, a4, a5, a6, a7⟩ | ⟨a1, a2, a3, a4, a5, a6, a7⟩ | ⟨a1, a2, a3, a4, a5, a6⟩
        · refine Or.inl ⟨a1, ⟨staged ++ p, by simp [a2], by simp [hst, a3]⟩, by rw [← List.append_assoc]; exact a4, a5, by simp [a6], ?_⟩
          simp only [List.length_cons]; omega
        · refine Or.inr (Or.inl ⟨a1, by simp [hst, a2], by rw [← List.append_assoc]; exact a3, a4, a5, by simp [a6], ?_⟩)
          simp only [List.length_cons]; omega
        · exact Or.inr (Or.inr ⟨a1, by simp [hst, a2], a3, a4, by rw [← List.append_assoc]; exact a5, by rw [a6]⟩)
      cases x with
      | data bs =>
        cases bs with
        | nil => exact absurd rfl hw.1
        | cons b bs =>
          refine step (b :: bs) hw.2 ?_ rfl
          intro l' e' r' s' hru
          simp only [hs, hru, Prod.mk.injEq] at h
          exact ⟨h.1.symm, h.2.1.symm, h.2.2.1.symm, h.2.2.2.symm⟩
      | interrupted =>
        refine step [] (by rw [List.append_nil]; exact hw) ?_ rfl
        intro l' e' r' s' hru
        simp only [hs, hru, Prod.mk.injEq] at h
        exact ⟨h.1.symm, h.2.1.symm, h.2.2.1.symm, h.2.2.2.symm⟩
      | wouldBlock =>
        simp only [hs, Prod.mk.injEq] at h
        obtain ⟨rfl, rfl, rfl, rfl⟩ := h
        exact Or.inr (Or.inl ⟨rfl, hst, hw.1, rfl, hw.2, by simp [bytesOf], by simp⟩)
      | failed => exact hw.elim

theorem finishedLines_line (p r : Bytes) (h : (10 : UInt8) ∉ p) :
    finishedLines (p ++ [10] ++ r) = (p ++ [10]) :: finishedLines r := by
  induction p with
  | nil => simp [finishedLines]
  | cons b p ih =>
    simp only [List.mem_cons, not_or] at h
    simp only [List.cons_append, finishedLines, if_neg (Ne.symm h.1), ih h.2]

theorem finishedLines_none (p : Bytes) (h : (10 : UInt8) ∉ p) : finishedLines p = [] := by
  induction p with
  | nil => rfl
  | cons b p ih =>
    simp only [List.mem_cons, not_or] at h
    simp only [finishedLines, if_neg (Ne.symm h.1), ih h.2]

theorem readLines_finished (fuel : Nat) : ∀ (line staged : Bytes) (stream : List NetItem),
    (10 : UInt8) ∉ line → WholeChars staged stream →
    staged.length + (bytesOf stream).length + stream.length + 1 ≤ fuel →
    (∀ b, (line ++ (staged ++ bytesOf stream)).getLast? = some b → b = 10) →
    readLines fuel line staged stream = finishedLines (line ++ (staged ++ bytesOf stream)) := by
  induction fuel with
  | zero => intro line staged stream h1 h2 h3; omega
  | succ fuel ih =>
    intro line staged stream h1 h2 h3 h4
    simp only [readLines, readLine]
    rcases hru : readUntil staged stream with ⟨l, e, r, s⟩
    rcases readUntil_cases stream [] staged (by simp) h2 l e r s hru with
      ⟨rfl, ⟨p, rfl, a3⟩, a4, a5, a6, a7⟩ | ⟨rfl, a2, a3, rfl, a5, a6, a7⟩ | ⟨rfl, a2, rfl, rfl, a5, a6⟩
    · rw [List.nil_append] at a4
      have hlen := congrArg List.length a6
      simp only [List.length_append, List.length_cons, List.length_nil] at hlen
      simp only [a4, if_true, List.length_append, List.length_cons, List.length_nil, Nat.zero_add]
      rw [a6]
      have hassoc : line ++ (p ++ [10] ++ (r ++ bytesOf s)) = (line ++ p) ++ [10] ++ (r ++ bytesOf s) := by simp
      rw [hassoc, finishedLines_line (line ++ p) _ (by simp [h1, a3]), ih [] r s (by simp) a5 (by omega) ?_]
      · simp
      · intro b hb
        apply h4 b
        rw [a6, hassoc]
        rw [List.nil_append] at hb
        rw [List.getLast?_append, hb]; rfl
    · rw [List.nil_append] at a3
      simp only [a3, if_true]
      have hlen := congrArg List.length a6
      simp only [List.length_append] at hlen
      rw [ih (line ++ l) [] s (by simp [h1, a2]) a5 (by simp only [List.length_nil]; omega) ?_]
      · rw [a6]; simp
      · intro b hb
        apply h4 b
        rw [a6, ← hb]; simp
    · rw [List.nil_append] at a5
      simp only [a5, if_true]
      rw [a6] at h4 ⊢
      have hno : (10 : UInt8) ∉ line ++ l := by simp [h1, a2]
      have hnil : line ++ l = [] := by
        cases hgl : (line ++ l).getLast? with
        | none => exact List.getLast?_eq_none_iff.1 hgl
        | some b =>
          have := h4 b hgl
          subst this
          exact absurd (List.mem_of_getLast? hgl) hno
      obtain ⟨rfl, rfl⟩ := List.append_eq_nil_iff.1 hnil
      simp [finishedLines]

end Verif.Graphite
