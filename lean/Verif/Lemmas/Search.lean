import Verif.Model.Search
/-! # Contract of the binary search -/
namespace Verif

variable {α : Type}

/-- the values of `f` along the list go lt … eq … gt -/
def Sorted3 (f : α → Ordering) (l : List α) : Prop :=
  ∀ (i j : Nat) (x y : α), i < j → l[i]? = some x → l[j]? = some y →
    (f x = .gt → f y = .gt) ∧ (f y = .lt → f x = .lt)

theorem bsearchLoop_spec (f : α → Ordering) (l : List α) (hs : Sorted3 f l) :
    ∀ n base size, size ≤ n → 1 ≤ size → base + size ≤ l.length →
      (0 < base → ∀ x, l[base]? = some x → f x ≠ .gt) →
      (∀ j x, base + size ≤ j → l[j]? = some x → f x = .gt) →
      let b := bsearchLoop f l n base size
      b < l.length ∧ (0 < b → ∀ x, l[b]? = some x → f x ≠ .gt) ∧
      (∀ j x, b < j → l[j]? = some x → f x = .gt) := by
  intro n
  induction n with
  | zero => intro base size h1 h2; omega
  | succ n ih =>
    intro base size h1 h2 h3 h4 h5
    simp only [bsearchLoop]
    by_cases hsz : size > 1
    · simp only [if_pos hsz]
      have hmid : base + size / 2 < l.length := by omega
      rw [List.getElem?_eq_getElem hmid]
      simp only
      by_cases hg : f l[base + size / 2] = .gt
      · simp only [if_pos hg]
        refine ih _ _ (by omega) (by omega) (by omega) h4 ?_
        intro j x hj hx
        by_cases hj' : base + size ≤ j
        · exact h5 j x hj' hx
        · by_cases he : j = base + size / 2
          · subst he
            rw [List.getElem?_eq_getElem hmid] at hx
            injection hx with hx; rw [← hx]; exact hg
          · exact (hs (base + size / 2) j _ x (by omega) (List.getElem?_eq_getElem hmid) hx).1 hg
      · simp only [if_neg hg]
        refine ih _ _ (by omega) (by omega) (by omega) ?_ ?_
        · intro _ x hx
          rw [List.getElem?_eq_getElem hmid] at hx
          injection hx with hx; rw [← hx]; exact hg
        · intro j x hj hx
          exact h5 j x (by omega) hx
    · simp only [if_neg hsz]
      have : size = 1 := by omega
      subst this
      exact ⟨by omega, h4, fun j x hj hx => h5 j x (by omega) hx⟩

/-- Contract of `binary_search_by` on a list on which `f` is sorted. -/
theorem bsearch_spec (f : α → Ordering) (l : List α) (hs : Sorted3 f l) :
    match bsearch f l with
    | .ok i => ∃ pre x post, l = pre ++ x :: post ∧ pre.length = i ∧ f x = .eq
    | .err i => ∃ pre post, l = pre ++ post ∧ pre.length = i ∧ (∀ a ∈ pre, f a = .lt) ∧
        (∀ a ∈ post, f a = .gt) := by
  unfold bsearch
  by_cases h0 : l.length = 0
  · simp only [if_pos h0]
    exact ⟨[], l, rfl, rfl, by simp, by simp [List.length_eq_zero_iff.1 h0]⟩
  · simp only [if_neg h0]
    have hspec := bsearchLoop_spec f l hs l.length 0 l.length (Nat.le_refl _) (by omega) (by omega)
      (by omega) (by
        intro j x hj hx
        have := (List.getElem?_eq_some_iff.1 hx).1
        omega)
    simp only at hspec
    generalize hb : bsearchLoop f l l.length 0 l.length = b at *
    obtain ⟨hb1, hb2, hb3⟩ := hspec
    rw [List.getElem?_eq_getElem hb1]
    simp only
    have hsplit : l = l.take b ++ l[b] :: l.drop (b + 1) := by
      rw [List.getElem_cons_drop, List.take_append_drop]
    have hlen : (l.take b).length = b := by rw [List.length_take]; omega
    have hdrop : ∀ a ∈ l.drop (b + 1), f a = .gt := by
      intro a ha
      obtain ⟨j, hj⟩ := List.mem_iff_getElem?.1 ha
      rw [List.getElem?_drop] at hj
      exact hb3 _ a (by omega) hj
    have htake : ∀ a ∈ l.take b, ∃ j, j < b ∧ l[j]? = some a := by
      intro a ha
      obtain ⟨j, hj⟩ := List.mem_iff_getElem?.1 ha
      have hjlt : j < b := by
        have := (List.getElem?_eq_some_iff.1 hj).1
        omega
      rw [List.getElem?_take, if_pos hjlt] at hj
      exact ⟨j, hjlt, hj⟩
    cases hf : f l[b] with
    | eq => exact ⟨l.take b, l[b], l.drop (b + 1), hsplit, hlen, hf⟩
    | lt =>
      refine ⟨l.take (b + 1), l.drop (b + 1), (List.take_append_drop _ _).symm, ?_, ?_, hdrop⟩
      · rw [List.length_take]; omega
      · intro a ha
        rw [List.take_succ_eq_append_getElem hb1, List.mem_append, List.mem_singleton] at ha
        rcases ha with ha | rfl
        · obtain ⟨j, hj, hja⟩ := htake a ha
          exact (hs j b a _ hj hja (List.getElem?_eq_getElem hb1)).2 hf
        · exact hf
    | gt =>
      have hb0 : b = 0 := by
        by_cases h : 0 < b
        · exact absurd hf (hb2 h _ (List.getElem?_eq_getElem hb1))
        · omega
      refine ⟨l.take b, l.drop b, (List.take_append_drop _ _).symm, hlen, ?_, ?_⟩
      · rw [hb0]; simp
      · intro a ha
        rw [List.drop_eq_getElem_cons hb1, List.mem_cons] at ha
        rcases ha with rfl | ha
        · exact hf
        · exact hdrop a ha

/-- The index of a failed search is always a legal insertion point, and that of a
successful one a legal element index, sorted or not. -/
theorem bsearchLoop_lt (f : α → Ordering) (l : List α) :
    ∀ n base size, base < l.length → bsearchLoop f l n base size < l.length := by
  intro n
  induction n with
  | zero => intro base size h; exact h
  | succ n ih =>
    intro base size h
    simp only [bsearchLoop]
    split
    · split
      · next x hx =>
        apply ih
        split
        · exact h
        · exact (List.getElem?_eq_some_iff.1 hx).1
      · exact h
    · exact h

theorem bsearch_bounds (f : α → Ordering) (l : List α) :
    match bsearch f l with
    | .ok i => i < l.length
    | .err i => i ≤ l.length := by
  unfold bsearch
  by_cases h0 : l.length = 0
  · simp only [if_pos h0]; omega
  · simp only [if_neg h0]
    have hb := bsearchLoop_lt f l l.length 0 l.length (by omega)
    rw [List.getElem?_eq_getElem hb]
    simp only
    cases f l[bsearchLoop f l l.length 0 l.length] <;> simp only <;> omega

end Verif
