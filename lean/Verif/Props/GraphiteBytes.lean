import Verif.Props.Graphite
/-!
# C70: exactly which lines are handed over
-/
namespace Verif
open Wire Graphite

theorem handed_none : ∀ {bs : Bytes}, splitLine bs = none → ∀ line piece ms,
    handedOver line piece (bs.map Mark.byte ++ ms) = handedOver line (piece ++ bs) ms := by
  intro bs
  induction bs with
  | nil => intro _ line piece ms; simp
  | cons b bs ih =>
    intro h line piece ms
    simp only [splitLine] at h
    by_cases hb : b = 10
    · simp [hb] at h
    · rw [if_neg hb, Option.map_eq_none_iff] at h
      simp only [List.map_cons, List.cons_append, handedOver, if_neg hb]
      rw [ih h]
      simp

theorem handed_some : ∀ {bs l r : Bytes}, splitLine bs = some (l, r) → l ≠ [] ∧ bs = l ++ r ∧ ∀ line piece ms,
    handedOver line piece (bs.map Mark.byte ++ ms) =
      if utf8Valid (piece ++ l) then (line ++ (piece ++ l)) :: handedOver [] [] (r.map .byte ++ ms) else handedOver line [] (r.map .byte ++ ms) := by
  intro bs
  induction bs with
  | nil => intro l r h; simp [splitLine] at h
  | cons b bs ih =>
    intro l r h
    simp only [splitLine] at h
    by_cases hb : b = 10
    · simp only [if_pos hb, Option.some.injEq, Prod.mk.injEq] at h
      obtain ⟨rfl, rfl⟩ := h
      exact ⟨by simp, rfl, fun line piece ms => by simp only [List.map_cons, List.cons_append, handedOver, if_pos hb]⟩
    · simp only [if_neg hb, Option.map_eq_some_iff, Prod.exists, Prod.mk.injEq] at h
      obtain ⟨l', r', h, rfl, rfl⟩ := h
      obtain ⟨-, h1, h2⟩ := ih h
      refine ⟨by simp, by rw [h1]; rfl, fun line piece ms => ?_⟩
      simp only [List.map_cons, List.cons_append, handedOver, if_neg hb]
      rw [h2]
      simp

/-- What is left to read. -/
private def size (staged : Bytes) (stream : List NetItem) : Nat := staged.length + (bytesOf stream).length + stream.length

private theorem readUntil_marks (stream : List NetItem) : ∀ (staged l r : Bytes) (e : Except IoErr Unit) (s : List NetItem),
    readUntil staged stream = (l, e, r, s) →
    (size r s < size staged stream ∨ (staged = [] ∧ stream = [] ∧ l = [] ∧ e = .ok () ∧ r = [] ∧ s = [])) ∧ ∀ line piece,
    handedOver line piece (staged.map Mark.byte ++ marks stream) =
      match e with
      | .error _ => handedOver (if utf8Valid (piece ++ l) then line ++ (piece ++ l) else line) [] (r.map .byte ++ marks s)
      | .ok () => if piece ++ l ≠ [] ∧ utf8Valid (piece ++ l) then (line ++ (piece ++ l)) :: handedOver [] [] (r.map .byte ++ marks s)
          else handedOver line [] (r.map .byte ++ marks s) := by
  induction stream with
  | nil =>
    intro staged l r e s h
    unfold readUntil at h
    cases hsp : splitLine staged with
    | some lr =>
      obtain ⟨l', r'⟩ := lr
      simp only [hsp, Prod.mk.injEq] at h
      obtain ⟨rfl, rfl, rfl, rfl⟩ := h
      obtain ⟨h1, h2, h3⟩ := handed_some hsp
      refine ⟨.inl ?_, fun line piece => ?_⟩
      · have : 0 < l'.length := List.length_pos_iff.2 h1
        simp only [size, h2, List.length_append]; omega
      · rw [h3]; simp [h1]
    | none =>
      simp only [hsp, Prod.mk.injEq] at h
      obtain ⟨rfl, rfl, rfl, rfl⟩ := h
      refine ⟨?_, fun line piece => ?_⟩
      · cases staged with
        | nil => exact .inr ⟨rfl, rfl, rfl, rfl, rfl, rfl⟩
        | cons a b => exact .inl (by simp [size, bytesOf])
      · rw [handed_none hsp]
        simp only [marks, handedOver, List.map_nil, List.nil_append, ne_eq, not_true_eq_false, false_and, if_false]
  | cons i is ih =>
    intro staged l r e s h
    unfold readUntil at h
    cases hsp : splitLine staged with
    | some lr =>
      obtain ⟨l', r'⟩ := lr
      simp only [hsp, Prod.mk.injEq] at h
      obtain ⟨rfl, rfl, rfl, rfl⟩ := h
      obtain ⟨h1, h2, h3⟩ := handed_some hsp
      refine ⟨.inl ?_, fun line piece => ?_⟩
      · have : 0 < l'.length := List.length_pos_iff.2 h1
        simp only [size, h2, List.length_append]; omega
      · rw [h3]; simp [h1]
    | none =>
      simp only [hsp] at h
      cases i with
      | data bs =>
        cases bs with
        | nil =>
          simp only [Prod.mk.injEq] at h
          obtain ⟨rfl, rfl, rfl, rfl⟩ := h
          refine ⟨.inl (by simp [size, bytesOf]; omega), fun line piece => ?_⟩
          rw [handed_none hsp]
          simp only [marks, handedOver, List.map_nil, List.nil_append]
        | cons b bs =>
          rcases hq : readUntil (b :: bs) is with ⟨l', e', r', s'⟩
          simp only [hq, Prod.mk.injEq] at h
          obtain ⟨rfl, rfl, rfl, rfl⟩ := h
          obtain ⟨h1, h2⟩ := ih _ _ _ _ _ hq
          refine ⟨.inl ?_, fun line piece => ?_⟩
          · rcases h1 with h1 | ⟨h1, -⟩
            · simp only [size, bytesOf, List.length_append, List.length_cons] at h1 ⊢; omega
            · simp at h1
          · rw [handed_none hsp]
            simp only [marks]
            rw [h2]
            simp only [List.append_assoc]
      | interrupted =>
        rcases hq : readUntil [] is with ⟨l', e', r', s'⟩
        simp only [hq, Prod.mk.injEq] at h
        obtain ⟨rfl, rfl, rfl, rfl⟩ := h
        obtain ⟨h1, h2⟩ := ih _ _ _ _ _ hq
        refine ⟨.inl ?_, fun line piece => ?_⟩
        · rcases h1 with h1 | ⟨-, h1, -, -, h2, h3⟩
          · simp only [size, bytesOf, List.length_cons, List.length_nil] at h1 ⊢; omega
          · simp [size, bytesOf, h1, h2, h3]
        · rw [handed_none hsp]
          have := h2 line (piece ++ staged)
          simp only [List.map_nil, List.nil_append] at this
          simp only [marks]
          rw [this]
          simp only [List.append_assoc]
      | wouldBlock =>
        simp only [Prod.mk.injEq] at h
        obtain ⟨rfl, rfl, rfl, rfl⟩ := h
        refine ⟨.inl (by simp [size, bytesOf]; omega), fun line piece => ?_⟩
        rw [handed_none hsp]
        simp only [marks, handedOver, List.map_nil, List.nil_append]
      | failed =>
        simp only [Prod.mk.injEq] at h
        obtain ⟨rfl, rfl, rfl, rfl⟩ := h
        refine ⟨.inl (by simp [size, bytesOf]; omega), fun line piece => ?_⟩
        rw [handed_none hsp]
        simp only [marks, handedOver, List.map_nil, List.nil_append]

private theorem readLines_marks (fuel : Nat) : ∀ (line staged : Bytes) (stream : List NetItem), size staged stream < fuel →
    readLines fuel line staged stream = handedOver line [] (staged.map Mark.byte ++ marks stream) := by
  induction fuel with
  | zero => intro line staged stream h; omega
  | succ fuel ih =>
    intro line staged stream h
    rcases hq : readUntil staged stream with ⟨l, e, r, s⟩
    obtain ⟨h1, h2⟩ := readUntil_marks stream staged l r e s hq
    rw [h2]
    simp only [readLines, readLine, hq, List.nil_append]
    rcases h1 with h1 | ⟨rfl, rfl, rfl, rfl, rfl, rfl⟩
    · have hf : size r s < fuel := by omega
      by_cases hv : utf8Valid l = true
      · simp only [hv, if_true, and_true]
        cases e with
        | error err => exact ih _ _ _ hf
        | ok u =>
          cases l with
          | nil =>
            simp only [List.length_nil, ne_eq, not_true_eq_false, if_false, List.append_nil]
            by_cases he : (s.isEmpty && r.isEmpty) = true
            · rw [if_pos he]
              simp only [Bool.and_eq_true, List.isEmpty_iff] at he
              simp [he.1, he.2, marks, handedOver]
            · rw [if_neg he]; exact ih _ _ _ hf
          | cons a l =>
            simp only [List.length_cons, ne_eq, reduceCtorEq, not_false_eq_true, if_true]
            rw [ih _ _ _ hf]
      · simp only [hv, Bool.false_eq_true, if_false, and_false]
        cases e with
        | error err => exact ih _ _ _ hf
        | ok u => exact ih _ _ _ hf
    · have hv : utf8Valid [] = true := rfl
      simp [hv, marks, handedOver]

/-- **C70, exactly**, for every connection and every behaviour of its reads: the bytes between two line feeds, blocks or closes count only if they are UTF-8
on their own, a line is what counts since the last one, and it is handed over at the first line feed or close whose own piece counts.  Partial: the property
asks for the lines of the bytes, whatever the blocks (`C70_split_character_false`, `C70_unfinished_line_false`). -/
theorem C70_exact_partial (stream : List NetItem) (fuel : Nat) (hf : (bytesOf stream).length + stream.length < fuel) :
    readLines fuel [] [] stream = handedOver [] [] (marks stream) := by
  simpa using readLines_marks fuel [] [] stream (by simpa [size] using hf)

/-- A line cut by a block arrives whole; a character cut by a block loses the pieces on both sides, and what waited goes out with the next line. -/
example : handedOver [] [] (marks [.data [97], .wouldBlock, .data [98, 10], .data [99], .wouldBlock, .data [195], .wouldBlock, .data [169, 10], .data [100, 10]]) =
    [[97, 98, 10], [99, 100, 10]] := by decide

end Verif
