import Verif.Spec.FileBytes
import Verif.Lemmas.Graphite
/-! # Lemmas about tailing a file of bytes -/
namespace Verif.FileBytes
open Graphite (finishedLines utf8Valid splitLine splitLine_some splitLine_none)

theorem fill_spec (C F : Bytes) (fs : FS) (r : Reader) (hf : fs.files r.file = C) (hp : C <+: F) (hl : r.pos ≤ C.length) :
    (r.fill fs).file = r.file ∧ (r.fill fs).staged ++ F.drop (r.fill fs).pos = r.staged ++ F.drop r.pos ∧
    (r.fill fs).pos ≤ C.length ∧ r.pos ≤ (r.fill fs).pos ∧
    ((r.fill fs).staged = [] → r.staged = [] ∧ (r.fill fs).pos = C.length) ∧
    (r.staged = [] → (r.fill fs).staged ≠ [] → r.pos < (r.fill fs).pos) := by
  obtain ⟨D, rfl⟩ := hp
  obtain ⟨file, pos, staged⟩ := r
  simp only at hf hl
  cases staged with
  | cons c cs => simp [Reader.fill, hl]
  | nil =>
    simp only [Reader.fill, hf]
    refine ⟨trivial, ?_, ?_, by omega, ?_, ?_⟩
    · rw [List.nil_append, List.drop_append_of_le_length hl, List.length_take, List.length_drop]
      by_cases h : C.length - pos ≤ 8192
      · rw [Nat.min_eq_right h, List.take_of_length_le (by rw [List.length_drop]; exact h), show pos + (C.length - pos) = C.length by omega]
        rw [List.drop_append_of_le_length (Nat.le_refl _)]; simp
      · rw [Nat.min_eq_left (by omega), List.drop_append_of_le_length (by omega), ← List.append_assoc, ← List.drop_drop,
          List.take_append_drop]
    · simp only [List.length_take, List.length_drop]; omega
    · intro h
      have := congrArg List.length h
      simp only [List.length_take, List.length_drop, List.length_nil] at this ⊢
      exact ⟨trivial, by omega⟩
    · intro _ h
      have : 0 < (List.take 8192 (List.drop pos C)).length := List.length_pos_iff.2 h
      omega

/-- reading one line from a file that grows: `G k` is its content at the `k`-th `fill_buf` -/
theorem readUntil_spec (G : Nat → Bytes) (F : Bytes) (fss : Nat → FS) (file : Nat) (hG : ∀ k, (fss k).files file = G k)
    (hm : ∀ k, G k <+: F) (hi : ∀ k, (G k).length ≤ (G (k + 1)).length) :
    ∀ (fuel : Nat) (r : Reader) (acc : Bytes) (k : Nat), r.file = file → r.pos ≤ (G k).length → (10 : UInt8) ∉ acc →
    F.length - r.pos + (if r.staged = [] then 1 else 2) ≤ fuel →
    ∃ l r' k', Reader.readUntil fuel fss r acc k = some (l, r', k') ∧ r'.file = file ∧ k < k' ∧
      r'.pos ≤ (G (k' - 1)).length ∧
      acc ++ (r.staged ++ F.drop r.pos) = l ++ (r'.staged ++ F.drop r'.pos) ∧
      (IsLine l ∨ ((10 : UInt8) ∉ l ∧ r'.staged = [] ∧ r'.pos = (G (k' - 1)).length)) := by
  intro fuel
  induction fuel with
  | zero => intro r acc k _ _ _ h; split at h <;> omega
  | succ fuel ih =>
    intro r acc k hf hp ha hfu
    obtain ⟨f1, f2, f3, f4, f5, f6⟩ := fill_spec (G k) F (fss k) r (by rw [hf]; exact hG k) (hm k) hp
    simp only [Reader.readUntil]
    by_cases he : (r.fill (fss k)).staged = []
    · simp only [he, if_true]
      refine ⟨acc, r.fill (fss k), k + 1, rfl, f1.trans hf, by omega, f3, ?_, Or.inr ⟨ha, he, (f5 he).2⟩⟩
      rw [f2]
    · simp only [he, if_false]
      cases hs : splitLine (r.fill (fss k)).staged with
      | some lr =>
        obtain ⟨l, rest⟩ := lr
        obtain ⟨p, e1, e2, e3⟩ := splitLine_some hs
        refine ⟨acc ++ l, { r.fill (fss k) with staged := rest }, k + 1, rfl, f1.trans hf, by omega, f3, ?_, Or.inl ?_⟩
        · rw [← f2, e3]; simp
        · exact ⟨acc ++ p, by simp [e1], by simp [ha, e2]⟩
      | none =>
        have hn := splitLine_none hs
        obtain ⟨l, r', k', g1, g2, g3, g4, g5, g6⟩ := ih { r.fill (fss k) with staged := [] } (acc ++ (r.fill (fss k)).staged) (k + 1)
          (f1.trans hf) (Nat.le_trans f3 (hi k)) (by simp [ha, hn]) (by
            have hFG : (G k).length ≤ F.length := (hm k).length_le
            simp only [if_true]
            by_cases h0 : r.staged = []
            · have := f6 h0 he
              simp only [h0, if_true] at hfu
              omega
            · simp only [h0, if_false] at hfu
              omega)
        refine ⟨l, r', k', g1, g2, by omega, g4, ?_, g6⟩
        rw [← g5, ← f2]; simp

theorem popChar_lf (p : Bytes) : popChar (p ++ [10]) = p := by
  simp only [popChar, List.reverse_append, List.reverse_singleton, List.singleton_append]
  rw [List.dropWhile_cons_of_neg (by decide)]
  simp

theorem finished_line (p b : Bytes) (h : (10 : UInt8) ∉ p) :
    finishedLines (p ++ [10] ++ b) = (p ++ [10]) :: finishedLines b := by
  induction p with
  | nil => simp [finishedLines]
  | cons c p ih =>
    simp only [List.mem_cons, not_or] at h
    have hc : ¬ c = 10 := fun e => h.1 e.symm
    simp only [List.cons_append, finishedLines, hc, if_false]
    rw [ih h.2]

theorem finished_none (a : Bytes) (h : (10 : UInt8) ∉ a) : finishedLines a = [] := by
  induction a with
  | nil => rfl
  | cons c a ih =>
    simp only [List.mem_cons, not_or] at h
    have hc : ¬ c = 10 := fun e => h.1 e.symm
    simp [finishedLines, hc, ih h.2]

theorem finished_lines (ls : List Bytes) (h : ∀ l ∈ ls, IsLine l) (b : Bytes) :
    finishedLines (ls.flatten ++ b) = ls ++ finishedLines b := by
  induction ls with
  | nil => rfl
  | cons l ls ih =>
    obtain ⟨p, rfl, hp⟩ := h l (by simp)
    rw [List.flatten_cons, List.append_assoc, finished_line p _ hp, ih (fun l hl => h l (by simp [hl]))]; rfl

/-- two ways to cut off the first line -/
theorem line_unique (p q b c : Bytes) (hp : (10 : UInt8) ∉ p) (hq : (10 : UInt8) ∉ q)
    (h : p ++ [10] ++ b = q ++ [10] ++ c) : p = q ∧ b = c := by
  induction p generalizing q with
  | nil =>
    cases q with
    | nil => simpa using h
    | cons y q =>
      simp only [List.nil_append, List.cons_append, List.cons.injEq] at h
      exact absurd (by simp [h.1]) hq
  | cons x p ih =>
    cases q with
    | nil =>
      simp only [List.nil_append, List.cons_append, List.cons.injEq] at h
      exact absurd (by simp [h.1]) hp
    | cons y q =>
      simp only [List.cons_append, List.cons.injEq] at h
      simp only [List.mem_cons, not_or] at hp hq
      obtain ⟨rfl, h⟩ := h
      obtain ⟨rfl, rfl⟩ := ih q hp.2 hq.2 (by simpa using h)
      exact ⟨rfl, rfl⟩

/-! ## The world -/

/-- Between steps: what was read since the start are the lines `ls`, and these were shown, after `d`. -/
structure Inv (n0 : Nat) (d : List Bytes) (w : World) (ls : List Bytes) (r : Reader) : Prop where
  reader : w.watcher.reader = some r
  file : r.file = 0
  pos : r.pos ≤ w.content.length
  id : w.watcher.fileId = some 0
  reopen : w.watcher.reopen = false
  size : w.watcher.previousSize ≤ w.content.length
  unread : w.content.drop n0 = ls.flatten ++ (r.staged ++ w.content.drop r.pos)
  lines : ∀ l ∈ ls, IsLine l
  shown : w.delivered = d ++ shown ls
  n0 : n0 ≤ w.content.length

theorem whole_nil : Whole [] := by simp [Whole]

theorem whole_append (a b : Bytes) (ha : Whole a) (hb : Whole b) : Whole (a ++ b) := by
  intro x hx
  rw [List.getLast?_append] at hx
  cases hl : b.getLast? with
  | none => rw [hl] at hx; exact ha x (by simpa using hx)
  | some y => rw [hl] at hx; simp at hx; exact hb x (by rw [hl, hx])

theorem whole_flatten (ps : List Bytes) (h : ∀ p ∈ ps, Whole p) : Whole ps.flatten := by
  induction ps with
  | nil => exact whole_nil
  | cons p ps ih => exact whole_append _ _ (h p (by simp)) (ih fun q hq => h q (by simp [hq]))

theorem whole_suffix (a b : Bytes) (h : Whole (a ++ b)) : Whole b := by
  intro x hx
  refine h x ?_
  rw [List.getLast?_append, hx]; rfl

/-- one read: it takes the next line, or there is nothing to read -/
theorem read_inv (n0 : Nat) (d : List Bytes) (w : World) (ls : List Bytes) (r : Reader) (hi : Inv n0 d w ls r)
    (hw : Whole (w.content.drop n0)) (during : List Bytes) (hd : ∀ p ∈ during, Whole p) :
    ∃ new r', Inv n0 d (w.step (.read during)) (ls ++ new) r' ∧ new.length ≤ 1 ∧
      (new = [] → r.staged ++ w.content.drop r.pos = []) ∧ (w.step (.read during)).watcher.previousSize = w.content.length := by
  obtain ⟨i1, i2, i3, i4, i5, i6, i7, i8, i9, i10⟩ := hi
  let F := w.content ++ during.flatten
  let G : Nat → Bytes := fun k => w.content ++ (during.take (k - 1)).flatten
  have hpre : ∀ k, G k <+: F := by
    intro k
    refine ⟨(during.drop (k - 1)).flatten, ?_⟩
    simp only [G, F, List.append_assoc, ← List.flatten_append, List.take_append_drop]
  have hinc : ∀ k, (G k).length ≤ (G (k + 1)).length := by
    intro k
    have h1 : G k <+: G (k + 1) := by
      refine ⟨((during.drop (k - 1)).take (k - (k - 1))).flatten, ?_⟩
      simp only [G, List.append_assoc, ← List.flatten_append]
      rw [← List.take_add]
      congr 3
      omega
    exact h1.length_le
  have hF : F.length ≥ w.content.length := by simp [F]
  obtain ⟨l, r', k', g1, g2, g3, g4, g5, g6⟩ := readUntil_spec G F (growing w.content during) 0 (fun _ => rfl) hpre hinc
    (F.length + 2) r [] 1 i2 (by simp [G]; exact i3) (by simp) (by split <;> omega)
  have hpos' : r'.pos ≤ F.length := Nat.le_trans g4 (hpre _).length_le
  have hdrop : F.drop n0 = ls.flatten ++ (r.staged ++ F.drop r.pos) := by
    simp only [F]
    rw [List.drop_append_of_le_length i10, i7, List.drop_append_of_le_length i3]; simp
  have hcut : F.drop n0 = (ls.flatten ++ l) ++ (r'.staged ++ F.drop r'.pos) := by
    rw [hdrop]
    simp only [List.nil_append] at g5
    rw [g5]; simp
  -- what is taken is a line or nothing
  have hcase : IsLine l ∨ (l = [] ∧ r'.staged = []) := by
    rcases g6 with h | ⟨h1, h2, h3⟩
    · exact Or.inl h
    · right
      refine ⟨?_, h2⟩
      have hGw : Whole ((G (k' - 1)).drop n0) := by
        simp only [G]
        rw [List.drop_append_of_le_length i10]
        exact whole_append _ _ hw (whole_flatten _ fun p hp => hd p (List.mem_of_mem_take hp))
      obtain ⟨D, hD⟩ := hpre (k' - 1)
      have hGl : (G (k' - 1)).drop n0 = ls.flatten ++ l := by
        have hn : n0 ≤ (G (k' - 1)).length := by simp only [G, List.length_append]; omega
        have e : F.drop n0 = (G (k' - 1)).drop n0 ++ D := by
          rw [← hD, List.drop_append_of_le_length hn]
        have e2 : F.drop r'.pos = D := by
          rw [h3, ← hD, List.drop_append_of_le_length (Nat.le_refl _)]; simp
        rw [hcut, h2, e2, List.nil_append] at e
        exact (List.append_cancel_right e).symm
      rw [hGl] at hGw
      have hl := whole_suffix _ _ hGw
      cases hx : l.getLast? with
      | none => simpa using hx
      | some b =>
        have := hl b hx
        subst this
        exact absurd (List.mem_of_getLast? hx) h1
  -- the watcher
  have hrl : ∀ o b w', w.watcher.readLine (F.length + 2) (growing w.content during) [] = (o, b, w') →
      (w' = { w.watcher with previousSize := w.content.length, reader := some r' }) ∧
      (if utf8Valid l then (if l = [] then o = .ok 0 ∧ b = [] else o = .ok (popChar l).length ∧ b = popChar l)
        else o = .error ∧ b = []) := by
    intro o b w' h
    simp only [Watcher.readLine, i5, i1, Bool.false_eq_true, if_false] at h
    have hsz : ((growing w.content during 0).files r.file).length = w.content.length := by simp [growing, fsOf]
    rw [hsz] at h
    have hng : ¬ w.watcher.previousSize > w.content.length := by omega
    simp only [hng, if_false, g1] at h
    by_cases hv : utf8Valid l = true
    · simp only [hv, if_true] at h ⊢
      by_cases hl : l = []
      · simp only [hl, if_true, Prod.mk.injEq] at h ⊢
        obtain ⟨rfl, rfl, rfl⟩ := h
        refine ⟨?_, rfl, rfl⟩
        simp [growing, fsOf, i4, i5]
      · simp only [hl, if_false, List.nil_append, if_true, Prod.mk.injEq] at h ⊢
        obtain ⟨rfl, rfl, rfl⟩ := h
        exact ⟨by simp [i5], rfl, rfl⟩
    · simp only [hv, Bool.false_eq_true, if_false, Prod.mk.injEq] at h ⊢
      obtain ⟨rfl, rfl, rfl⟩ := h
      exact ⟨by simp [i5], rfl, rfl⟩
  -- the step
  have hstep : (w.step (.read during)).content = F ∧
      (w.step (.read during)).watcher = { w.watcher with previousSize := w.content.length, reader := some r' } ∧
      (w.step (.read during)).delivered = w.delivered ++ (if l = [] then [] else FileBytes.shown [l]) := by
    rcases hq : w.watcher.readLine (F.length + 2) (growing w.content during) [] with ⟨o, b, w'⟩
    obtain ⟨q1, q2⟩ := hrl o b w' hq
    have hs : w.step (.read during) = w.took F (o, b, w') := by
      simp only [World.step]
      rw [show w.content ++ during.flatten = F from rfl, hq]
    rw [hs]
    subst q1
    by_cases hv : utf8Valid l = true
    · simp only [hv, if_true] at q2
      by_cases hl : l = []
      · simp only [hl, if_true] at q2 ⊢
        obtain ⟨rfl, rfl⟩ := q2
        simp [World.took]
      · simp only [hl, if_false] at q2 ⊢
        obtain ⟨rfl, rfl⟩ := q2
        rcases hcase with ⟨p, rfl, hp⟩ | ⟨h, -⟩
        · rw [popChar_lf]
          cases p with
          | nil => simp [FileBytes.shown, World.took]
          | cons c cs =>
            have : FileBytes.shown [c :: cs ++ [10]] = [c :: cs] := by
              have hne : (c :: cs ++ [10] != [10]) = true := by simp
              simp only [FileBytes.shown, List.filter_cons, hv, hne, Bool.and_self, if_true, List.filter_nil, List.map_cons, List.map_nil]
              rw [List.dropLast_concat]
            rw [this]
            simp [World.took]
        · exact absurd h hl
    · simp only [hv, Bool.false_eq_true, if_false] at q2
      obtain ⟨rfl, rfl⟩ := q2
      simp only [Bool.not_eq_true] at hv
      have : FileBytes.shown [l] = [] := by simp [FileBytes.shown, hv]
      rw [this]
      simp [World.took]
  obtain ⟨s1, s2, s3⟩ := hstep
  rcases hcase with hline | ⟨hl, hst⟩
  · have hne : l ≠ [] := by obtain ⟨p, rfl, -⟩ := hline; simp
    refine ⟨[l], r', ⟨by rw [s2], g2, by rw [s1]; exact hpos', by rw [s2]; exact i4, by rw [s2]; exact i5, ?_, ?_, ?_, ?_, ?_⟩, by simp,
      by simp, by rw [s2]⟩
    · rw [s1, s2]; exact hF
    · rw [s1, hcut]; simp
    · intro m hm
      rcases List.mem_append.1 hm with hm | hm
      · exact i8 m hm
      · simp only [List.mem_singleton] at hm; subst hm; exact hline
    · rw [s3, if_neg hne, i9]; simp [FileBytes.shown]
    · rw [s1]; omega
  · refine ⟨[], r', ⟨by rw [s2], g2, by rw [s1]; exact hpos', by rw [s2]; exact i4, by rw [s2]; exact i5, ?_, ?_, ?_, ?_, ?_⟩, by simp, ?_, by rw [s2]⟩
    · rw [s1, s2]; exact hF
    · rw [s1, hcut, hl]; simp
    · simpa using i8
    · rw [s3, if_pos hl, i9]; simp
    · rw [s1]; omega
    · intro _
      have e1 := g5
      simp only [List.nil_append, hl, hst] at e1
      -- what was unread before is a prefix of what is unread now, behind the position reached
      rcases g6 with ⟨p, h, -⟩ | ⟨-, -, h3⟩
      · rw [hl] at h; simp at h
      · have hle : w.content.length ≤ r'.pos := by
          rw [h3]; simp [G]
        have e2 := congrArg List.length e1
        simp only [List.length_append, List.length_drop] at e2
        have hsz : r.staged.length + (F.length - r.pos) = F.length - r'.pos := e2
        have : r.staged.length = 0 ∧ w.content.length - r.pos = 0 := by omega
        rw [List.append_eq_nil_iff]
        exact ⟨List.eq_nil_of_length_eq_zero this.1, List.drop_eq_nil_of_le (by omega)⟩

theorem append_inv (n0 : Nat) (d : List Bytes) (w : World) (ls : List Bytes) (r : Reader) (hi : Inv n0 d w ls r) (bs : Bytes) :
    Inv n0 d (w.step (.append bs)) ls r := by
  obtain ⟨i1, i2, i3, i4, i5, i6, i7, i8, i9, i10⟩ := hi
  refine ⟨i1, i2, ?_, i4, i5, ?_, ?_, i8, i9, ?_⟩
  · simp only [World.step, List.length_append]; omega
  · simp only [World.step, List.length_append]; omega
  · simp only [World.step]
    rw [List.drop_append_of_le_length i10, i7, List.drop_append_of_le_length i3]; simp
  · simp only [World.step, List.length_append]; omega

theorem content_step (w : World) (s : Step) : (w.step s).content = w.content ++ s.pieces.flatten := by
  cases s with
  | append bs => simp [World.step, Step.pieces]
  | read during =>
    simp only [World.step, Step.pieces, World.took]
    split <;> rfl

theorem run_inv (n0 : Nat) (d : List Bytes) (steps : List Step) : ∀ (w : World) (ls : List Bytes) (r : Reader), Inv n0 d w ls r →
    Whole (w.content.drop n0) → (∀ s ∈ steps, ∀ p ∈ s.pieces, Whole p) →
    ∃ new r', Inv n0 d (w.run steps) (ls ++ new) r' ∧ (w.run steps).content = w.content ++ written steps ∧
      Whole ((w.run steps).content.drop n0) := by
  induction steps with
  | nil => intro w ls r hi hw _; exact ⟨[], r, by simpa [World.run] using hi, by simp [World.run, written], hw⟩
  | cons s steps ih =>
    intro w ls r hi hw hp
    have hps : ∀ p ∈ s.pieces, Whole p := hp s (by simp)
    have hw' : Whole ((w.step s).content.drop n0) := by
      rw [content_step, List.drop_append_of_le_length hi.n0]
      exact whole_append _ _ hw (whole_flatten _ hps)
    have h1 : ∃ new r', Inv n0 d (w.step s) (ls ++ new) r' := by
      cases s with
      | append bs => exact ⟨[], r, by simpa using append_inv n0 d w ls r hi bs⟩
      | read during =>
        obtain ⟨new, r', h, -⟩ := read_inv n0 d w ls r hi hw during hps
        exact ⟨new, r', h⟩
    obtain ⟨new, r', h⟩ := h1
    obtain ⟨new', r'', k1, k2, k3⟩ := ih (w.step s) (ls ++ new) r' h hw' (fun t ht => hp t (by simp [ht]))
    refine ⟨new ++ new', r'', by simpa [World.run] using k1, ?_, k3⟩
    have : (w.run (s :: steps)).content = ((w.step s).run steps).content := rfl
    rw [this, k2, content_step]
    simp [written]

/-- all lines are there once there were enough reads -/
theorem reads_all (n0 : Nat) (d : List Bytes) (m : Nat) : ∀ (w : World) (ls : List Bytes) (r : Reader), Inv n0 d w ls r →
    Whole (w.content.drop n0) → (finishedLines (w.content.drop n0)).length ≤ m + ls.length →
    (w.run (List.replicate m (.read []))).delivered = d ++ shown (finishedLines (w.content.drop n0)) := by
  induction m with
  | zero =>
    intro w ls r hi hw hm
    have h1 : finishedLines (w.content.drop n0) = ls ++ finishedLines (r.staged ++ w.content.drop r.pos) := by
      rw [hi.unread, finished_lines ls hi.lines]
    rw [h1] at hm ⊢
    simp only [List.length_append, Nat.zero_add] at hm
    have h2 : finishedLines (r.staged ++ w.content.drop r.pos) = [] := List.eq_nil_of_length_eq_zero (by omega)
    rw [h2, List.append_nil]
    exact hi.shown
  | succ m ih =>
    intro w ls r hi hw hm
    obtain ⟨new, r', h1, h2, h3, -⟩ := read_inv n0 d w ls r hi hw [] (by simp)
    have hc : (w.step (.read [])).content = w.content := by rw [content_step]; simp [Step.pieces]
    have hrun : w.run (List.replicate (m + 1) (.read [])) = (w.step (.read [])).run (List.replicate m (.read [])) := rfl
    rw [hrun, ← hc]
    refine ih _ _ _ h1 (by rw [hc]; exact hw) ?_
    rw [hc]
    cases new with
    | nil =>
      have : finishedLines (w.content.drop n0) = ls := by
        rw [hi.unread, h3 rfl, List.append_nil]
        have := finished_lines ls hi.lines []
        simpa [finishedLines] using this
      rw [this]; simp
    | cons a t =>
      simp only [List.length_append, List.length_cons] at h2 ⊢
      omega

/-- from a good state on -/
theorem from_inv (n0 : Nat) (d : List Bytes) (w : World) (ls : List Bytes) (r : Reader) (hi : Inv n0 d w ls r)
    (hw : Whole (w.content.drop n0)) (steps : List Step) (hs : ∀ s ∈ steps, ∀ p ∈ s.pieces, Whole p) :
    ∃ n, (w.run steps).delivered = d ++ shown ((finishedLines (w.content.drop n0 ++ written steps)).take n) ∧
      ∀ m, (finishedLines (w.content.drop n0 ++ written steps)).length ≤ m + n →
        ((w.run steps).run (List.replicate m (.read []))).delivered =
          d ++ shown (finishedLines (w.content.drop n0 ++ written steps)) := by
  obtain ⟨new, r', k1, k2, k3⟩ := run_inv n0 d steps w ls r hi hw hs
  have hd : (w.run steps).content.drop n0 = w.content.drop n0 ++ written steps := by
    rw [k2, List.drop_append_of_le_length hi.n0]
  have hf : finishedLines (w.content.drop n0 ++ written steps) =
      (ls ++ new) ++ finishedLines (r'.staged ++ (w.run steps).content.drop r'.pos) := by
    rw [← hd, k1.unread, finished_lines _ k1.lines]
  refine ⟨(ls ++ new).length, ?_, ?_⟩
  · rw [hf, List.take_left', k1.shown]; rfl
  · intro m hm
    rw [← hd]
    rw [← hd] at hm
    exact reads_all n0 d m _ _ r' k1 k3 hm

/-! ## Passes -/

theorem readUntil_more (fss : Nat → FS) (j : Nat) : ∀ (fuel : Nat) (r : Reader) (acc : Bytes) (k : Nat) (x : Bytes × Reader × Nat),
    Reader.readUntil fuel fss r acc k = some x → Reader.readUntil (fuel + j) fss r acc k = some x := by
  intro fuel
  induction fuel with
  | zero => intro r acc k x h; simp [Reader.readUntil] at h
  | succ fuel ih =>
    intro r acc k x h
    rw [show fuel + 1 + j = (fuel + j) + 1 by omega]
    simp only [Reader.readUntil] at h ⊢
    by_cases he : (r.fill (fss k)).staged = []
    · simp only [he, if_true] at h ⊢; exact h
    · simp only [he, if_false] at h ⊢
      cases hs : splitLine (r.fill (fss k)).staged with
      | some lr => rw [hs] at h; exact h
      | none => rw [hs] at h; exact ih _ _ _ _ h

theorem readLine_more (fss : Nat → FS) (fuel j : Nat) (w : Watcher) (b : Bytes) (h : (w.readLine fuel fss b).1 ≠ .hangs) :
    w.readLine (fuel + j) fss b = w.readLine fuel fss b := by
  simp only [Watcher.readLine] at h ⊢
  generalize (if w.reopen = true then w.openAtStart (fss 0) else w) = w1 at h ⊢
  cases hr : w1.reader with
  | none => rfl
  | some r =>
    simp only [hr] at h ⊢
    generalize (if w1.previousSize > ((fss 0).files r.file).length then r.rewind else r) = r1 at h ⊢
    cases hu : r1.readUntil fuel fss [] 1 with
    | none => rw [hu] at h; simp at h
    | some x => rw [readUntil_more fss j fuel r1 [] 1 x hu]

theorem read_ends (n0 : Nat) (d : List Bytes) (w : World) (ls : List Bytes) (r : Reader) (hi : Inv n0 d w ls r) (during : List Bytes) :
    (w.watcher.readLine ((w.content ++ during.flatten).length + 2) (growing w.content during) []).1 ≠ .hangs := by
  obtain ⟨i1, i2, i3, i4, i5, i6, i7, i8, i9, i10⟩ := hi
  have hpre : ∀ k, w.content ++ (during.take (k - 1)).flatten <+: w.content ++ during.flatten := by
    intro k
    refine ⟨(during.drop (k - 1)).flatten, ?_⟩
    simp only [List.append_assoc, ← List.flatten_append, List.take_append_drop]
  have hinc : ∀ k, (w.content ++ (during.take (k - 1)).flatten).length ≤ (w.content ++ (during.take (k + 1 - 1)).flatten).length := by
    intro k
    have h1 : w.content ++ (during.take (k - 1)).flatten <+: w.content ++ (during.take (k + 1 - 1)).flatten := by
      refine ⟨((during.drop (k - 1)).take (k - (k - 1))).flatten, ?_⟩
      simp only [List.append_assoc, ← List.flatten_append]
      rw [← List.take_add]
      congr 3
      omega
    exact h1.length_le
  obtain ⟨l, r', k', g1, -⟩ := readUntil_spec (fun k => w.content ++ (during.take (k - 1)).flatten) (w.content ++ during.flatten)
    (growing w.content during) 0 (fun _ => rfl) hpre hinc ((w.content ++ during.flatten).length + 2) r [] 1 i2
    (by simp; exact i3) (by simp) (by split <;> omega)
  simp only [Watcher.readLine, i5, i1, Bool.false_eq_true, if_false]
  have hsz : ((growing w.content during 0).files r.file).length = w.content.length := by simp [growing, fsOf]
  rw [hsz]
  have hng : ¬ w.watcher.previousSize > w.content.length := by omega
  simp only [hng, if_false, g1]
  split
  · split
    · simp
    · simp
  · simp

theorem duringPass_zero (content : Bytes) (durings : List (List Bytes)) :
    duringPass content durings 0 = growing content (durings.headD []) := by
  cases durings <;> simp [duringPass]

theorem duringPass_succ (content : Bytes) (durings : List (List Bytes)) :
    (fun n => duringPass content durings (n + 1)) = duringPass (content ++ (durings.headD []).flatten) durings.tail := by
  funext n
  cases durings <;> simp [duringPass]

theorem headD_tail (durings : List (List Bytes)) : (durings.headD []).flatten ++ durings.tail.flatten.flatten = durings.flatten.flatten := by
  cases durings <;> simp

/-- a pass is a sequence of reads -/
theorem pollFile_inv (max fuel n0 : Nat) (d : List Bytes) : ∀ (turns : Nat) (durings : List (List Bytes)) (w : World) (ls : List Bytes)
    (r : Reader) (bytes : Nat) (lines : List Bytes), Inv n0 d w ls r → Whole (w.content.drop n0) → (∀ ps ∈ durings, ∀ p ∈ ps, Whole p) →
    (w.content ++ durings.flatten.flatten).length + 2 ≤ fuel →
    ∃ (ok : Bool) (more : List Bytes) (bytes' : Nat) (buf : Bytes) (w' : Watcher) (new : List Bytes) (r' : Reader),
      pollFile max fuel turns (duringPass w.content durings) w.watcher [] bytes lines = (ok, lines ++ more, bytes', buf, w') ∧
      Inv n0 d { content := w.content ++ durings.flatten.flatten, watcher := w', delivered := w.delivered ++ more } (ls ++ new) r' ∧
      (0 < turns → new = [] → r.staged ++ w.content.drop r.pos = []) := by
  intro turns
  induction turns with
  | zero =>
    intro durings w ls r bytes lines hi hw hd hf
    refine ⟨true, [], bytes, [], w.watcher, [], r, by simp [pollFile], ?_, by simp⟩
    have := append_inv n0 d w ls r hi durings.flatten.flatten
    simpa [World.step] using this
  | succ turns ih =>
    intro durings w ls r bytes lines hi hw hd hf
    have hd0 : ∀ p ∈ durings.headD [], Whole p := by
      cases durings with
      | nil => simp
      | cons x xs => simpa using hd x (by simp)
    have hdt : ∀ ps ∈ durings.tail, ∀ p ∈ ps, Whole p := fun ps hps => hd ps (List.mem_of_mem_tail hps)
    obtain ⟨new, r1, j1, j2, j3, -⟩ := read_inv n0 d w ls r hi hw (durings.headD []) hd0
    have hne := read_ends n0 d w ls r hi (durings.headD [])
    have hlen : (w.content ++ (durings.headD []).flatten).length + 2 ≤ fuel := by
      rw [← headD_tail] at hf
      simp only [List.length_append] at hf ⊢
      omega
    have hmore := readLine_more (growing w.content (durings.headD [])) _
      (fuel - ((w.content ++ (durings.headD []).flatten).length + 2)) w.watcher [] hne
    rw [show ((w.content ++ (durings.headD []).flatten).length + 2) + (fuel - ((w.content ++ (durings.headD []).flatten).length + 2)) = fuel
      by omega] at hmore
    -- the rest of what is appended
    have hap : ∀ (watcher : Watcher) (del ls' : List Bytes) (r' : Reader),
        Inv n0 d { content := w.content ++ (durings.headD []).flatten, watcher := watcher, delivered := del } ls' r' →
        Inv n0 d { content := w.content ++ durings.flatten.flatten, watcher := watcher, delivered := del } ls' r' := by
      intro watcher del ls' r' h
      have := append_inv n0 d _ ls' r' h durings.tail.flatten.flatten
      rw [← headD_tail, ← List.append_assoc]
      simpa [World.step] using this
    simp only [pollFile, duringPass_zero, duringPass_succ, hmore]
    simp only [World.step] at j1
    rcases hq : w.watcher.readLine ((w.content ++ (durings.headD []).flatten).length + 2) (growing w.content (durings.headD [])) []
      with ⟨o, b, w1⟩
    rw [hq] at j1 hne
    cases o with
    | hangs => exact absurd rfl hne
    | error =>
      simp only [World.took] at j1
      exact ⟨true, [], bytes, b, w1, new, r1, by simp, by simpa using hap _ _ _ _ j1, fun _ => j3⟩
    | panic =>
      simp only [World.took] at j1
      exact ⟨false, [], bytes, b, w1, new, r1, by simp, by simpa using hap _ _ _ _ j1, fun _ => j3⟩
    | ok n =>
      cases n with
      | zero =>
        simp only [World.took] at j1
        exact ⟨true, [], bytes, b, w1, new, r1, by simp, by simpa using hap _ _ _ _ j1, fun _ => j3⟩
      | succ n =>
        simp only [World.took] at j1
        simp only [Nat.succ_pos, gt_iff_lt, if_true]
        by_cases hm : bytes + (n + 1) > max
        · simp only [gt_iff_lt] at hm
          simp only [hm, if_true]
          exact ⟨true, [b], _, [], w1, new, r1, rfl, hap _ _ _ _ j1, fun _ => j3⟩
        · simp only [gt_iff_lt] at hm
          simp only [hm, if_false]
          have hw1 : Whole ((w.content ++ (durings.headD []).flatten).drop n0) := by
            rw [List.drop_append_of_le_length hi.n0]
            exact whole_append _ _ hw (whole_flatten _ hd0)
          obtain ⟨ok, more, bytes', buf, w2, new2, r2, q1, q2, -⟩ := ih durings.tail _ (ls ++ new) r1 (bytes + (n + 1)) (lines ++ [b]) j1 hw1
            hdt (by rw [← headD_tail] at hf; simpa [Nat.add_assoc] using hf)
          refine ⟨ok, b :: more, bytes', buf, w2, new ++ new2, r2, ?_, ?_, ?_⟩
          · rw [q1]; simp
          · rw [← headD_tail, ← List.append_assoc]
            simpa using q2
          · intro _ hn
            exact j3 (List.append_eq_nil_iff.1 hn).1

theorem pass_inv (max n0 : Nat) (d : List Bytes) (w : World) (ls : List Bytes) (r : Reader) (hi : Inv n0 d w ls r)
    (hw : Whole (w.content.drop n0)) (durings : List (List Bytes)) (hd : ∀ ps ∈ durings, ∀ p ∈ ps, Whole p) :
    ∃ new r', Inv n0 d (w.pass max durings) (ls ++ new) r' ∧ (w.pass max durings).content = w.content ++ durings.flatten.flatten ∧
      (new = [] → r.staged ++ w.content.drop r.pos = []) := by
  obtain ⟨ok, more, bytes', buf, w', new, r', h1, h2, h3⟩ := pollFile_inv max _ n0 d (max + 2) durings w ls r 0 [] hi hw hd (Nat.le_refl _)
  refine ⟨new, r', ?_, ?_, h3 (by omega)⟩
  · simp only [World.pass, h1, List.nil_append]; exact h2
  · simp only [World.pass, h1]

theorem serve_inv (max n0 : Nat) (d : List Bytes) : ∀ (events : List Event) (w : World) (ls : List Bytes) (r : Reader), Inv n0 d w ls r →
    Whole (w.content.drop n0) → (∀ e ∈ events, ∀ p ∈ e.pieces, Whole p) →
    ∃ new r', Inv n0 d (w.serve max events) (ls ++ new) r' ∧ (w.serve max events).content = w.content ++ Event.written events ∧
      Whole ((w.serve max events).content.drop n0) := by
  intro events
  induction events with
  | nil => intro w ls r hi hw _; exact ⟨[], r, by simpa [World.serve] using hi, by simp [World.serve, Event.written], hw⟩
  | cons e events ih =>
    intro w ls r hi hw hp
    have hps : ∀ p ∈ e.pieces, Whole p := hp e (by simp)
    have h1 : ∃ w1 new r', w.serve max (e :: events) = w1.serve max events ∧ Inv n0 d w1 (ls ++ new) r' ∧
        w1.content = w.content ++ e.pieces.flatten := by
      cases e with
      | append bs =>
        exact ⟨_, [], r, rfl, by simpa [World.step] using append_inv n0 d w ls r hi bs, by simp [Event.pieces]⟩
      | pass durings =>
        obtain ⟨new, r', a1, a2, -⟩ := pass_inv max n0 d w ls r hi hw durings (fun ps hps' p hp' =>
          hps p (by simp only [Event.pieces]; exact List.mem_flatten.2 ⟨ps, hps', hp'⟩))
        exact ⟨_, new, r', rfl, a1, a2⟩
    obtain ⟨w1, new, r', e1, e2, e3⟩ := h1
    have hw' : Whole (w1.content.drop n0) := by
      rw [e3, List.drop_append_of_le_length hi.n0]
      exact whole_append _ _ hw (whole_flatten _ hps)
    obtain ⟨new', r'', k1, k2, k3⟩ := ih w1 (ls ++ new) r' e2 hw' (fun t ht => hp t (by simp [ht]))
    refine ⟨new ++ new', r'', by rw [e1]; simpa using k1, ?_, by rw [e1]; exact k3⟩
    rw [e1, k2, e3]
    simp [Event.written]

/-- all lines are there once there were enough passes -/
theorem passes_all (max n0 : Nat) (d : List Bytes) (m : Nat) : ∀ (w : World) (ls : List Bytes) (r : Reader), Inv n0 d w ls r →
    Whole (w.content.drop n0) → (finishedLines (w.content.drop n0)).length ≤ m + ls.length →
    (w.serve max (List.replicate m (.pass []))).delivered = d ++ shown (finishedLines (w.content.drop n0)) := by
  induction m with
  | zero =>
    intro w ls r hi hw hm
    exact reads_all n0 d 0 w ls r hi hw hm
  | succ m ih =>
    intro w ls r hi hw hm
    obtain ⟨new, r', h1, hc, h3⟩ := pass_inv max n0 d w ls r hi hw [] (by simp)
    simp only [List.flatten_nil, List.append_nil] at hc
    have hrun : w.serve max (List.replicate (m + 1) (.pass [])) = (w.pass max []).serve max (List.replicate m (.pass [])) := rfl
    rw [hrun, ← hc]
    refine ih _ _ _ h1 (by rw [hc]; exact hw) ?_
    rw [hc]
    cases new with
    | nil =>
      have : finishedLines (w.content.drop n0) = ls := by
        rw [hi.unread, h3 rfl, List.append_nil]
        have := finished_lines ls hi.lines []
        simpa [finishedLines] using this
      rw [this]; simp
    | cons a t =>
      simp only [List.length_append, List.length_cons]
      omega

end Verif.FileBytes
