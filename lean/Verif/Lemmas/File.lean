import Verif.Spec.File
/-! # Lemmas about file tailing -/
namespace Verif.File

theorem size_append (a b : Text) : size (a ++ b) = size a + size b := by
  simp [size]

theorem size_pos {t : Text} (h : t ≠ []) : 0 < size t := by
  cases t with
  | nil => exact absurd rfl h
  | cons c t =>
    have := Char.utf8Size_pos c
    simp only [size, List.map_cons, List.sum_cons]; omega

theorem joinLines_append (a b : List Text) : joinLines (a ++ b) = joinLines a ++ joinLines b := by
  simp [joinLines]

theorem takeLine_line (l rest : Text) (h : '\n' ∉ l) :
    takeLine (l ++ '\n' :: rest) = l ++ ['\n'] := by
  induction l with
  | nil => simp [takeLine]
  | cons c l ih =>
    simp only [List.mem_cons, not_or] at h
    simp only [List.cons_append, takeLine, if_neg (fun e => h.1 (Eq.symm e)), ih h.2]

/-- the watcher is reading the file the path names -/
structure Current (w : World) (pending : List Text) (i pos : Nat) : Prop where
  reader : w.watcher.reader = some (i, pos)
  path : w.fs.paths w.watcher.path = some i
  fileId : w.watcher.fileId = some i
  reopen : w.watcher.reopen = false
  rest : (w.fs.files i).drop pos = joinLines pending
  pos : pos ≤ (w.fs.files i).length
  size : w.watcher.previousSize ≤ size (w.fs.files i)
  fresh : i < w.next

/-- the path names a newer file than the one being read -/
structure Behind (w : World) (old new : List Text) (i pos j : Nat) : Prop where
  reader : w.watcher.reader = some (i, pos)
  path : w.fs.paths w.watcher.path = some j
  fileId : w.watcher.fileId = some i
  reopen : w.watcher.reopen = true → old = []
  rest : (w.fs.files i).drop pos = joinLines old
  content : w.fs.files j = joinLines new
  size : w.watcher.previousSize ≤ size (w.fs.files i)
  lt : i < j
  fresh : j < w.next

def Inv (w : World) (pending : List Text) : Prop :=
  (∀ l ∈ pending, Line l) ∧
  ((∃ i pos, Current w pending i pos) ∨
   (∃ old new i pos j, Behind w old new i pos j ∧ pending = old ++ new))

theorem joinLines_cons (l : Text) (ls : List Text) : joinLines (l :: ls) = l ++ '\n' :: joinLines ls := by
  simp [joinLines]

/-- reading from an open file that is not to be reopened -/
theorem readLine_open (fs : FS) (w : Watcher) (i pos : Nat) (ls : List Text)
    (hr : w.reader = some (i, pos)) (hre : w.reopen = false)
    (hrest : (fs.files i).drop pos = joinLines ls)
    (hsz : w.previousSize ≤ size (fs.files i)) (hl : ∀ l ∈ ls, '\n' ∉ l) :
    w.readLine fs = match ls with
      | [] => ((0, []), { w with previousSize := size (fs.files i), reopen := decide (fs.fileId w.path ≠ w.fileId) })
      | l :: _ => ((size l, l), { w with previousSize := size (fs.files i), reader := some (i, pos + (l.length + 1)) }) := by
  obtain ⟨p, r, f, ps, re⟩ := w
  simp only at hr hre hsz
  subst hr hre
  simp only [Watcher.readLine, Bool.false_eq_true, if_false, if_neg (Nat.not_lt.2 hsz), hrest]
  cases ls with
  | nil => simp [joinLines, takeLine]
  | cons l ls =>
    have := takeLine_line l (joinLines ls) (hl l (by simp))
    rw [joinLines_cons, this]
    simp [pop]

theorem drop_line (t l : Text) (ls : List Text) (pos : Nat) (h : t.drop pos = joinLines (l :: ls)) :
    t.drop (pos + (l.length + 1)) = joinLines ls ∧ pos + (l.length + 1) ≤ t.length := by
  constructor
  · rw [← List.drop_drop, h, joinLines_cons]
    have : l ++ '\n' :: joinLines ls = (l ++ ['\n']) ++ joinLines ls := by simp
    rw [this, List.drop_left' (by simp)]
  · have := congrArg List.length h
    rw [joinLines_cons] at this
    simp only [List.length_drop, List.length_append, List.length_cons] at this
    omega

theorem read_current (w : World) (pending : List Text) (i pos : Nat) (h : Current w pending i pos)
    (hl : ∀ l ∈ pending, Line l) :
    (w.step .read).delivered = w.delivered ++ pending.take 1 ∧
      ∃ pos', Current (w.step .read) (pending.drop 1) i pos' := by
  have hr := readLine_open w.fs w.watcher i pos pending h.reader h.reopen h.rest h.size fun l h => (hl l h).2
  cases pending with
  | nil =>
    simp only at hr
    refine ⟨by simp [World.step, hr], pos, ?_⟩
    simp only [World.step, hr]
    exact ⟨h.reader, h.path, h.fileId, by simp [FS.fileId, h.path, h.fileId], h.rest, h.pos,
      Nat.le_refl _, h.fresh⟩
  | cons l ls =>
    simp only at hr
    obtain ⟨d1, d2⟩ := drop_line _ _ _ _ h.rest
    have hz := size_pos (hl l (by simp)).1
    refine ⟨by simp [World.step, hr, hz], pos + (l.length + 1), ?_⟩
    simp only [World.step, hr]
    exact ⟨rfl, h.path, h.fileId, h.reopen, d1, d2, Nat.le_refl _, h.fresh⟩

theorem read_behind (w : World) (old new : List Text) (i pos j : Nat) (h : Behind w old new i pos j)
    (hl : ∀ l ∈ old, Line l) (hre : w.watcher.reopen = false) :
    (w.step .read).delivered = w.delivered ++ old.take 1 ∧
      (w.step .read).watcher.reopen = old.isEmpty ∧
      ∃ pos', Behind (w.step .read) (old.drop 1) new i pos' j := by
  have hr := readLine_open w.fs w.watcher i pos old h.reader hre h.rest h.size (fun l h => (hl l h).2)
  have hne : j ≠ i := (Nat.ne_of_lt h.lt).symm
  cases old with
  | nil =>
    simp only at hr
    refine ⟨by simp [World.step, hr], ?_, pos, ?_⟩
    · simp [World.step, hr, FS.fileId, h.path, h.fileId, hne]
    · simp only [World.step, hr]
      exact ⟨h.reader, h.path, h.fileId, by simp, h.rest, h.content, Nat.le_refl _, h.lt, h.fresh⟩
  | cons l ls =>
    simp only at hr
    obtain ⟨d1, d2⟩ := drop_line _ _ _ _ h.rest
    have hz := size_pos (hl l (by simp)).1
    refine ⟨by simp [World.step, hr, hz], by simp [World.step, hr, hre], pos + (l.length + 1), ?_⟩
    simp only [World.step, hr]
    exact ⟨rfl, h.path, h.fileId, by simp [hre], d1, h.content, Nat.le_refl _, h.lt, h.fresh⟩

theorem read_reopen (w : World) (new : List Text) (i pos j : Nat) (h : Behind w [] new i pos j)
    (hl : ∀ l ∈ new, Line l) (hre : w.watcher.reopen = true) :
    (w.step .read).delivered = w.delivered ++ new.take 1 ∧
      ∃ pos', Current (w.step .read) (new.drop 1) j pos' := by
  have hw1 : w.watcher.openAtStart w.fs =
      { w.watcher with fileId := some j, previousSize := size (w.fs.files j), reader := some (j, 0), reopen := false } := by
    simp only [Watcher.openAtStart, h.path]
  have heq : w.watcher.readLine w.fs = (w.watcher.openAtStart w.fs).readLine w.fs := by
    rw [hw1]
    conv => lhs; unfold Watcher.readLine
    simp only [hre, if_true, hw1]
    rfl
  have hr := readLine_open w.fs (w.watcher.openAtStart w.fs) j 0 new (by rw [hw1]) (by rw [hw1])
    (by simpa using h.content) (by rw [hw1]; exact Nat.le_refl _) (fun l h => (hl l h).2)
  rw [← heq, hw1] at hr
  cases new with
  | nil =>
    simp only at hr
    refine ⟨by simp [World.step, hr], 0, ?_⟩
    simp only [World.step, hr]
    exact ⟨rfl, h.path, rfl, by simp [FS.fileId, h.path], by simpa using h.content,
      Nat.zero_le _, Nat.le_refl _, h.fresh⟩
  | cons l ls =>
    simp only at hr
    obtain ⟨d1, d2⟩ := drop_line (w.fs.files j) l ls 0 (by simpa using h.content)
    have hz := size_pos (hl l (by simp)).1
    refine ⟨by simp [World.step, hr, hz], 0 + (l.length + 1), ?_⟩
    simp only [World.step, hr]
    exact ⟨rfl, h.path, rfl, rfl, d1, d2, Nat.le_refl _, h.fresh⟩

theorem inv_step (w : World) (pending : List Text) (s : Step) (h : Inv w pending)
    (hs : Whole s.text) (hc : ∀ t, s = .rotate t → w.caughtUp) :
    ∃ out add pending', (w.step s).delivered = w.delivered ++ out ∧ s.text = joinLines add ∧
      (∀ l ∈ add, Line l) ∧ pending ++ add = out ++ pending' ∧ Inv (w.step s) pending' := by
  obtain ⟨hl, h⟩ := h
  cases s with
  | append t =>
    obtain ⟨add, ht, ha⟩ := hs
    simp only [Step.text] at ht
    subst ht
    have hl' : ∀ l ∈ pending ++ add, Line l := by
      intro l hm
      rcases List.mem_append.1 hm with hm | hm
      · exact hl l hm
      · exact ha l hm
    rcases h with ⟨i, pos, h⟩ | ⟨old, new, i, pos, j, h, rfl⟩
    · refine ⟨[], add, pending ++ add, ?_, rfl, ha, rfl, hl', Or.inl ⟨i, pos, ?_⟩⟩
      · simp [World.step, h.path]
      · simp only [World.step, h.path]
        refine ⟨h.reader, h.path, h.fileId, h.reopen, ?_, ?_, ?_, h.fresh⟩
        · simp only [if_true, joinLines_append]
          rw [List.drop_append_of_le_length h.pos, h.rest]
        · simp only [if_true, List.length_append]; have := h.pos; omega
        · simp only [if_true, size_append]; have := h.size; omega
    · refine ⟨[], add, old ++ new ++ add, ?_, rfl, ha, rfl, hl',
        Or.inr ⟨old, new ++ add, i, pos, j, ?_, by simp⟩⟩
      · simp [World.step, h.path]
      · simp only [World.step, h.path]
        have hne : i ≠ j := Nat.ne_of_lt h.lt
        refine ⟨h.reader, h.path, h.fileId, h.reopen, ?_, ?_, ?_, h.lt, h.fresh⟩
        · simp only [if_neg hne]; exact h.rest
        · simp only [if_true, joinLines_append, h.content]
        · simp only [if_neg hne]; exact h.size
  | rotate t =>
    obtain ⟨add, ht, ha⟩ := hs
    simp only [Step.text] at ht
    subst ht
    have hl' : ∀ l ∈ pending ++ add, Line l := by
      intro l hm
      rcases List.mem_append.1 hm with hm | hm
      · exact hl l hm
      · exact ha l hm
    obtain ⟨i0, pos0, c1, c2⟩ := hc _ rfl
    rcases h with ⟨i, pos, h⟩ | ⟨old, new, i, pos, j, h, rfl⟩
    · refine ⟨[], add, pending ++ add, by simp [World.step], rfl, ha, rfl, hl',
        Or.inr ⟨pending, add, i, pos, w.next, ?_, rfl⟩⟩
      have hne : i ≠ w.next := Nat.ne_of_lt h.fresh
      simp only [World.step]
      refine ⟨h.reader, by simp, h.fileId, by simp [h.reopen], ?_, by simp, ?_, h.fresh, by simp⟩
      · simp only [if_neg hne]; exact h.rest
      · simp only [if_neg hne]; exact h.size
    · rw [h.reader] at c1
      simp only [Option.some.injEq, Prod.mk.injEq] at c1
      rw [h.path] at c2
      simp only [Option.some.injEq] at c2
      have := h.lt
      omega
  | read =>
    have hdrop : ∀ (ls : List Text), (∀ l ∈ ls, Line l) → ∀ l ∈ ls.drop 1, Line l :=
      fun ls hls l hm => hls l (List.mem_of_mem_drop hm)
    rcases h with ⟨i, pos, h⟩ | ⟨old, new, i, pos, j, h, rfl⟩
    · obtain ⟨r1, pos', r2⟩ := read_current w pending i pos h hl
      exact ⟨_, [], pending.drop 1, r1, rfl, by simp, by rw [List.append_nil, List.take_append_drop], hdrop _ hl, Or.inl ⟨i, pos', r2⟩⟩
    · have hlo : ∀ l ∈ old, Line l := fun l hm => hl l (by simp [hm])
      have hln : ∀ l ∈ new, Line l := fun l hm => hl l (by simp [hm])
      cases hre : w.watcher.reopen with
      | false =>
        obtain ⟨r1, -, pos', r2⟩ := read_behind w old new i pos j h hlo hre
        refine ⟨_, [], old.drop 1 ++ new, r1, rfl, by simp, by rw [List.append_nil, ← List.append_assoc, List.take_append_drop], ?_,
          Or.inr ⟨_, _, i, pos', j, r2, rfl⟩⟩
        intro l hm
        rcases List.mem_append.1 hm with hm | hm
        · exact hdrop _ hlo l hm
        · exact hln l hm
      | true =>
        have hold := h.reopen hre
        subst hold
        obtain ⟨r1, pos', r2⟩ := read_reopen w new i pos j h hln hre
        exact ⟨_, [], new.drop 1, r1, rfl, by simp, by rw [List.append_nil, List.nil_append, List.take_append_drop], hdrop _ hln, Or.inl ⟨j, pos', r2⟩⟩

theorem inv_run (steps : List Step) (w : World) (pending : List Text) (h : Inv w pending)
    (hs : ∀ s ∈ steps, Whole s.text) (hu : Unhurried w steps) :
    ∃ out add pending', (w.run steps).delivered = w.delivered ++ out ∧
      written steps = joinLines add ∧ (∀ l ∈ add, Line l) ∧ pending ++ add = out ++ pending' ∧
      Inv (w.run steps) pending' := by
  induction steps generalizing w pending with
  | nil => exact ⟨[], [], pending, by simp [World.run], rfl, by simp, by simp, h⟩
  | cons s steps ih =>
    obtain ⟨u1, u2⟩ := hu
    obtain ⟨o1, a1, p1, e1, e2, e3, e4, e5⟩ := inv_step w pending s h (hs s (by simp)) u1
    obtain ⟨o2, a2, p2, f1, f2, f3, f4, f5⟩ := ih (w.step s) p1 e5 (fun x hx => hs x (by simp [hx])) u2
    refine ⟨o1 ++ o2, a1 ++ a2, p2, ?_, ?_, ?_, ?_, f5⟩
    · have : w.run (s :: steps) = (w.step s).run steps := rfl
      rw [this, f1, e1]; simp
    · have : written (s :: steps) = s.text ++ written steps := by simp [written]
      rw [this, e2, f2, joinLines_append]
    · intro l hm
      rcases List.mem_append.1 hm with hm | hm
      · exact e3 l hm
      · exact f3 l hm
    · rw [← List.append_assoc, e4, List.append_assoc, f4, List.append_assoc]

theorem run_reads_succ (w : World) (n : Nat) :
    w.run (List.replicate (n + 1) .read) = (w.step .read).run (List.replicate n .read) := by
  rw [List.replicate_succ]; rfl

theorem drain_current (n : Nat) : ∀ (w : World) (pending : List Text) (i pos : Nat),
    Current w pending i pos → (∀ l ∈ pending, Line l) → pending.length ≤ n →
    (w.run (List.replicate n .read)).delivered = w.delivered ++ pending := by
  induction n with
  | zero =>
    intro w pending i pos h hl hn
    have : pending = [] := List.eq_nil_of_length_eq_zero (by omega)
    subst this; simp [World.run]
  | succ n ih =>
    intro w pending i pos h hl hn
    obtain ⟨r1, pos', r2⟩ := read_current w pending i pos h hl
    rw [run_reads_succ, ih _ _ i pos' r2 (fun l hm => hl l (List.mem_of_mem_drop hm))
      (by simp only [List.length_drop]; omega), r1, List.append_assoc, List.take_append_drop]

theorem drain_reopen (n : Nat) (w : World) (new : List Text) (i pos j : Nat)
    (h : Behind w [] new i pos j) (hl : ∀ l ∈ new, Line l) (hre : w.watcher.reopen = true)
    (hn : new.length ≤ n) : (w.run (List.replicate n .read)).delivered = w.delivered ++ new := by
  cases n with
  | zero =>
    have : new = [] := List.eq_nil_of_length_eq_zero (by omega)
    subst this; simp [World.run]
  | succ n =>
    obtain ⟨r1, pos', r2⟩ := read_reopen w new i pos j h hl hre
    rw [run_reads_succ, drain_current n _ _ j pos' r2 (fun l hm => hl l (List.mem_of_mem_drop hm))
      (by simp only [List.length_drop]; omega), r1, List.append_assoc, List.take_append_drop]

theorem drain_behind (n : Nat) : ∀ (w : World) (old new : List Text) (i pos j : Nat),
    Behind w old new i pos j → (∀ l ∈ old, Line l) → (∀ l ∈ new, Line l) →
    w.watcher.reopen = false → old.length + 1 + new.length ≤ n →
    (w.run (List.replicate n .read)).delivered = w.delivered ++ (old ++ new) := by
  induction n with
  | zero => intro w old new i pos j h ho hln hre hn; omega
  | succ n ih =>
    intro w old new i pos j h ho hln hre hn
    obtain ⟨r1, r3, pos', r2⟩ := read_behind w old new i pos j h ho hre
    rw [run_reads_succ]
    cases old with
    | nil =>
      rw [drain_reopen n _ _ i pos' j r2 hln r3 (by simp at hn; omega), r1]; simp
    | cons l ls =>
      rw [ih _ _ _ i pos' j r2 (fun l hm => ho l (List.mem_of_mem_drop hm)) hln r3
        (by simp at hn ⊢; omega), r1]; simp

/-- one read more than there are pending lines delivers all of them -/
theorem inv_drain (n : Nat) (w : World) (pending : List Text) (h : Inv w pending)
    (hn : pending.length + 1 ≤ n) :
    (w.run (List.replicate n .read)).delivered = w.delivered ++ pending := by
  obtain ⟨hl, h⟩ := h
  rcases h with ⟨i, pos, h⟩ | ⟨old, new, i, pos, j, h, rfl⟩
  · exact drain_current n w pending i pos h hl (by omega)
  · have hlo : ∀ l ∈ old, Line l := fun l hm => hl l (by simp [hm])
    have hln : ∀ l ∈ new, Line l := fun l hm => hl l (by simp [hm])
    simp only [List.length_append] at hn
    cases hre : w.watcher.reopen with
    | false => exact drain_behind n w old new i pos j h hlo hln hre (by omega)
    | true =>
      have := h.reopen hre
      subst this
      exact drain_reopen n w new i pos j h hln hre (by simp at hn; omega)

/-! ## Rotations at any time -/

/-- `before` is the text of the files gone through, `current` that of the file the path names. -/
def Keeps (w : World) (before current : Text) : Prop :=
  (∀ l ∈ w.delivered, Line l) ∧
  ((∃ pending i pos, Current w pending i pos ∧ (∀ l ∈ pending, Line l) ∧ joinLines (w.delivered ++ pending) = before ++ current) ∨
   (∃ old new i pos j, Behind w old new i pos j ∧ (∀ l ∈ old ++ new, Line l) ∧ joinLines (w.delivered ++ old) = before ∧ current = joinLines new))

theorem keeps_append (w : World) (before current t : Text) (h : Keeps w before current) (ht : Whole t) :
    Keeps (w.step (.append t)) before (current ++ t) := by
  obtain ⟨hd, h⟩ := h
  obtain ⟨add, rfl, ha⟩ := ht
  have hdel : (w.step (.append (joinLines add))).delivered = w.delivered := by
    simp only [World.step]; split <;> rfl
  refine ⟨by rw [hdel]; exact hd, ?_⟩
  rw [hdel]
  rcases h with ⟨pending, i, pos, h, hl, e⟩ | ⟨old, new, i, pos, j, h, hl, e1, e2⟩
  · refine Or.inl ⟨pending ++ add, i, pos, ?_, fun l hm => (List.mem_append.1 hm).elim (hl l) (ha l), ?_⟩
    · simp only [World.step, h.path]
      refine ⟨h.reader, h.path, h.fileId, h.reopen, ?_, ?_, ?_, h.fresh⟩
      · simp only [if_true, joinLines_append]
        rw [List.drop_append_of_le_length h.pos, h.rest]
      · simp only [if_true, List.length_append]; have := h.pos; omega
      · simp only [if_true, size_append]; have := h.size; omega
    · rw [← List.append_assoc, joinLines_append, e, List.append_assoc]
  · refine Or.inr ⟨old, new ++ add, i, pos, j, ?_, ?_, e1, by rw [e2, joinLines_append]⟩
    · simp only [World.step, h.path]
      have hne : i ≠ j := Nat.ne_of_lt h.lt
      refine ⟨h.reader, h.path, h.fileId, h.reopen, ?_, ?_, ?_, h.lt, h.fresh⟩
      · simp only [if_neg hne]; exact h.rest
      · simp only [if_true, joinLines_append, h.content]
      · simp only [if_neg hne]; exact h.size
    · intro l hm
      rw [← List.append_assoc] at hm
      exact (List.mem_append.1 hm).elim (hl l) (ha l)

theorem keeps_rotate (w : World) (before current t : Text) (h : Keeps w before current) (ht : Whole t) :
    Keeps (w.step (.rotate t)) (before ++ if w.caughtUp then current else []) t := by
  obtain ⟨hd, h⟩ := h
  obtain ⟨add, rfl, ha⟩ := ht
  refine ⟨hd, ?_⟩
  rcases h with ⟨pending, i, pos, h, hl, e⟩ | ⟨old, new, i, pos, j, h, hl, e1, e2⟩
  · have hc : w.caughtUp := ⟨i, pos, h.reader, h.path⟩
    rw [if_pos hc]
    refine Or.inr ⟨pending, add, i, pos, w.next, ?_, fun l hm => (List.mem_append.1 hm).elim (hl l) (ha l), e, rfl⟩
    have hne : i ≠ w.next := Nat.ne_of_lt h.fresh
    simp only [World.step]
    refine ⟨h.reader, by simp, h.fileId, by simp [h.reopen], ?_, by simp, ?_, h.fresh, by simp⟩
    · simp only [if_neg hne]; exact h.rest
    · simp only [if_neg hne]; exact h.size
  · have hc : ¬ w.caughtUp := by
      rintro ⟨i', pos', g1, g2⟩
      rw [h.reader, Option.some.injEq, Prod.mk.injEq] at g1
      rw [h.path, Option.some.injEq] at g2
      have := h.lt
      omega
    rw [if_neg hc, List.append_nil]
    refine Or.inr ⟨old, add, i, pos, w.next, ?_, ?_, e1, rfl⟩
    · have hi : i < w.next := Nat.lt_trans h.lt h.fresh
      have hne : i ≠ w.next := Nat.ne_of_lt hi
      simp only [World.step]
      refine ⟨h.reader, by simp, h.fileId, h.reopen, ?_, by simp, ?_, hi, by simp⟩
      · simp only [if_neg hne]; exact h.rest
      · simp only [if_neg hne]; exact h.size
    · intro l hm
      exact (List.mem_append.1 hm).elim (fun hm => hl l (List.mem_append_left _ hm)) (ha l)

theorem keeps_read (w : World) (before current : Text) (h : Keeps w before current) : Keeps (w.step .read) before current := by
  obtain ⟨hd, h⟩ := h
  have hdrop : ∀ (ls : List Text), (∀ l ∈ ls, Line l) → ∀ l ∈ ls.drop 1, Line l := fun ls hls l hm => hls l (List.mem_of_mem_drop hm)
  have htake : ∀ (ls : List Text), (∀ l ∈ ls, Line l) → ∀ l ∈ w.delivered ++ ls.take 1, Line l :=
    fun ls hls l hm => (List.mem_append.1 hm).elim (hd l) fun hm => hls l (List.mem_of_mem_take hm)
  rcases h with ⟨pending, i, pos, h, hl, e⟩ | ⟨old, new, i, pos, j, h, hl, e1, e2⟩
  · obtain ⟨r1, pos', r2⟩ := read_current w pending i pos h hl
    refine ⟨by rw [r1]; exact htake _ hl, Or.inl ⟨_, i, pos', r2, hdrop _ hl, ?_⟩⟩
    rw [r1, List.append_assoc, List.take_append_drop, e]
  · have hlo : ∀ l ∈ old, Line l := fun l hm => hl l (by simp [hm])
    have hln : ∀ l ∈ new, Line l := fun l hm => hl l (by simp [hm])
    cases hre : w.watcher.reopen with
    | false =>
      obtain ⟨r1, -, pos', r2⟩ := read_behind w old new i pos j h hlo hre
      refine ⟨by rw [r1]; exact htake _ hlo, Or.inr ⟨_, _, i, pos', j, r2, fun l hm => (List.mem_append.1 hm).elim (hdrop _ hlo l) (hln l), ?_, e2⟩⟩
      rw [r1, List.append_assoc, List.take_append_drop, e1]
    | true =>
      have hold := h.reopen hre
      subst hold
      obtain ⟨r1, pos', r2⟩ := read_reopen w new i pos j h hln hre
      refine ⟨by rw [r1]; exact htake _ hln, Or.inl ⟨_, j, pos', r2, hdrop _ hln, ?_⟩⟩
      rw [r1, List.append_assoc, List.take_append_drop, joinLines_append, e2, ← e1, List.append_nil]

theorem keeps_run (steps : List Step) : ∀ (w : World) (before current : Text), Keeps w before current → (∀ s ∈ steps, Whole s.text) →
    ∃ before' current', Keeps (w.run steps) before' current' ∧ before' ++ current' = before ++ notSkipped w current steps := by
  induction steps with
  | nil => intro w before current h _; exact ⟨before, current, h, rfl⟩
  | cons s steps ih =>
    intro w before current h hs
    have hw := hs s (by simp)
    have hs' : ∀ x ∈ steps, Whole x.text := fun x hx => hs x (by simp [hx])
    cases s with
    | append t => exact ih _ _ _ (keeps_append w before current t h hw) hs'
    | rotate t =>
      obtain ⟨b, c, h1, h2⟩ := ih _ _ _ (keeps_rotate w before current t h hw) hs'
      exact ⟨b, c, h1, by rw [h2, List.append_assoc]; rfl⟩
    | read => exact ih _ _ _ (keeps_read w before current h) hs'

theorem keeps_inv (w : World) (before current : Text) (h : Keeps w before current) :
    ∃ pending, Inv w pending ∧ joinLines (w.delivered ++ pending) = before ++ current := by
  obtain ⟨-, h⟩ := h
  rcases h with ⟨pending, i, pos, h, hl, e⟩ | ⟨old, new, i, pos, j, h, hl, e1, e2⟩
  · exact ⟨pending, ⟨hl, Or.inl ⟨i, pos, h⟩⟩, e⟩
  · exact ⟨old ++ new, ⟨hl, Or.inr ⟨old, new, i, pos, j, h, rfl⟩⟩, by rw [← List.append_assoc, joinLines_append, e1, e2]⟩

end Verif.File
