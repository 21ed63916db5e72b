import Verif.Lemmas.File
/-!
# C37, C38, C39, C68 — the file source
-/
namespace Verif
open File

private theorem inv_start (content : Text) (path : Str) : Inv (World.start content path) [] := by
  refine ⟨by simp, Or.inl ⟨0, content.length, ?_⟩⟩
  simp only [World.start, Watcher.new]
  exact ⟨by simp, rfl, rfl, rfl, by simp [joinLines], by simp, Nat.zero_le _, by simp⟩

private theorem tail_spec (content : Text) (path : Str) (steps : List Step)
    (hs : ∀ s ∈ steps, Whole s.text) (hu : Unhurried (World.start content path) steps) :
    ∃ pending, written steps = joinLines (((World.start content path).run steps).delivered ++ pending) ∧
      (∀ l ∈ ((World.start content path).run steps).delivered ++ pending, Line l) ∧
      ∀ n, pending.length + 1 ≤ n →
        (((World.start content path).run steps).run (List.replicate n .read)).delivered =
          ((World.start content path).run steps).delivered ++ pending := by
  obtain ⟨out, add, pending, e1, e2, e3, e4, e5⟩ :=
    inv_run steps _ [] (inv_start content path) hs hu
  have hd : ((World.start content path).run steps).delivered = out := by
    rw [e1]; simp [World.start]
  rw [List.nil_append] at e4
  refine ⟨pending, ?_, ?_, fun n hn => inv_drain n _ pending e5 hn⟩
  · rw [hd, ← e4, e2]
  · rw [hd, ← e4]; exact e3

private theorem unhurried_of_grows (steps : List Step) (h : ∀ s ∈ steps, s.grows) :
    ∀ w, Unhurried w steps := by
  induction steps with
  | nil => intro w; trivial
  | cons s steps ih =>
    intro w
    refine ⟨?_, ih (fun x hx => h x (by simp [hx])) _⟩
    intro t ht
    have := h s (by simp)
    subst ht
    exact this.elim

/-- **C37 (part).**  A path is watched whose file already has `content`.  However appends
of whole, non-blank lines and reads interleave, what was appended is exactly the lines
delivered so far followed by pending lines, as lines, in order; and any number of further
reads that exceeds the number of pending lines delivers exactly the pending lines.  What was
in the file before is never delivered.  Missing from the full statement: partial lines and
blank lines, see below. -/
theorem C37_lines_once_partial (content : Text) (path : Str) (steps : List Step)
    (hg : ∀ s ∈ steps, s.grows) (hs : ∀ s ∈ steps, Whole s.text) :
    ∃ pending, written steps = joinLines (((World.start content path).run steps).delivered ++ pending) ∧
      (∀ l ∈ ((World.start content path).run steps).delivered ++ pending, Line l) ∧
      ∀ n, pending.length + 1 ≤ n →
        (((World.start content path).run steps).run (List.replicate n .read)).delivered =
          ((World.start content path).run steps).delivered ++ pending :=
  tail_spec content path steps hs (unhurried_of_grows steps hg _)

example : (∀ s ∈ [Step.append "ab\nc\n".toList, .read, .append "d\n".toList, .read, .read], s.grows) ∧
    (∀ s ∈ [Step.append "ab\nc\n".toList, .read, .append "d\n".toList, .read, .read], Whole s.text) ∧
    ((World.start "old\n".toList []).run
      [Step.append "ab\nc\n".toList, .read, .append "d\n".toList, .read, .read]).delivered =
      ["ab".toList, "c".toList, "d".toList] := by
  refine ⟨by simp [Step.grows], ?_, by decide⟩
  intro s hs
  simp only [List.mem_cons, List.not_mem_nil, or_false] at hs
  rcases hs with h | h | h | h | h <;> subst h
  · exact ⟨["ab".toList, "c".toList], by decide, by simp [Line]⟩
  · exact ⟨[], by decide, by simp⟩
  · exact ⟨["d".toList], by decide, by simp [Line]⟩
  · exact ⟨[], by decide, by simp⟩
  · exact ⟨[], by decide, by simp⟩

private theorem takeLine_eq (t : Text) : takeLine t = firstLine t := by
  induction t with
  | nil => rfl
  | cons c t ih =>
    by_cases h : c = '\n'
    · subst h; simp [takeLine, firstLine]
    · simp [takeLine, firstLine, h, ih] at *

/-- the watcher reads the only file there is, and `unread` is the rest of it -/
private structure Tailing (w : World) (unread : Text) : Prop where
  path : w.fs.paths w.watcher.path = some 0
  fileId : w.watcher.fileId = some 0
  reopen : w.watcher.reopen = false
  size : w.watcher.previousSize ≤ size (w.fs.files 0)
  reader : ∃ pos, w.watcher.reader = some (0, pos) ∧ pos ≤ (w.fs.files 0).length ∧ (w.fs.files 0).drop pos = unread

private theorem tailing_append (w : World) (unread t : Text) (h : Tailing w unread) :
    Tailing (w.step (.append t)) (unread ++ t) ∧ (w.step (.append t)).delivered = w.delivered := by
  obtain ⟨pos, h1, h2, h3⟩ := h.reader
  simp only [World.step, h.path]
  refine ⟨⟨h.path, h.fileId, h.reopen, ?_, pos, h1, ?_, ?_⟩, trivial⟩
  · have := h.size; simp only [if_true, size_append]; omega
  · simp only [if_true, List.length_append]; omega
  · simp only [if_true, List.drop_append_of_le_length h2, h3]

private theorem tailing_read (w : World) (unread : Text) (h : Tailing w unread) :
    Tailing (w.step .read) (unread.drop (firstLine unread).length) ∧
      (w.step .read).delivered = w.delivered ++ [(firstLine unread).dropLast].filter (· ≠ []) := by
  obtain ⟨pos, h1, h2, h3⟩ := h.reader
  have hr : w.watcher.readLine w.fs = if firstLine unread = [] then
      ((0, []), { w.watcher with previousSize := size (w.fs.files 0) })
      else ((size (firstLine unread).dropLast, (firstLine unread).dropLast),
        { w.watcher with previousSize := size (w.fs.files 0), reader := some (0, pos + (firstLine unread).length) }) := by
    have hp := h.path
    have hf := h.fileId
    have hs := h.size
    have ho := h.reopen
    rcases hw : w.watcher with ⟨p, r, f, ps, re⟩
    rw [hw] at hp hf hs ho h1
    simp only at hp hf hs ho h1
    subst hf ho h1
    simp [Watcher.readLine, if_neg (Nat.not_lt.2 hs), h3, takeLine_eq, FS.fileId, hp, pop]
  by_cases he : firstLine unread = []
  · rw [if_pos he] at hr
    simp only [World.step, hr, he]
    refine ⟨⟨h.path, h.fileId, h.reopen, Nat.le_refl _, pos, h1, h2, ?_⟩, ?_⟩
    · simpa using h3
    · simp
  · rw [if_neg he] at hr
    simp only [World.step, hr]
    have hlen : (firstLine unread).length ≤ unread.length := by
      simp only [firstLine, List.length_append, List.length_take]
      have := congrArg List.length (List.takeWhile_append_dropWhile (p := (· ≠ '\n')) (l := unread))
      simp only [List.length_append] at this
      omega
    refine ⟨⟨h.path, h.fileId, h.reopen, Nat.le_refl _, pos + (firstLine unread).length, rfl, ?_, ?_⟩, ?_⟩
    · have := congrArg List.length h3
      simp only [List.length_drop] at this
      show pos + (firstLine unread).length ≤ (w.fs.files 0).length
      omega
    · show (w.fs.files 0).drop (pos + (firstLine unread).length) = _
      rw [← List.drop_drop, h3]
    · by_cases hd : (firstLine unread).dropLast = []
      · simp [hd, size]
      · simp [hd, size_pos hd]

private theorem tailing_run (steps : List Step) : ∀ (w : World) (unread : Text), Tailing w unread → (∀ s ∈ steps, s.grows) →
    (w.run steps).delivered = w.delivered ++ ((taken unread steps).map List.dropLast).filter (· ≠ []) := by
  induction steps with
  | nil => intro w u _ _; simp [World.run, taken]
  | cons s steps ih =>
    intro w u h hg
    have hrun : w.run (s :: steps) = (w.step s).run steps := rfl
    have hg' : ∀ s ∈ steps, s.grows := fun x hx => hg x (by simp [hx])
    rw [hrun]
    cases s with
    | append t =>
      obtain ⟨h1, h2⟩ := tailing_append w u t h
      rw [ih _ _ h1 hg', h2]; rfl
    | rotate t => exact (hg (.rotate t) (by simp)).elim
    | read =>
      obtain ⟨h1, h2⟩ := tailing_read w u h
      rw [ih _ _ h1 hg', h2]
      simp only [taken, List.map_cons, List.append_assoc, ← List.filter_append, List.singleton_append]

/-- **C37 (exactly what is delivered).**  Whatever is appended, whole lines or not, and however appends and reads interleave: each read takes
the first unread line, or as much of it as is there, cuts its last character, and delivers the rest unless it is empty. -/
theorem C37_exact_partial (content : Text) (path : Str) (steps : List Step) (hg : ∀ s ∈ steps, s.grows) :
    ((World.start content path).run steps).delivered = ((taken [] steps).map List.dropLast).filter (· ≠ []) := by
  have := tailing_run steps (World.start content path) [] ?_ hg
  · simpa [World.start] using this
  · exact ⟨rfl, rfl, rfl, Nat.zero_le _, content.length, rfl, Nat.le_refl _, by simp [World.start]⟩

example : taken [] [.append "foo".toList, .read, .append "bar\n\n".toList, .read, .read, .read] =
    ["foo".toList, "bar\n".toList, "\n".toList, []] := by decide

private theorem firstLine_drop (t : Text) : firstLine t ++ t.drop (firstLine t).length = t := by
  induction t with
  | nil => rfl
  | cons c t ih =>
    by_cases h : c = '\n'
    · subst h; simp [firstLine]
    · simp [firstLine, h] at *; exact ih

private theorem firstLine_feed (t : Text) : '\n' ∉ (firstLine t).dropLast := by
  induction t with
  | nil => simp [firstLine]
  | cons c t ih =>
    by_cases h : c = '\n'
    · subst h; simp [firstLine]
    · have e : firstLine (c :: t) = c :: firstLine t := by simp [firstLine, h]
      rw [e]
      cases hf : firstLine t with
      | nil => simp
      | cons x xs =>
        rw [hf] at ih
        simp only [List.dropLast_cons_cons, List.mem_cons, not_or]
        exact ⟨fun e => h e.symm, ih⟩

private theorem taken_written (steps : List Step) : ∀ u : Text, (∀ s ∈ steps, s.grows) →
    ∃ rest, u ++ written steps = (taken u steps).flatten ++ rest ∧ ∀ p ∈ taken u steps, '\n' ∉ p.dropLast := by
  induction steps with
  | nil => intro u _; exact ⟨u, by simp [taken, written]⟩
  | cons s steps ih =>
    intro u hg
    have hg' : ∀ s ∈ steps, s.grows := fun x hx => hg x (by simp [hx])
    cases s with
    | append t =>
      obtain ⟨rest, h1, h2⟩ := ih (u ++ t) hg'
      exact ⟨rest, by rw [List.append_assoc] at h1; simpa [written, Step.text, taken] using h1, h2⟩
    | rotate t => exact (hg (.rotate t) (by simp)).elim
    | read =>
      obtain ⟨rest, h1, h2⟩ := ih (u.drop (firstLine u).length) hg'
      refine ⟨rest, ?_, ?_⟩
      · simp only [taken, List.flatten_cons, List.append_assoc, ← h1]
        rw [← List.append_assoc, firstLine_drop]
        simp [written, Step.text]
      · intro p hp
        rcases List.mem_cons.1 hp with rfl | hp
        · exact firstLine_feed u
        · exact h2 p hp

/-- **C37 (nothing is merged, repeated or reordered).**  Whatever is appended and whenever reads happen: what was written is a row of pieces and
a rest; no piece reaches beyond a line feed; and what is delivered are the pieces in order, each without its last character, and without
those that are then empty.  Missing from the full statement: that the pieces are the lines; a read that comes before the end of a line
was written breaks it in two and loses a character. -/
theorem C37_pieces_partial (content : Text) (path : Str) (steps : List Step) (hg : ∀ s ∈ steps, s.grows) :
    ∃ (pieces : List Text) (rest : Text), written steps = pieces.flatten ++ rest ∧ (∀ p ∈ pieces, '\n' ∉ p.dropLast) ∧
      ((World.start content path).run steps).delivered = (pieces.map List.dropLast).filter (· ≠ []) := by
  obtain ⟨rest, h1, h2⟩ := taken_written steps [] hg
  exact ⟨_, rest, by simpa using h1, h2, C37_exact_partial content path steps hg⟩

/-- **C37 is false of the code for partial lines**: `foo`, a read, then `bar` and a line
feed; the reader cuts the last character of whatever it read, line feed or not, and
delivers `fo` and `bar` instead of `foobar`. -/
theorem C37_partial_line_false :
    ((World.start [] []).run [.append "foo".toList, .read, .append "bar\n".toList, .read, .read]).delivered
      = ["fo".toList, "bar".toList] := by decide

/-- **C37 is false of the code for blank lines**: they are never delivered. -/
theorem C37_blank_line_false (content : Text) (path : Str) :
    ((World.start content path).run [.append ['\n'], .read]).delivered = [] := by
  have hp : (World.start content path).fs.paths (World.start content path).watcher.path = some 0 := rfl
  simp [World.run, World.start, World.step, Watcher.new, Watcher.readLine, takeLine, pop, size]

/-- **C38 (part).**  As C37, with rotations, provided the watcher has opened the current
file before it is rotated away: the remaining lines of each old file come first, then all
lines of the new one from its start, none lost and none twice.  Missing from the full
statement: rotations in quick succession and late writes to the old file, see below. -/
theorem C38_rotation_partial (content : Text) (path : Str) (steps : List Step)
    (hs : ∀ s ∈ steps, Whole s.text) (hu : Unhurried (World.start content path) steps) :
    ∃ pending, written steps = joinLines (((World.start content path).run steps).delivered ++ pending) ∧
      (∀ l ∈ ((World.start content path).run steps).delivered ++ pending, Line l) ∧
      ∀ n, pending.length + 1 ≤ n →
        (((World.start content path).run steps).run (List.replicate n .read)).delivered =
          ((World.start content path).run steps).delivered ++ pending :=
  tail_spec content path steps hs hu

private def rotated : List Step :=
  [.append "a\nb\n".toList, .read, .rotate "c\n".toList, .append "d\n".toList, .read, .read, .read, .read,
   .rotate "e\n".toList, .read, .read]

example : (∀ s ∈ rotated, Whole s.text) ∧ Unhurried (World.start "x\n".toList []) rotated ∧
    ((World.start "x\n".toList []).run rotated).delivered =
      ["a".toList, "b".toList, "c".toList, "d".toList, "e".toList] := by
  refine ⟨?_, ?_, by decide⟩
  · intro s hs
    simp only [rotated, List.mem_cons, List.not_mem_nil, or_false] at hs
    rcases hs with h | h | h | h | h | h | h | h | h | h | h <;> subst h
    · exact ⟨["a".toList, "b".toList], by decide, by simp [Line]⟩
    · exact ⟨[], by decide, by simp⟩
    · exact ⟨["c".toList], by decide, by simp [Line]⟩
    · exact ⟨["d".toList], by decide, by simp [Line]⟩
    · exact ⟨[], by decide, by simp⟩
    · exact ⟨[], by decide, by simp⟩
    · exact ⟨[], by decide, by simp⟩
    · exact ⟨[], by decide, by simp⟩
    · exact ⟨["e".toList], by decide, by simp [Line]⟩
    · exact ⟨[], by decide, by simp⟩
    · exact ⟨[], by decide, by simp⟩
  · simp only [rotated, Unhurried, Step.rotate.injEq, reduceCtorEq, false_implies, implies_true,
      true_and, and_true, forall_eq']
    decide

/-- **C38 (rotations at any time).**  Whole lines are written, and the path is rotated at any time.  What the reads have delivered, and what further
reads will deliver, is exactly what was written, without the files that were rotated away before the watcher had opened them: in order, none lost and none twice. -/
theorem C38_exact_partial (content : Text) (path : Str) (steps : List Step) (hs : ∀ s ∈ steps, Whole s.text) :
    ∃ pending, notSkipped (World.start content path) [] steps = joinLines (((World.start content path).run steps).delivered ++ pending) ∧
      (∀ l ∈ ((World.start content path).run steps).delivered ++ pending, Line l) ∧
      ∀ n, pending.length + 1 ≤ n →
        (((World.start content path).run steps).run (List.replicate n .read)).delivered =
          ((World.start content path).run steps).delivered ++ pending := by
  have h0 : Keeps (World.start content path) [] [] := by
    obtain ⟨-, h⟩ := inv_start content path
    refine ⟨by simp [World.start], ?_⟩
    rcases h with ⟨i, pos, h⟩ | ⟨old, new, i, pos, j, h, e⟩
    · exact Or.inl ⟨[], i, pos, h, by simp, by simp [World.start, joinLines]⟩
    · obtain ⟨rfl, rfl⟩ := List.append_eq_nil_iff.1 e.symm
      exact Or.inr ⟨[], [], i, pos, j, h, by simp, by simp [World.start, joinLines], rfl⟩
  obtain ⟨b, c, h1, h2⟩ := keeps_run steps _ _ _ h0 hs
  obtain ⟨pending, h3, h4⟩ := keeps_inv _ b c h1
  refine ⟨pending, by rw [h4, h2, List.nil_append], ?_, fun n hn => inv_drain n _ pending h3 hn⟩
  intro l hl
  exact (List.mem_append.1 hl).elim (h1.1 l) (h3.1 l)

private def hurried : List Step :=
  [.append "a\n".toList, .rotate "b\n".toList, .append "c\n".toList, .read, .rotate "d\n".toList, .read, .read, .read, .rotate "e\n".toList]

example : (∀ s ∈ hurried, Whole s.text) ∧ notSkipped (World.start "x\n".toList []) [] hurried = "a\nd\ne\n".toList ∧
    ((World.start "x\n".toList []).run hurried).delivered = ["a".toList, "d".toList] := by
  refine ⟨?_, by decide, by decide⟩
  intro s hs
  simp only [hurried, List.mem_cons, List.not_mem_nil, or_false] at hs
  rcases hs with h | h | h | h | h | h | h | h | h <;> subst h
  · exact ⟨["a".toList], by decide, by simp [Line]⟩
  · exact ⟨["b".toList], by decide, by simp [Line]⟩
  · exact ⟨["c".toList], by decide, by simp [Line]⟩
  · exact ⟨[], by decide, by simp⟩
  · exact ⟨["d".toList], by decide, by simp [Line]⟩
  · exact ⟨[], by decide, by simp⟩
  · exact ⟨[], by decide, by simp⟩
  · exact ⟨[], by decide, by simp⟩
  · exact ⟨["e".toList], by decide, by simp [Line]⟩

/-- **C38 is false of the code for two rotations between reads**: the file in the middle is
never read, however many reads follow. -/
theorem C38_quick_rotations_false :
    ((World.start [] []).run [.rotate "lost\n".toList, .rotate "kept\n".toList,
      .read, .read, .read, .read, .read, .read]).delivered = ["kept".toList] := by decide

/-- The server's view of a file that is gone for two passes and then comes back. -/
private def fsWith (content : Option Text) : FS :=
  { files := fun i => if i = 1 then content.getD [] else []
    paths := fun _ => match content with | some _ => some 1 | none => none }

private def fsOld : FS := { files := fun _ => [], paths := fun _ => some 0 }

/-- **C38 is false of the code when the path is missing for a while**: a file that goes away
and is created again two passes later is watched from its end, so the lines it was created
with are never delivered, although the path was being watched all the time. -/
theorem C38_recreated_file_false :
    ((Server.mk 100 [] 1 []).passes [(fsOld, [[]]), (fsWith none, []), (fsWith none, []),
      (fsWith (some "lost\n".toList), [[]]), (fsWith (some "lost\nkept\n".toList), [[]])]).sent
      = [([], "kept".toList)] := by decide

private theorem total_append (a b : List Text) : total (a ++ b) = total a + total b := by
  simp [total]

/-- every read of positive size leaves a buffer of that size -/
private theorem readLine_size (fs : FS) (w : Watcher) : (w.readLine fs).1.1 = size (w.readLine fs).1.2 := by
  simp only [Watcher.readLine]
  generalize (if w.reopen = true then w.openAtStart fs else w) = w1
  cases w1.reader with
  | none => rfl
  | some ip =>
    simp only
    split <;> split <;> rfl

private theorem pollFile_acc (max fuel : Nat) : ∀ (fss : Nat → FS) (w : Watcher) (n : Nat) (ls : List Text),
    n ≤ max →
    ∃ new, (pollFile max fuel fss w n ls).1 = ls ++ new ∧
      (pollFile max fuel fss w n ls).2.1 = n + total new ∧
      new = (reads new.length fss w).map Prod.snd ∧
      (∀ r ∈ reads new.length fss w, 0 < r.1) ∧
      n + total new.dropLast ≤ max ∧
      (max + 1 ≤ n + fuel → n + total new ≤ max →
        ∃ r, reads (new.length + 1) fss w = reads new.length fss w ++ [r] ∧ r.1 = 0) := by
  induction fuel with
  | zero =>
    intro fss w n ls hn
    exact ⟨[], by simp [pollFile], by simp [pollFile, total], by simp [reads], by simp [reads],
      by simpa [total] using hn, by intro h1; omega⟩
  | succ fuel ih =>
    intro fss w n ls hn
    have hz := readLine_size (fss 0) w
    rcases hrl : w.readLine (fss 0) with ⟨⟨sz, buf⟩, w1⟩
    rw [hrl] at hz
    simp only at hz
    have hsucc : ∀ m, reads (m + 1) fss w = (sz, buf) :: reads m (fun k => fss (k + 1)) w1 := by
      intro m; simp [reads, hrl]
    simp only [pollFile, hrl]
    split
    · next hpos =>
      split
      · next hgt =>
        refine ⟨[buf], rfl, ?_, ?_, ?_, ?_, ?_⟩
        · simp [total, hz]
        · simp [reads, hrl]
        · simpa [reads, hrl] using hpos
        · simpa [total] using hn
        · intro _ h2; simp [total] at h2; omega
      · next hle =>
        obtain ⟨new, e1, e2, e3, e4, e5, e6⟩ := ih (fun k => fss (k + 1)) w1
          (n + sz) (ls ++ [buf]) (by omega)
        have ht : ∀ x, total (buf :: x) = sz + total x := by intro x; simp [total, hz]
        refine ⟨buf :: new, ?_, ?_, ?_, ?_, ?_, ?_⟩
        · rw [e1]; simp
        · rw [e2, ht]; omega
        · simp only [List.length_cons, hsucc, List.map_cons, ← e3]
        · intro r hr
          simp only [List.length_cons, hsucc, List.mem_cons] at hr
          rcases hr with rfl | hr
          · exact hpos
          · exact e4 r hr
        · cases new with
          | nil => simp [total]; omega
          | cons x xs =>
            simp only [List.dropLast_cons_cons]
            rw [ht]
            omega
        · intro h1 h2
          rw [ht] at h2
          obtain ⟨r, r1, r2⟩ := e6 (by omega) (by omega)
          exact ⟨r, by rw [List.length_cons, hsucc, hsucc, r1]; rfl, r2⟩
    · next hpos =>
      refine ⟨[], by simp, by simp [total], by simp [reads], by simp [reads], by simpa [total] using hn, ?_⟩
      intro _ _
      exact ⟨(sz, buf), by simp [reads, hrl], by omega⟩

/-- **C39.**  One pass over a file, whatever the file system does meanwhile: the lines taken
are the results of successive reads, all of positive size; without the last line they stay
within the limit, so the pass exceeds it by at most one line; and the pass stops only because
the limit is exceeded or because the next read had nothing to offer. -/
theorem C39_fair_pass (max : Nat) (fss : Nat → FS) (w : Watcher) :
    ∀ lines bytes w', pollFile max (max + 2) fss w 0 [] = (lines, bytes, w') →
      bytes = total lines ∧
      lines = (reads lines.length fss w).map Prod.snd ∧
      (∀ r ∈ reads lines.length fss w, 0 < r.1) ∧
      total lines.dropLast ≤ max ∧
      (max < total lines ∨ ∃ r, reads (lines.length + 1) fss w = reads lines.length fss w ++ [r] ∧ r.1 = 0) := by
  intro lines bytes w' h
  obtain ⟨new, e1, e2, e3, e4, e5, e6⟩ := pollFile_acc max (max + 2) fss w 0 [] (Nat.zero_le _)
  rw [h] at e1 e2
  simp only [List.nil_append, Nat.zero_add] at e1 e2 e5 e6
  subst e1 e2
  refine ⟨rfl, e3, e4, e5, ?_⟩
  by_cases hm : max < total lines
  · exact Or.inl hm
  · exact Or.inr (e6 (by omega) (by omega))

private theorem pollFile_fuel (max fuel : Nat) : ∀ (fss : Nat → FS) (w : Watcher) (n : Nat) (ls : List Text)
    (k : Nat), max + 1 ≤ n + fuel → n ≤ max →
    pollFile max (fuel + k) fss w n ls = pollFile max fuel fss w n ls := by
  induction fuel with
  | zero => intro fss w n ls k h hn; omega
  | succ fuel ih =>
    intro fss w n ls k h hn
    have : fuel + 1 + k = fuel + k + 1 := by omega
    rw [this]
    simp only [pollFile]
    split
    · next hpos =>
      split
      · rfl
      · exact ih _ _ _ _ k (by omega) (by omega)
    · rfl

/-- **C39**: the bound on the iterations in the model of the pass is no restriction. -/
theorem C39_pass_ends (max : Nat) (fss : Nat → FS) (w : Watcher) (fuel : Nat) (h : max + 2 ≤ fuel) :
    pollFile max fuel fss w 0 [] = pollFile max (max + 2) fss w 0 [] := by
  have := pollFile_fuel max (max + 2) fss w 0 [] (fuel - (max + 2)) (by omega) (by omega)
  rwa [show max + 2 + (fuel - (max + 2)) = fuel by omega] at this

private theorem pollFile_first (max fuel : Nat) (fss : Nat → FS) (w : Watcher)
    (h : 0 < (w.readLine (fss 0)).1.1) :
    (w.readLine (fss 0)).1.2 ∈ (pollFile max (fuel + 1) fss w 0 []).1 := by
  rcases hrl : w.readLine (fss 0) with ⟨⟨sz, buf⟩, w1⟩
  rw [hrl] at h
  simp only [pollFile, hrl]
  rw [if_pos h]
  split
  · simp
  · next hle =>
    obtain ⟨new, e1, -⟩ := pollFile_acc max fuel (fun k => fss (k + 1)) w1 (0 + sz) ([] ++ [buf]) (by omega)
    rw [e1]; simp

private theorem pollAll_serves (max : Nat) (fs : FS) (ws : List Watcher) (w : Watcher) (hw : w ∈ ws)
    (h : 0 < (w.readLine fs).1.1) : (w.path, (w.readLine fs).1.2) ∈ (pollAll max fs ws).1 := by
  induction ws with
  | nil => simp at hw
  | cons x ws ih =>
    simp only [pollAll, List.mem_append, List.mem_map]
    rcases List.mem_cons.1 hw with rfl | hw
    · exact Or.inl ⟨_, pollFile_first max (max + 1) (fun _ => fs) w h, rfl⟩
    · exact Or.inr (ih hw)

private theorem globPoll_mem (fs : FS) (found : List Str) : ∀ (ws : List Watcher) (w : Watcher),
    w ∈ ws → w ∈ globPoll fs found ws := by
  induction found with
  | nil => intro ws w h; exact h
  | cons p ps ih =>
    intro ws w h
    simp only [globPoll]
    apply ih
    split
    · exact h
    · exact List.mem_append_left _ h

/-- **C39**: in every pass every watched file is served, whatever the other files hold: a
line that is ready in it is sent in this pass. -/
theorem C39_every_file_served (s : Server) (fs : FS) (found : List Str) (w : Watcher)
    (hw : w ∈ s.watchers) (h : 0 < (w.readLine fs).1.1) :
    ∃ sent, (s.pass fs found).1.sent = s.sent ++ sent ∧ (w.path, (w.readLine fs).1.2) ∈ sent :=
  ⟨_, rfl, pollAll_serves _ _ _ _ (globPoll_mem fs found _ _ hw) h⟩

private def big : FS := { files := fun _ => "aa\nbbb\ncc\n".toList, paths := fun _ => some 0 }

example : pollFile 3 5 (fun _ => big) ⟨[], some (0, 0), some 0, 0, false⟩ 0 [] =
    (["aa".toList, "bbb".toList], 5, ⟨[], some (0, 7), some 0, 10, false⟩) := by decide

private theorem pollAll_bytes (max : Nat) (fs : FS) (ws : List Watcher) :
    (pollAll max fs ws).2.1 = 0 ↔ (pollAll max fs ws).1 = [] := by
  induction ws with
  | nil => simp [pollAll]
  | cons w ws ih =>
    obtain ⟨new, e1, e2, e3, e4, -⟩ := pollFile_acc max (max + 2) (fun _ => fs) w 0 [] (Nat.zero_le _)
    simp only [pollAll, List.append_eq_nil_iff, List.map_eq_nil_iff, Nat.add_eq_zero_iff, ih]
    rw [e1, e2]
    simp only [List.nil_append, Nat.zero_add]
    constructor
    · rintro ⟨h1, h2⟩
      refine ⟨?_, h2⟩
      cases new with
      | nil => rfl
      | cons l ls =>
        exfalso
        have := e4 ((w.readLine fs).1) (by simp [reads])
        rw [readLine_size] at this
        have h3 : l = (w.readLine fs).1.2 := by
          simp only [List.length_cons, reads, List.map_cons, List.cons.injEq] at e3
          exact e3.1
        rw [← h3] at this
        simp [total] at h1
        omega
    · rintro ⟨h1, h2⟩
      exact ⟨by simp [h1, total], h2⟩

private theorem pass_idle (s : Server) (fs : FS) (found : List Str)
    (h : (s.pass fs found).1.sent = s.sent) :
    (s.pass fs found).1.backoffCap = min 2048 (s.backoffCap * 2) ∧
      (s.pass fs found).2 = (s.pass fs found).1.backoffCap := by
  simp only [Server.pass] at h ⊢
  have h0 : (pollAll s.maxReadBytes fs (globPoll fs found s.watchers)).1 = [] := by
    have := congrArg List.length h
    simp only [List.length_append] at this
    exact List.eq_nil_of_length_eq_zero (by omega)
  rw [(pollAll_bytes _ _ _).2 h0]
  simp only [nextCap, if_true, Nat.sub_zero, and_true]
  split <;> omega

private theorem pass_busy (s : Server) (fs : FS) (found : List Str)
    (h : (s.pass fs found).1.sent ≠ s.sent) :
    (s.pass fs found).1.backoffCap = 1 ∧ (s.pass fs found).2 = 0 := by
  simp only [Server.pass] at h ⊢
  have h0 : (pollAll s.maxReadBytes fs (globPoll fs found s.watchers)).2.1 ≠ 0 := by
    intro h0
    rw [(pollAll_bytes _ _ _).1 h0] at h
    simp at h
  rcases hpa : pollAll s.maxReadBytes fs (globPoll fs found s.watchers) with ⟨x, n, y⟩
  rw [hpa] at h0
  simp only at h0
  simp only [nextCap, if_neg h0, true_and]
  omega

private theorem idle_cap (ps : List (FS × List Str)) : ∀ (s : Server) (k : Nat),
    s.backoffCap = min 2048 (2 ^ k) → s.Idle ps →
    (s.passes ps).backoffCap = min 2048 (2 ^ (k + ps.length)) := by
  induction ps with
  | nil => intro s k h _; simpa [Server.passes] using h
  | cons p ps ih =>
    intro s k h hi
    obtain ⟨h1, h2⟩ := hi
    have := ih (s.pass p.1 p.2).1 (k + 1) (by
      rw [(pass_idle s p.1 p.2 h1).1, h, Nat.pow_succ]; omega) h2
    have hp : s.passes (p :: ps) = (s.pass p.1 p.2).1.passes ps := rfl
    rw [hp, this, List.length_cons]
    congr 2
    omega

/-- **C68**: a pass that sends lines is followed by the next one at once. -/
theorem C68_busy_no_wait (s : Server) (fs : FS) (found : List Str)
    (h : (s.pass fs found).1.sent ≠ s.sent) : (s.pass fs found).2 = 0 :=
  (pass_busy s fs found h).2

/-- **C68**: after a pass that sent lines, the `k`-th pass in a row that sends nothing is
followed by a wait of `2^k` milliseconds, but never more than 2048. -/
theorem C68_idle_backoff (s : Server) (fs : FS) (found : List Str)
    (h : (s.pass fs found).1.sent ≠ s.sent) (idle : List (FS × List Str)) (p : FS × List Str)
    (hi : (s.pass fs found).1.Idle idle)
    (hp : (((s.pass fs found).1.passes idle).pass p.1 p.2).1.sent = ((s.pass fs found).1.passes idle).sent) :
    (((s.pass fs found).1.passes idle).pass p.1 p.2).2 = min 2048 (2 ^ (idle.length + 1)) := by
  have h1 := idle_cap idle (s.pass fs found).1 0 (by rw [(pass_busy s fs found h).1]; rfl) hi
  obtain ⟨e1, e2⟩ := pass_idle _ _ _ hp
  rw [e2, e1, h1, Nat.zero_add, Nat.pow_succ]; omega

/-- **C68**: the same holds from the start of the server. -/
theorem C68_idle_backoff_from_start (max : Nat) (idle : List (FS × List Str)) (p : FS × List Str)
    (hi : (Server.mk max [] 1 []).Idle idle)
    (hp : (((Server.mk max [] 1 []).passes idle).pass p.1 p.2).1.sent = ((Server.mk max [] 1 []).passes idle).sent) :
    (((Server.mk max [] 1 []).passes idle).pass p.1 p.2).2 = min 2048 (2 ^ (idle.length + 1)) := by
  have h1 := idle_cap idle (Server.mk max [] 1 []) 0 rfl hi
  obtain ⟨e1, e2⟩ := pass_idle _ _ _ hp
  rw [e2, e1, h1, Nat.zero_add, Nat.pow_succ]; omega

private def busyServer : Server := { maxReadBytes := 100, watchers := [⟨[], some (0, 0), some 0, 0, false⟩] }

example : (busyServer.pass big []).1.sent ≠ busyServer.sent ∧
    (busyServer.pass big []).1.Idle [(big, []), (big, [])] ∧
    (((busyServer.pass big []).1.passes [(big, []), (big, [])]).pass big []).2 = 8 := by
  refine ⟨by decide, ⟨by decide, by decide, trivial⟩, by decide⟩

end Verif
