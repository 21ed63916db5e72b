import Verif.Spec.Watching
import Verif.Lemmas.FileBytes
import Verif.Lemmas.FileRefine
/-! # Lemmas about the watcher and the project's model of a file -/
namespace Verif.FileBytes
open Graphite (utf8Valid)

/-! ## The watcher between changes of the files -/

/-- a call of `read_line` on a file that does not change meanwhile -/
theorem readLine_static (fs : FS) (w : Watcher) (r : Reader) (fuel : Nat) (hr : w.reader = some r) (ho : w.reopen = false)
    (hp : w.previousSize ≤ (fs.files r.file).length) (hpos : r.pos ≤ (fs.files r.file).length)
    (hf : (fs.files r.file).length + 2 ≤ fuel) :
    ∃ l r', r'.file = r.file ∧ r'.pos ≤ (fs.files r.file).length ∧
      r.staged ++ (fs.files r.file).drop r.pos = l ++ (r'.staged ++ (fs.files r.file).drop r'.pos) ∧
      (IsLine l ∨ ((10 : UInt8) ∉ l ∧ r'.staged = [] ∧ r'.pos = (fs.files r.file).length)) ∧
      w.readLine fuel (fun _ => fs) [] =
        if utf8Valid l then
          if l = [] then (.ok 0, [], { w with previousSize := (fs.files r.file).length, reader := some r', reopen := decide (fs.paths w.path ≠ w.fileId) })
          else (.ok (popChar l).length, popChar l, { w with previousSize := (fs.files r.file).length, reader := some r' })
        else (.error, [], { w with previousSize := (fs.files r.file).length, reader := some r' }) := by
  obtain ⟨l, r', k', h1, h2, h3, h4, h5, h6⟩ := readUntil_spec (fun _ => fs.files r.file) (fs.files r.file) (fun _ => fs) r.file (fun _ => rfl)
    (fun _ => List.prefix_refl _) (fun _ => Nat.le_refl _) fuel r [] 1 rfl hpos (by simp) (by split <;> omega)
  refine ⟨l, r', h2, h4, by simpa using h5, h6, ?_⟩
  simp only [Watcher.readLine, ho, hr, Bool.false_eq_true, if_false, if_neg (Nat.not_lt.2 hp), h1, List.nil_append, if_true, Bool.false_or]

/-! ## The model of a file -/

theorem seekEnd_line (p q : Bytes) (hp : (10 : UInt8) ∉ p) : seekEnd (p ++ 10 :: q) = some (some p) := by
  induction p with
  | nil => simp [seekEnd]
  | cons b p ih =>
    simp only [List.mem_cons, not_or] at hp
    have hb : ¬ b = 10 := fun h => hp.1 h.symm
    simp [seekEnd, hb, ih hp.2]

/-- A line as the tests write them: not blank, one line, text. -/
def Good (l : Bytes) : Prop := l ≠ [] ∧ (10 : UInt8) ∉ l ∧ utf8Valid l = true

/-- lines, each with its line feed -/
def joined (ls : List Bytes) : Bytes := ls.flatMap (· ++ [10])

theorem joined_cons (l : Bytes) (ls : List Bytes) : joined (l :: ls) = l ++ 10 :: joined ls := by simp [joined]

theorem joined_snoc (ls : List Bytes) (l : Bytes) : joined (ls ++ [l]) = joined ls ++ l ++ [10] := by simp [joined]

theorem joined_nil_iff (ls : List Bytes) : joined ls = [] ↔ ls = [] := by
  cases ls with
  | nil => simp [joined]
  | cons l ls => simp [joined_cons]

/-- the model of a file whose unread lines are `ls` -/
structure Ready (m : FWFile) (ls : List Bytes) : Prop where
  good : ∀ l ∈ ls, Good l
  unread : m.contents.drop m.readIdx = joined ls
  avail : ls.length ≤ m.readsAvailable
  idx : m.readIdx ≤ m.contents.length
  prev : m.previousReadSize ≤ m.contents.length

theorem ready_nothing (m : FWFile) (h : Ready m []) :
    ∃ m', m.readLine = (.nothing, m') ∧ Ready m' [] ∧ m'.contents = m.contents := by
  have h0 : m.readIdx = m.contents.length := by
    have := congrArg List.length h.unread
    simp only [List.length_drop, joined, List.flatMap_nil, List.length_nil] at this
    have := h.idx
    omega
  by_cases hc : m.contents = [] ∧ m.readsAvailable = 0
  · refine ⟨{ m with readIdx := 0, previousReadSize := 0 }, by simp only [FWFile.readLine, if_pos hc], ⟨by simp, ?_, by simp, by simp, by simp⟩, rfl⟩
    simp [hc.1, joined]
  · refine ⟨m, ?_, h, rfl⟩
    rw [FWFile.readLine, if_neg hc, if_neg (Nat.not_lt.2 h.prev), if_pos h0]

theorem ready_line (m : FWFile) (l : Bytes) (ls : List Bytes) (h : Ready m (l :: ls)) :
    ∃ m', m.readLine = (.line l, m') ∧ Ready m' ls ∧ m'.contents = m.contents := by
  have hg := h.good l (by simp)
  have hu := h.unread
  rw [joined_cons] at hu
  have hne : ¬ m.readIdx = m.contents.length := by
    intro h0
    rw [h0, List.drop_length] at hu
    simp at hu
  have hc : ¬ (m.contents = [] ∧ m.readsAvailable = 0) := by
    rintro ⟨h0, -⟩
    rw [h0] at hu
    simp at hu
  have hav : ¬ m.readsAvailable = 0 := by
    have := h.avail
    simp only [List.length_cons] at this
    omega
  refine ⟨{ m with readIdx := m.readIdx + l.length + 1, readsAvailable := m.readsAvailable - 1, previousReadSize := m.contents.length }, ?_, ?_, ?_⟩
  · rw [FWFile.readLine, if_neg hc, if_neg (Nat.not_lt.2 h.prev), if_neg hne, FWFile.readFrom, hu, seekEnd_line l _ hg.2.1]
    simp only [hg.2.2, hav, Bool.true_eq_false, or_self, if_false, hg.1]
  · refine ⟨fun x hx => h.good x (by simp [hx]), ?_, ?_, ?_, Nat.le_refl _⟩
    · show m.contents.drop (m.readIdx + l.length + 1) = _
      rw [Nat.add_assoc, ← List.drop_drop, hu, ← List.drop_drop]
      simp
    · have := h.avail
      simp only [List.length_cons] at this
      show ls.length ≤ m.readsAvailable - 1
      omega
    · show m.readIdx + l.length + 1 ≤ m.contents.length
      have := congrArg List.length hu
      have h1 := h.idx
      simp only [List.length_drop, List.length_append, List.length_cons] at this
      omega
  · rfl

theorem ready_write (m : FWFile) (ls : List Bytes) (s : Bytes) (h : Ready m ls) (hs : Good s) : Ready (m.writeLine s) (ls ++ [s]) := by
  refine ⟨?_, ?_, ?_, ?_, ?_⟩
  · intro l hl
    rcases List.mem_append.1 hl with hl | hl
    · exact h.good l hl
    · simp only [List.mem_singleton] at hl; exact hl ▸ hs
  · show (m.contents ++ s ++ [10]).drop m.readIdx = _
    rw [joined_snoc, ← h.unread, List.append_assoc, List.drop_append_of_le_length h.idx]
    simp
  · have := h.avail
    simp only [List.length_append, List.length_singleton]
    show ls.length + 1 ≤ m.readsAvailable + 1
    omega
  · have := h.idx
    simp only [FWFile.writeLine, List.length_append]; omega
  · have := h.prev
    simp only [FWFile.writeLine, List.length_append]; omega

theorem ready_new : Ready {} [] := ⟨by simp, by simp [joined], by simp, by simp, by simp⟩

/-! ## No truncations -/

/-- The watcher and the model read the same file and have the same lines before them. -/
structure Tracks (e : Experiment) (r : Reader) (m : FWFile) (ls : List Bytes) : Prop where
  reader : e.watcher.reader = some r
  reopen : e.watcher.reopen = false
  id : e.watcher.fileId = some r.file
  file : r.file + e.readIndex = e.cur
  size : e.watcher.previousSize ≤ (e.files r.file).length
  pos : r.pos ≤ (e.files r.file).length
  unread : r.staged ++ (e.files r.file).drop r.pos = joined ls
  model : e.models[e.readIndex]? = some m
  contents : m.contents = e.files r.file
  ready : Ready m ls

/-- The newest file and its model, neither read yet. -/
structure Fresh (e : Experiment) (n : FWFile) (ls : List Bytes) : Prop where
  model : e.models[0]? = some n
  contents : n.contents = e.files e.cur
  idx : n.readIdx = 0
  ready : Ready n ls

structure Sane (e : Experiment) : Prop where
  bytes : ∀ i, (e.files i).length ≤ e.bytes
  later : ∀ i, e.cur < i → e.files i = []

/-- The state between actions. -/
def Together (e : Experiment) : Prop :=
  Sane e ∧ (∃ r m ls, Tracks e r m ls) ∧ (e.readIndex ≠ 0 → ∃ n ls, Fresh e n ls)

theorem together_start : Together Experiment.start := by
  refine ⟨⟨by simp [Experiment.start], by simp [Experiment.start]⟩, ⟨{ file := 0 }, {}, [], ?_⟩, by simp [Experiment.start]⟩
  exact ⟨rfl, rfl, rfl, rfl, by simp [Experiment.start, Watcher.new], by simp, by simp [Experiment.start, joined], rfl, rfl, ready_new⟩

theorem together_write (e : Experiment) (s : Bytes) (hs : Good s) (h : Together e) : Together (e.write s) := by
  obtain ⟨⟨hb, hl⟩, ⟨r, m, ls, ht⟩, hf⟩ := h
  have hlen : ∀ i, ((e.write s).files i).length ≤ (e.write s).bytes := by
    intro i
    have := hb i
    simp only [Experiment.write]
    by_cases hi : i = e.cur
    · simp only [if_pos hi, List.length_append, List.length_singleton]; omega
    · simp only [if_neg hi]; omega
  refine ⟨⟨hlen, fun i hi => ?_⟩, ?_, ?_⟩
  · have : ¬ i = e.cur := by simp only [Experiment.write] at hi; omega
    simp only [Experiment.write, if_neg this]
    exact hl i hi
  · by_cases h0 : e.readIndex = 0
    · have hcur : r.file = e.cur := by have := ht.file; omega
      obtain ⟨ms, hm⟩ : ∃ ms, e.models = m :: ms := by
        have := ht.model
        rw [h0] at this
        cases hms : e.models with
        | nil => rw [hms] at this; simp at this
        | cons a ms => rw [hms] at this; simp at this; exact ⟨ms, by rw [this]⟩
      have hfile : (e.write s).files r.file = e.files r.file ++ s ++ [10] := by simp [Experiment.write, hcur]
      refine ⟨r, m.writeLine s, ls ++ [s], ht.reader, ht.reopen, ht.id, ht.file, ?_, ?_, ?_, ?_, ?_, ready_write m ls s ht.ready hs⟩
      · rw [hfile]; have := ht.size; simp only [List.length_append]; exact Nat.le_trans this (by omega)
      · rw [hfile]; have := ht.pos; simp only [List.length_append]; omega
      · rw [hfile, joined_snoc, ← ht.unread, List.append_assoc, List.drop_append_of_le_length ht.pos]; simp
      · simp [Experiment.write, h0, hm]
      · rw [hfile, ← ht.contents]; rfl
    · have hcur : ¬ r.file = e.cur := by have := ht.file; omega
      have hfile : (e.write s).files r.file = e.files r.file := by simp [Experiment.write, hcur]
      refine ⟨r, m, ls, ht.reader, ht.reopen, ht.id, ht.file, by rw [hfile]; exact ht.size, by rw [hfile]; exact ht.pos, by rw [hfile]; exact ht.unread, ?_,
        by rw [hfile]; exact ht.contents, ht.ready⟩
      have hm := ht.model
      show (e.write s).models[e.readIndex]? = _
      simp only [Experiment.write]
      cases hms : e.models with
      | nil => rw [hms] at hm; simp at hm
      | cons a ms =>
        rw [hms] at hm
        obtain ⟨k, hk⟩ : ∃ k, e.readIndex = k + 1 := ⟨e.readIndex - 1, by omega⟩
        rw [hk] at hm ⊢
        simpa using hm
  · intro h0
    obtain ⟨n, ls, hn⟩ := hf h0
    refine ⟨n.writeLine s, ls ++ [s], ?_, ?_, hn.idx, ready_write n ls s hn.ready hs⟩
    · have := hn.model
      simp only [Experiment.write]
      cases hms : e.models with
      | nil => rw [hms] at this; simp at this
      | cons a ms => rw [hms] at this; simp at this; simp [this]
    · simp [Experiment.write, FWFile.writeLine, hn.contents]

theorem together_rotate (e : Experiment) (h : Together e) : Together e.rotate := by
  obtain ⟨⟨hb, hl⟩, ⟨r, m, ls, ht⟩, hf⟩ := h
  refine ⟨⟨hb, fun i hi => hl i (by simp only [Experiment.rotate] at hi; omega)⟩, ⟨r, m, ls, ?_⟩, fun _ => ⟨{}, [], ?_⟩⟩
  · exact ⟨ht.reader, ht.reopen, ht.id, by have := ht.file; simp only [Experiment.rotate]; omega, ht.size, ht.pos, ht.unread,
      by simpa [Experiment.rotate] using ht.model, ht.contents, ht.ready⟩
  · exact ⟨rfl, (hl _ (Nat.lt_succ_self _)).symm, rfl, ready_new⟩

/-- a call of the watcher with the lines `ls` before it: it takes the first, or there is none and it looks whether the path still names its file -/
theorem tracks_call (e : Experiment) (r : Reader) (m : FWFile) (ls : List Bytes) (hb : Sane e) (h : Tracks e r m ls) :
    (ls = [] ∧ ∃ r', r'.file = r.file ∧ r'.pos ≤ (e.files r.file).length ∧ r'.staged ++ (e.files r.file).drop r'.pos = [] ∧
      e.call = (.ok 0, [], { e.watcher with previousSize := (e.files r.file).length, reader := some r', reopen := decide (e.cur ≠ r.file) })) ∨
    (∃ l rest, ls = l :: rest ∧ ∃ r', r'.file = r.file ∧ r'.pos ≤ (e.files r.file).length ∧ r'.staged ++ (e.files r.file).drop r'.pos = joined rest ∧
      e.call = (.ok l.length, l, { e.watcher with previousSize := (e.files r.file).length, reader := some r' })) := by
  obtain ⟨l, r', h1, h2, h3, h4, h5⟩ := readLine_static e.fs e.watcher r (e.bytes + 2) h.reader h.reopen h.size h.pos
    (by have := hb.bytes r.file; simp only [Experiment.fs]; omega)
  simp only [Experiment.fs] at h2 h3 h4
  rw [h.unread] at h3
  cases ls with
  | nil =>
    left
    have h3' : l = [] ∧ r'.staged ++ (e.files r.file).drop r'.pos = [] := by
      have : joined [] = ([] : Bytes) := rfl
      rw [this] at h3
      exact List.append_eq_nil_iff.1 h3.symm
    refine ⟨rfl, r', h1, h2, h3'.2, ?_⟩
    rw [Experiment.call, h5, h3'.1]
    have hv : utf8Valid [] = true := rfl
    simp only [hv, if_true, Experiment.fs, h.id, ne_eq, Option.some.injEq]
  | cons a rest =>
    right
    have hg := h.ready.good a (by simp)
    rw [joined_cons] at h3
    have hl : l = a ++ [10] ∧ r'.staged ++ (e.files r.file).drop r'.pos = joined rest := by
      rcases h4 with ⟨p, rfl, hp⟩ | ⟨hn, hs, hp⟩
      · have := line_unique a p (joined rest) (r'.staged ++ (e.files r.file).drop r'.pos) hg.2.1 hp (by simpa using h3)
        exact ⟨by rw [this.1], this.2.symm⟩
      · rw [hs, hp, List.drop_length] at h3
        simp only [List.append_nil] at h3
        exact absurd (h3 ▸ by simp) hn
    refine ⟨a, rest, rfl, r', h1, h2, hl.2, ?_⟩
    have hv : utf8Valid (a ++ [10]) = true := by
      have := Graphite.utf8_lf [] a [] (by simp)
      have hg2 := hg.2.2
      simp only [utf8Valid] at hg2 ⊢
      rw [this, hg2]; rfl
    have hne : a ++ [10] ≠ [] := by simp
    rw [Experiment.call, h5, hl.1]
    simp only [hv, hne, if_true, if_false, popChar_lf, Experiment.fs]

/-- after the path has been given to a newer file and the old one is at its end -/
def Switching (e : Experiment) : Prop :=
  Sane e ∧ e.watcher.reopen = true ∧ e.readIndex = 0 ∧ ∃ n ls, Fresh e n ls

theorem call_reopen (e : Experiment) (h : e.watcher.reopen = true) :
    e.call = { e with watcher := e.watcher.openAtStart e.fs }.call := by
  have h1 : (e.watcher.openAtStart e.fs).reopen = false := rfl
  have h2 : ∀ w : Watcher, w.reopen = true → w.readLine (e.bytes + 2) (fun _ => e.fs) [] = (w.openAtStart e.fs).readLine (e.bytes + 2) (fun _ => e.fs) [] := by
    intro w hw
    have h3 : (w.openAtStart e.fs).reopen = false := rfl
    simp only [Watcher.readLine, hw, h3, if_true, Bool.false_eq_true, if_false]
  exact h2 _ h

/-- the state once the newest file has been opened -/
theorem switched (e : Experiment) (h : Switching e) :
    ∃ m ls, Sane { e with watcher := e.watcher.openAtStart e.fs } ∧ Tracks { e with watcher := e.watcher.openAtStart e.fs } { file := e.cur } m ls := by
  obtain ⟨hb, ho, hi, n, ls, hn⟩ := h
  refine ⟨n, ls, ⟨hb.bytes, hb.later⟩, rfl, rfl, rfl, by simp [hi], Nat.le_refl _, by simp, ?_, by simpa [hi] using hn.model, hn.contents, hn.ready⟩
  have := hn.ready.unread
  rw [hn.idx, hn.contents] at this
  simpa using this

theorem tracks_pull_nothing (e : Experiment) (r : Reader) (m : FWFile) (h : Tracks e r m []) :
    ∃ m', e.pull = some (none, { e with models := e.models.set e.readIndex m' }) ∧ Ready m' [] ∧ m'.contents = m.contents := by
  obtain ⟨m', h1, h2, h3⟩ := ready_nothing m h.ready
  exact ⟨m', by simp only [Experiment.pull, h.model, h1], h2, h3⟩

theorem tracks_next_line (e : Experiment) (r : Reader) (m : FWFile) (l : Bytes) (ls : List Bytes) (h : Tracks e r m (l :: ls)) :
    ∃ m', e.next = some (some l, { e with models := e.models.set e.readIndex m' }) ∧ Ready m' ls ∧ m'.contents = m.contents := by
  obtain ⟨m', h1, h2, h3⟩ := ready_line m l ls h.ready
  refine ⟨m', ?_, h2, h3⟩
  have : e.pull = some (some l, { e with models := e.models.set e.readIndex m' }) := by simp only [Experiment.pull, h.model, h1]
  simp only [Experiment.next, this]

theorem get_lt {e : Experiment} {m : FWFile} (h : e.models[e.readIndex]? = some m) : e.readIndex < e.models.length := by
  by_cases hl : e.readIndex < e.models.length
  · exact hl
  · rw [List.getElem?_eq_none (by omega)] at h; simp at h

/-- one attempt of `Read`: it reads a line, which the model has too, or tries again at the newest file -/
theorem attempt_exact (e : Experiment) (n : Nat) (hb : Sane e) (r : Reader) (m : FWFile) (ls : List Bytes) (ht : Tracks e r m ls)
    (hf : e.readIndex ≠ 0 → ∃ n ls, Fresh e n ls) :
    (∃ e', e.readExact (n + 1) = some e' ∧ Together e') ∨
    (∃ e', e.readExact (n + 1) = e'.readExact n ∧ Together e' ∧ e'.readIndex = 0) ∨
    (∃ e', e.readExact (n + 1) = e'.readExact n ∧ Switching e' ∧ e.readIndex ≠ 0) := by
  rcases tracks_call e r m ls hb ht with ⟨rfl, r', h1, h2, h3, h4⟩ | ⟨l, rest, rfl, r', h1, h2, h3, h4⟩
  · right
    obtain ⟨m', g1, g2, g3⟩ := tracks_pull_nothing e r m ht
    have hlt := get_lt ht.model
    by_cases hc : e.cur = r.file
    · left
      have hi : e.readIndex = 0 := by have := ht.file; omega
      refine ⟨{ e with watcher := { e.watcher with reader := some r', previousSize := (e.files r.file).length, reopen := decide (e.cur ≠ r.file) }, models := e.models.set e.readIndex m', readIndex := 0 }, by simp only [Experiment.readExact, h4, g1], ⟨⟨hb.bytes, hb.later⟩, ⟨r', m', [], ?_⟩, by simp⟩, rfl⟩
      refine ⟨rfl, by simp [hc], ?_, ?_, ?_, ?_, ?_, ?_, ?_, g2⟩
      · rw [h1]; exact ht.id
      · rw [h1]; simp [hc]
      · rw [h1]; exact Nat.le_refl _
      · rw [h1]; exact h2
      · rw [h1]; exact h3
      · rw [hi] at hlt ⊢; simp [hlt]
      · rw [h1, g3]; exact ht.contents
    · right
      have hi : e.readIndex ≠ 0 := by have := ht.file; omega
      obtain ⟨n', ls, hn⟩ := hf hi
      refine ⟨{ e with watcher := { e.watcher with reader := some r', previousSize := (e.files r.file).length, reopen := decide (e.cur ≠ r.file) }, models := e.models.set e.readIndex m', readIndex := 0 }, by simp only [Experiment.readExact, h4, g1], ⟨⟨hb.bytes, hb.later⟩, by simp [hc], rfl, n', ls, ?_, hn.contents, hn.idx, hn.ready⟩, hi⟩
      have hm := hn.model
      cases hms : e.models with
      | nil => rw [hms] at hm; simp at hm
      | cons a ms =>
        rw [hms] at hm
        obtain ⟨k, hk⟩ : ∃ k, e.readIndex = k + 1 := ⟨e.readIndex - 1, by omega⟩
        simpa [hk] using hm
  · left
    obtain ⟨m', g1, g2, g3⟩ := tracks_next_line e r m l rest ht
    have hlt := get_lt ht.model
    obtain ⟨k, hk⟩ : ∃ k, l.length = k + 1 := by
      have := (ht.ready.good l (by simp)).1
      cases l with
      | nil => exact absurd rfl this
      | cons a l => exact ⟨l.length, rfl⟩
    refine ⟨{ e with watcher := { e.watcher with reader := some r', previousSize := (e.files r.file).length }, models := e.models.set e.readIndex m', sutReads := e.sutReads + 1, modelReads := e.modelReads + 1 },
      by simp only [Experiment.readExact, h4, hk, g1, and_self, if_true], ⟨hb.bytes, hb.later⟩, ⟨r', m', rest, ?_⟩, ?_⟩
    · refine ⟨rfl, ht.reopen, ?_, ?_, ?_, ?_, ?_, ?_, ?_, g2⟩
      · rw [h1]; exact ht.id
      · rw [h1]; exact ht.file
      · rw [h1]; exact Nat.le_refl _
      · rw [h1]; exact h2
      · rw [h1]; exact h3
      · simp [hlt]
      · rw [h1, g3]; exact ht.contents
    · intro hi
      obtain ⟨n, ls, hn⟩ := hf hi
      refine ⟨n, ls, ?_, hn.contents, hn.idx, hn.ready⟩
      have hm := hn.model
      cases hms : e.models with
      | nil => rw [hms] at hm; simp at hm
      | cons a ms =>
        rw [hms] at hm
        obtain ⟨j, hj⟩ : ∃ j, e.readIndex = j + 1 := ⟨e.readIndex - 1, by have : e.readIndex ≠ 0 := hi; omega⟩
        simpa [hj] using hm

theorem readExact_newest (n : Nat) : ∀ e : Experiment, Together e → e.readIndex = 0 → ∃ e', e.readExact n = some e' ∧ Together e' := by
  induction n with
  | zero => intro e h _; exact ⟨e, rfl, h⟩
  | succ n ih =>
    intro e h hi
    obtain ⟨hb, ⟨r, m, ls, ht⟩, hf⟩ := h
    rcases attempt_exact e n hb r m ls ht hf with h | ⟨e', h1, h2, h3⟩ | ⟨e', h1, h2⟩
    · exact h
    · rw [h1]; exact ih e' h2 h3
    · exact absurd hi h2.2

theorem pull_watcher (e : Experiment) (w : Watcher) :
    { e with watcher := w }.pull = e.pull.map fun p => (p.1, { p.2 with watcher := w }) := by
  simp only [Experiment.pull]
  cases e.models[e.readIndex]? with
  | none => rfl
  | some m =>
    dsimp only
    rcases m.readLine with ⟨p, m'⟩
    cases p <;> rfl

theorem next_watcher (e : Experiment) (w : Watcher) :
    { e with watcher := w }.next = e.next.map fun p => (p.1, { p.2 with watcher := w }) := by
  simp only [Experiment.next, pull_watcher]
  rcases e.pull with _ | ⟨o, e'⟩
  · rfl
  · cases o with
    | some l => rfl
    | none =>
      simp only [Option.map_some]
      by_cases hi : e'.readIndex = 0
      · simp only [if_pos hi, Option.map_some]
      · simp only [if_neg hi]
        exact pull_watcher { e' with readIndex := 0 } w

theorem readExact_reopen (e : Experiment) (n : Nat) (h : e.watcher.reopen = true) :
    e.readExact (n + 1) = { e with watcher := e.watcher.openAtStart e.fs }.readExact (n + 1) := by
  simp only [Experiment.readExact, ← call_reopen e h]
  rcases e.call with ⟨o, buf, w⟩
  cases o with
  | ok k =>
    cases k with
    | zero =>
      simp only [pull_watcher]
      rcases e.pull with _ | ⟨_ | l, e'⟩ <;> rfl
    | succ k =>
      simp only [next_watcher]
      rcases e.next with _ | ⟨_ | l, e'⟩ <;> rfl
  | _ => rfl

theorem readExact_switching (e : Experiment) (n : Nat) (h : Switching e) : ∃ e', e.readExact (n + 1) = some e' ∧ Together e' := by
  obtain ⟨m, ls, hb, ht⟩ := switched e h
  rw [readExact_reopen e n h.2.1]
  exact readExact_newest _ _ ⟨hb, ⟨_, m, ls, ht⟩, fun hi => absurd h.2.2.1 hi⟩ h.2.2.1

theorem readExact_together (e : Experiment) (n : Nat) (h : Together e) : ∃ e', e.readExact (n + 2) = some e' ∧ Together e' := by
  obtain ⟨hb, ⟨r, m, ls, ht⟩, hf⟩ := h
  rcases attempt_exact e (n + 1) hb r m ls ht hf with h | ⟨e', h1, h2, h3⟩ | ⟨e', h1, h2, _⟩
  · exact h
  · rw [h1]; exact readExact_newest _ e' h2 h3
  · rw [h1]; exact readExact_switching e' n h2

end Verif.FileBytes
