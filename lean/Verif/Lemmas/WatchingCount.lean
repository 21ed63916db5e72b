import Verif.Lemmas.Watching
import Verif.Lemmas.Stream
/-! # Lemmas about the counts of the experiment with truncations -/
namespace Verif.FileBytes
open Graphite (utf8Valid)

/-- the line feeds of a text -/
def lf (b : Bytes) : Nat := b.count 10

theorem lf_append (a b : Bytes) : lf (a ++ b) = lf a + lf b := by simp [lf]

theorem lf_none (p : Bytes) (h : (10 : UInt8) ∉ p) : lf p = 0 := List.count_eq_zero.2 h

theorem lf_drop (b : Bytes) (n : Nat) : lf (b.drop n) ≤ lf b := by
  have h := lf_append (b.take n) (b.drop n)
  rw [List.take_append_drop] at h
  omega

/-- what is left of a text when a line is added to it -/
theorem lf_drop_write (c s : Bytes) (n : Nat) (hs : (10 : UInt8) ∉ s) : lf ((c ++ s ++ [10]).drop n) ≤ lf (c.drop n) + 1 := by
  by_cases hn : n ≤ c.length
  · rw [List.append_assoc, List.drop_append_of_le_length hn, lf_append, lf_append, lf_none s hs]
    simp [lf]
  · rw [List.append_assoc, List.drop_append]
    have h1 := lf_drop (s ++ [10]) (n - c.length)
    rw [lf_append, lf_none s hs] at h1
    rw [lf_append]
    simp only [lf, List.count_cons, List.count_nil] at h1 ⊢
    simp at h1 ⊢
    omega

theorem lf_write (c s : Bytes) (hs : (10 : UInt8) ∉ s) : lf (c ++ s ++ [10]) = lf c + 1 := by
  rw [lf_append, lf_append, lf_none s hs]; simp [lf]

/-- nothing, or a text of whole lines -/
def WholeLines (b : Bytes) : Prop := b = [] ∨ b.getLast? = some 10

theorem lines_write (c s : Bytes) : WholeLines (c ++ s ++ [10]) := Or.inr (by simp)

theorem lines_drop (b : Bytes) (n : Nat) (h : WholeLines b) : WholeLines (b.drop n) := by
  rcases h with rfl | h
  · exact Or.inl (by simp)
  · by_cases hn : n < b.length
    · right; rw [List.getLast?_drop, if_neg (by omega), h]
    · exact Or.inl (List.drop_eq_nil_of_le (by omega))

theorem lines_append (a b : Bytes) (hb : WholeLines b) (h : WholeLines a ∨ b ≠ []) : WholeLines (a ++ b) := by
  by_cases h0 : b = []
  · subst h0; rcases h with h | h
    · simpa using h
    · exact absurd rfl h
  · rcases hb with hb | hb
    · exact absurd hb h0
    · right; rw [List.getLast?_append, hb]; rfl

theorem lines_right (a b : Bytes) (h : WholeLines (a ++ b)) : WholeLines b := by
  by_cases h0 : b = []
  · exact Or.inl h0
  · rcases h with h | h
    · exact absurd (List.append_eq_nil_iff.1 h).2 h0
    · right
      rw [List.getLast?_append] at h
      cases hb : b.getLast? with
      | none => exact absurd (List.getLast?_eq_none_iff.1 hb) h0
      | some x => rw [hb] at h; simpa using h

theorem lines_mem (b : Bytes) (h : WholeLines b) (h0 : b ≠ []) : (10 : UInt8) ∈ b := by
  rcases h with h | h
  · exact absurd h h0
  · exact List.mem_of_getLast? h

/-- plain ASCII -/
def Ascii (b : Bytes) : Prop := ∀ x ∈ b, x < 128

theorem ascii_append (a b : Bytes) : Ascii (a ++ b) ↔ Ascii a ∧ Ascii b := by
  simp only [Ascii, List.mem_append]
  exact ⟨fun h => ⟨fun x hx => h x (Or.inl hx), fun x hx => h x (Or.inr hx)⟩, fun h x hx => hx.elim (h.1 x) (h.2 x)⟩

theorem ascii_drop (b : Bytes) (n : Nat) (h : Ascii b) : Ascii (b.drop n) := fun x hx => h x (List.mem_of_mem_drop hx)

theorem ascii_utf8 (b : Bytes) (h : Ascii b) : utf8Valid b = true := Verif.Stream.ascii_valid b h

theorem ascii_write (c s : Bytes) (hc : Ascii c) (hs : Ascii s) : Ascii (c ++ s ++ [10]) := by
  rw [ascii_append, ascii_append]
  exact ⟨⟨hc, hs⟩, fun x hx => by simp only [List.mem_singleton] at hx; subst hx; decide⟩

/-! ## The model of a file -/

/-- a model of a file that will not panic -/
structure Usable (m : FWFile) : Prop where
  idx : m.readIdx ≤ m.previousReadSize
  left : lf (m.contents.drop m.readIdx) ≤ m.readsAvailable
  again : m.contents.length < m.previousReadSize → lf m.contents ≤ m.readsAvailable
  none : m.contents = [] → m.readsAvailable = 0
  ascii : Ascii m.contents
  whole : WholeLines m.contents

theorem usable_new : Usable {} := ⟨Nat.le_refl _, Nat.le_refl _, fun h => absurd h (Nat.lt_irrefl _), fun _ => rfl, by simp [Ascii], Or.inl rfl⟩

theorem usable_truncate (m : FWFile) (h : Usable m) : Usable m.truncate :=
  ⟨h.idx, by simp [FWFile.truncate, lf], fun _ => by simp [FWFile.truncate, lf], fun _ => rfl, by simp [FWFile.truncate, Ascii], Or.inl rfl⟩

theorem usable_write (m : FWFile) (s : Bytes) (h : Usable m) (h1 : (10 : UInt8) ∉ s) (h2 : Ascii s) : Usable (m.writeLine s) := by
  refine ⟨h.idx, ?_, ?_, ?_, ascii_write _ _ h.ascii h2, lines_write _ _⟩
  · have := lf_drop_write m.contents s m.readIdx h1
    have := h.left
    simp only [FWFile.writeLine]; omega
  · intro hl
    simp only [FWFile.writeLine, List.length_append] at hl
    have := h.again (by omega)
    simp only [FWFile.writeLine, lf_write _ _ h1]; omega
  · intro h0; simp [FWFile.writeLine] at h0

theorem split_lf (b : Bytes) (h : (10 : UInt8) ∈ b) : ∃ p q, b = p ++ 10 :: q ∧ (10 : UInt8) ∉ p := by
  induction b with
  | nil => simp at h
  | cons x b ih =>
    by_cases hx : x = 10
    · exact ⟨[], b, by simp [hx], by simp⟩
    · obtain ⟨p, q, h1, h2⟩ := ih (by simpa [Ne.symm hx] using h)
      exact ⟨x :: p, q, by simp [h1], by simp [h2, Ne.symm hx]⟩

/-- reading a model from a place with a line left -/
theorem usable_from (m : FWFile) (h : Usable m) (i start : Nat) (hs : start < m.contents.length)
    (hl : lf (m.contents.drop start) ≤ m.readsAvailable) :
    ∃ o m', { m with readIdx := i }.readFrom start = (o, m') ∧ o ≠ .panic ∧ Usable m' := by
  have h0 : m.contents.drop start ≠ [] := by
    intro h0
    have := List.length_drop (l := m.contents) (i := start)
    rw [h0] at this; simp at this; omega
  obtain ⟨p, q, h1, h2⟩ := split_lf _ (lines_mem _ (lines_drop _ _ h.whole) h0)
  have hp : utf8Valid p = true := by
    have := ascii_drop _ start h.ascii
    rw [h1, ascii_append] at this
    exact ascii_utf8 _ this.1
  have hc : lf (m.contents.drop start) = lf q + 1 := by
    rw [h1, lf_append, lf_none p h2]; simp [lf]
  have hlen : start + p.length + 1 + q.length = m.contents.length := by
    have := List.length_drop (l := m.contents) (i := start)
    rw [h1] at this; simp at this; omega
  have hq : m.contents.drop (start + p.length + 1) = q := by
    have : m.contents.drop (start + (p.length + 1)) = (m.contents.drop start).drop (p.length + 1) := by rw [List.drop_drop]
    rw [Nat.add_assoc, this, h1]
    rw [show p ++ 10 :: q = (p ++ [10]) ++ q by simp]
    exact List.drop_left' (by simp)
  refine ⟨if p = [] then .nothing else .line p,
    { m with readIdx := start + p.length + 1, readsAvailable := m.readsAvailable - 1, previousReadSize := m.contents.length }, ?_, ?_, ?_⟩
  · have ha : ¬ m.readsAvailable = 0 := by omega
    simp only [FWFile.readFrom, h1, seekEnd_line p q h2, hp, Bool.true_eq_false, ha, or_self, if_false]
  · by_cases hp0 : p = [] <;> simp [hp0]
  · exact ⟨by simp only; omega, by simp only [hq]; omega, fun hl => absurd hl (Nat.lt_irrefl _), fun h0 => by rw [h0] at hs; simp at hs, h.ascii, h.whole⟩

theorem usable_read (m : FWFile) (h : Usable m) : ∃ o m', m.readLine = (o, m') ∧ o ≠ .panic ∧ Usable m' := by
  by_cases h1 : m.contents = [] ∧ m.readsAvailable = 0
  · exact ⟨.nothing, { m with readIdx := 0, previousReadSize := 0 }, by simp only [FWFile.readLine, if_pos h1], by simp,
      Nat.le_refl _, by simp [h1.1, lf], fun h => by simp at h, fun _ => h1.2, h.ascii, h.whole⟩
  · have h0 : m.contents ≠ [] := fun h0 => h1 ⟨h0, h.none h0⟩
    have hlen : 0 < m.contents.length := List.length_pos_iff.2 h0
    by_cases h2 : m.previousReadSize > m.contents.length
    · simp only [FWFile.readLine, if_neg h1, if_pos h2]
      exact usable_from m h 0 0 hlen (h.again h2)
    · by_cases h3 : m.readIdx = m.contents.length
      · exact ⟨.nothing, m, by simp only [FWFile.readLine, if_neg h1, if_neg h2, if_pos h3], by simp, h⟩
      · simp only [FWFile.readLine, if_neg h1, if_neg h2, if_neg h3]
        have := h.idx
        exact usable_from m h m.readIdx m.readIdx (by omega) h.left

/-- the models of the files -/
def Models (ms : List FWFile) (i : Nat) : Prop := (∀ m ∈ ms, Usable m) ∧ i < ms.length

theorem models_pull (e : Experiment) (h : Models e.models e.readIndex) :
    ∃ o ms, e.pull = some (o, { e with models := ms }) ∧ Models ms e.readIndex := by
  obtain ⟨h1, h2⟩ := h
  have hm := List.getElem?_eq_getElem h2
  obtain ⟨o, m', g1, g2, g3⟩ := usable_read e.models[e.readIndex] (h1 _ (List.getElem_mem h2))
  have hms : Models (e.models.set e.readIndex m') e.readIndex := by
    refine ⟨fun m hmem => ?_, by simpa using h2⟩
    rcases List.mem_or_eq_of_mem_set hmem with hm | rfl
    · exact h1 m hm
    · exact g3
  cases o with
  | panic => exact absurd rfl g2
  | nothing => exact ⟨none, _, by simp only [Experiment.pull, hm, g1], hms⟩
  | line l => exact ⟨some l, _, by simp only [Experiment.pull, hm, g1], hms⟩

theorem models_next (e : Experiment) (h : Models e.models e.readIndex) :
    ∃ o ms i, e.next = some (o, { e with models := ms, readIndex := i }) ∧ Models ms i := by
  obtain ⟨o, ms, h1, h2⟩ := models_pull e h
  cases o with
  | some l => exact ⟨some l, ms, e.readIndex, by simp only [Experiment.next, h1], h2⟩
  | none =>
    by_cases hi : e.readIndex = 0
    · exact ⟨none, ms, e.readIndex, by simp only [Experiment.next, h1, if_pos hi], h2⟩
    · obtain ⟨o', ms', g1, g2⟩ := models_pull { e with models := ms, readIndex := 0 } ⟨h2.1, by have := h2.2; show 0 < ms.length; omega⟩
      exact ⟨o', ms', 0, by simp only [Experiment.next, h1, if_neg hi]; exact g1, g2⟩

/-! ## The watcher -/

/-- what the newest file will give, if another one is held -/
def other (e : Experiment) (r : Reader) : Nat := if r.file = e.cur then 0 else lf (e.files e.cur)

/-- the disk -/
structure Disk (e : Experiment) : Prop where
  bytes : ∀ i, (e.files i).length ≤ e.bytes
  later : ∀ i, e.cur < i → e.files i = []
  ascii : ∀ i, Ascii (e.files i)
  whole : ∀ i, WholeLines (e.files i)

/-- what the watcher has given and may still give is no more than what was written -/
structure Counted (e : Experiment) (r : Reader) : Prop where
  reader : e.watcher.reader = some r
  id : e.watcher.fileId = some r.file
  reopen : e.watcher.reopen = true → r.file ≠ e.cur
  held : r.file ≤ e.cur
  pos : r.pos ≤ e.watcher.previousSize
  ends : WholeLines r.staged ∨ r.pos < e.watcher.previousSize
  ascii : Ascii r.staged
  count : e.sutReads + lf (r.staged ++ (e.files r.file).drop r.pos) + other e r ≤ e.writes
  shrunk : (e.files r.file).length < e.watcher.previousSize → e.sutReads + lf (e.files r.file) + other e r ≤ e.writes

/-- the state between actions, and between attempts -/
def Bounded (e : Experiment) : Prop :=
  Disk e ∧ (∃ r, Counted e r) ∧ Models e.models e.readIndex ∧ e.modelReads ≤ e.sutReads

theorem bounded_start : Bounded Experiment.start := by
  refine ⟨⟨by simp [Experiment.start], by simp [Experiment.start], by simp [Experiment.start, Ascii], fun _ => Or.inl rfl⟩, ⟨{ file := 0 }, ?_⟩,
    ⟨fun m hm => ?_, by simp [Experiment.start]⟩, Nat.le_refl _⟩
  · exact ⟨rfl, rfl, fun h => by simp [Experiment.start, Watcher.new] at h, Nat.le_refl _, Nat.zero_le _, Or.inl (Or.inl rfl), by simp [Ascii],
      by simp [Experiment.start, lf, other], fun h => by simp [Experiment.start, Watcher.new] at h⟩
  · simp [Experiment.start] at hm; subst hm; exact usable_new

theorem bounded_write (e : Experiment) (s : Bytes) (h1 : (10 : UInt8) ∉ s) (h2 : Ascii s) (h : Bounded e) : Bounded (e.write s) := by
  obtain ⟨hd, ⟨r, hc⟩, hm, hr⟩ := h
  refine ⟨⟨fun i => ?_, fun i hi => ?_, fun i => ?_, fun i => ?_⟩, ⟨r, hc.reader, hc.id, hc.reopen, hc.held, hc.pos, hc.ends, hc.ascii, ?_, ?_⟩, ?_, hr⟩
  · have := hd.bytes i
    simp only [Experiment.write]
    by_cases hi : i = e.cur
    · simp only [if_pos hi, List.length_append, List.length_singleton]; omega
    · simp only [if_neg hi]; omega
  · have : ¬ i = e.cur := by simp only [Experiment.write] at hi; omega
    simp only [Experiment.write, if_neg this]
    exact hd.later i hi
  · simp only [Experiment.write]
    by_cases hi : i = e.cur
    · simp only [if_pos hi]; exact ascii_write _ _ (hd.ascii i) h2
    · simp only [if_neg hi]; exact hd.ascii i
  · simp only [Experiment.write]
    by_cases hi : i = e.cur
    · simp only [if_pos hi]; exact lines_write _ _
    · simp only [if_neg hi]; exact hd.whole i
  · have hk := hc.count
    by_cases hi : r.file = e.cur
    · have := lf_drop_write (e.files r.file) s r.pos h1
      simp only [other, Experiment.write, if_pos hi, lf_append] at hk this ⊢
      omega
    · have := lf_write (e.files e.cur) s h1
      simp only [other, Experiment.write, if_neg hi, lf_append, if_true] at hk this ⊢
      omega
  · intro hl
    by_cases hi : r.file = e.cur
    · have := lf_write (e.files r.file) s h1
      have hk := hc.shrunk (by
        simp only [Experiment.write, if_pos hi, List.length_append] at hl
        exact Nat.lt_of_le_of_lt (by omega) hl)
      simp only [other, Experiment.write, if_pos hi, lf_append] at hk this ⊢
      omega
    · have := lf_write (e.files e.cur) s h1
      have hk := hc.shrunk (by simpa only [Experiment.write, if_neg hi] using hl)
      simp only [other, Experiment.write, if_neg hi, lf_append, if_true] at hk this ⊢
      omega
  · cases hms : e.models with
    | nil => have := hm.2; rw [hms] at this; simp at this
    | cons m ms =>
      obtain ⟨g1, g2⟩ := hm
      rw [hms] at g1 g2
      simp only [Experiment.write, hms]
      refine ⟨fun x hx => ?_, by simpa using g2⟩
      rcases List.mem_cons.1 hx with rfl | hx
      · exact usable_write m s (g1 m (by simp)) h1 h2
      · exact g1 x (by simp [hx])

theorem bounded_rotate (e : Experiment) (h : Bounded e) : Bounded e.rotate := by
  obtain ⟨hd, ⟨r, hc⟩, hm, hr⟩ := h
  have hne : r.file ≠ e.cur + 1 := by have := hc.held; omega
  have ho : other e.rotate r = 0 := by
    have : e.files (e.cur + 1) = [] := hd.later _ (Nat.lt_succ_self _)
    simp [other, Experiment.rotate, this, lf]
  refine ⟨⟨hd.bytes, fun i hi => hd.later i (by simp only [Experiment.rotate] at hi; omega), hd.ascii, hd.whole⟩,
    ⟨r, hc.reader, hc.id, fun _ => hne, by have := hc.held; simp only [Experiment.rotate]; omega, hc.pos, hc.ends, hc.ascii, ?_, fun hl => ?_⟩, ?_, hr⟩
  · rw [ho]; have := hc.count; simp only [Experiment.rotate]; omega
  · rw [ho]; have := hc.shrunk hl; simp only [Experiment.rotate]; omega
  · refine ⟨fun m hx => ?_, by simpa [Experiment.rotate] using hm.2⟩
    rcases List.mem_cons.1 hx with rfl | hx
    · exact usable_new
    · exact hm.1 m hx

theorem bounded_truncate (e : Experiment) (h : Bounded e) : Bounded e.truncate := by
  obtain ⟨hd, ⟨r, hc⟩, hm, hr⟩ := h
  have hsub : ∀ i, e.truncate.files i = [] ∨ e.truncate.files i = e.files i := by
    intro i; simp only [Experiment.truncate]; by_cases hi : i = e.cur <;> simp [hi]
  have hlf : ∀ i n, lf ((e.truncate.files i).drop n) ≤ lf ((e.files i).drop n) := by
    intro i n; rcases hsub i with h | h <;> rw [h] <;> simp [lf]
  have hother : other e.truncate r ≤ other e r := by
    have : lf (e.truncate.files e.cur) ≤ lf (e.files e.cur) := by simpa using hlf e.cur 0
    simp only [other]
    by_cases hi : r.file = e.cur
    · simp [hi, Experiment.truncate]
    · simp only [if_neg hi]; rw [if_neg (by exact hi)]; exact this
  refine ⟨⟨fun i => ?_, fun i hi => ?_, fun i => ?_, fun i => ?_⟩, ⟨r, hc.reader, hc.id, hc.reopen, hc.held, hc.pos, hc.ends, hc.ascii, ?_, fun hl => ?_⟩, ?_, hr⟩
  · rcases hsub i with h | h <;> rw [h]
    · simp
    · exact hd.bytes i
  · rcases hsub i with h | h <;> rw [h]
    exact hd.later i hi
  · rcases hsub i with h | h <;> rw [h]
    · simp [Ascii]
    · exact hd.ascii i
  · rcases hsub i with h | h <;> rw [h]
    · exact Or.inl rfl
    · exact hd.whole i
  · have h1 := hc.count
    have h2 := hlf r.file r.pos
    rw [lf_append] at h1 ⊢
    show e.sutReads + _ + _ ≤ e.writes
    omega
  · have h1 := hc.count
    show e.sutReads + _ + _ ≤ e.writes
    rcases hsub r.file with h | h
    · rw [h]
      have : lf [] = 0 := rfl
      omega
    · have := hc.shrunk (by rw [h] at hl; exact hl)
      rw [h]; omega
  · cases hms : e.models with
    | nil => have := hm.2; rw [hms] at this; simp at this
    | cons m ms =>
      obtain ⟨g1, g2⟩ := hm
      rw [hms] at g1 g2
      simp only [Experiment.truncate, hms]
      refine ⟨fun x hx => ?_, by simpa using g2⟩
      rcases List.mem_cons.1 hx with rfl | hx
      · exact usable_truncate m (g1 m (by simp))
      · exact g1 x (by simp [hx])

/-- the reader once the size of its file has been looked at -/
def rewound (fs : FS) (w : Watcher) (r : Reader) : Reader := if w.previousSize > (fs.files r.file).length then r.rewind else r

theorem readLine_rewound (fs : FS) (w : Watcher) (r : Reader) (fuel : Nat) (hr : w.reader = some r) (ho : w.reopen = false) :
    w.readLine fuel (fun _ => fs) [] =
      { w with reader := some (rewound fs w r), previousSize := (fs.files r.file).length }.readLine fuel (fun _ => fs) [] := by
  have hf : (rewound fs w r).file = r.file := by simp only [rewound]; split <;> rfl
  simp only [Watcher.readLine, ho, hr, Bool.false_eq_true, if_false, hf, gt_iff_lt, Nat.lt_irrefl]
  rfl

/-- the unread text after the size has been looked at -/
theorem rewound_spec (e : Experiment) (r : Reader) (hd : Disk e) (h : Counted e r) :
    (rewound e.fs e.watcher r).pos ≤ (e.files r.file).length ∧
    WholeLines ((rewound e.fs e.watcher r).staged ++ (e.files r.file).drop (rewound e.fs e.watcher r).pos) ∧
    Ascii ((rewound e.fs e.watcher r).staged ++ (e.files r.file).drop (rewound e.fs e.watcher r).pos) ∧
    e.sutReads + lf ((rewound e.fs e.watcher r).staged ++ (e.files r.file).drop (rewound e.fs e.watcher r).pos) + other e r ≤ e.writes := by
  by_cases hl : e.watcher.previousSize > (e.files r.file).length
  · have : rewound e.fs e.watcher r = r.rewind := if_pos hl
    rw [this]
    simp only [Reader.rewind, List.nil_append, List.drop_zero]
    exact ⟨Nat.zero_le _, hd.whole _, hd.ascii _, h.shrunk hl⟩
  · have : rewound e.fs e.watcher r = r := if_neg hl
    rw [this]
    have hp := h.pos
    refine ⟨by omega, lines_append _ _ (lines_drop _ _ (hd.whole _)) ?_, (ascii_append _ _).2 ⟨h.ascii, ascii_drop _ _ (hd.ascii _)⟩, h.count⟩
    rcases h.ends with h1 | h1
    · exact Or.inl h1
    · right
      intro h0
      have := List.length_drop (l := e.files r.file) (i := r.pos)
      rw [h0] at this
      simp at this; omega

/-- what a call does to the counts -/
theorem counted_call (e : Experiment) (r : Reader) (hd : Disk e) (h : Counted e r) (ho : e.watcher.reopen = false) :
    ∃ n buf w, e.call = (.ok n, buf, w) ∧
      ∀ e' : Experiment, e'.files = e.files → e'.cur = e.cur → e'.writes = e.writes → e'.watcher = w →
        e'.sutReads = e.sutReads + (if n = 0 then 0 else 1) → ∃ r', Counted e' r' := by
  obtain ⟨h1, h2, h3, h4⟩ := rewound_spec e r hd h
  have hfile : (rewound e.fs e.watcher r).file = r.file := by simp only [rewound]; split <;> rfl
  have hlen := hd.bytes r.file
  obtain ⟨l, r', g1, g2, g3, g4, g5⟩ := readLine_static e.fs { e.watcher with reader := some (rewound e.fs e.watcher r), previousSize := (e.files r.file).length }
    (rewound e.fs e.watcher r) (e.bytes + 2) rfl ho (by rw [hfile]; exact Nat.le_refl _) (by rw [hfile]; exact h1)
    (by rw [hfile]; simp only [Experiment.fs]; omega)
  rw [hfile] at g1 g2 g3 g4 g5
  simp only [Experiment.fs] at g2 g3 g4
  simp only [Experiment.fs] at h2 h3 h4
  have hcall : e.call = e.watcher.readLine (e.bytes + 2) (fun _ => e.fs) [] := rfl
  rw [readLine_rewound e.fs e.watcher r _ h.reader ho, show (e.fs.files r.file).length = (e.files r.file).length from rfl, g5] at hcall
  rw [g3] at h2 h3 h4
  have hu : utf8Valid l = true := ascii_utf8 _ ((ascii_append _ _).1 h3).1
  have hw : WholeLines (r'.staged ++ (e.files r.file).drop r'.pos) := lines_right _ _ h2
  have ha : Ascii r'.staged := ((ascii_append _ _).1 ((ascii_append _ _).1 h3).2).1
  have he : WholeLines r'.staged ∨ r'.pos < (e.files r.file).length := by
    by_cases hp : r'.pos < (e.files r.file).length
    · exact Or.inr hp
    · left; rw [List.drop_eq_nil_of_le (by omega), List.append_nil] at hw; exact hw
  simp only [hu, if_true] at hcall
  by_cases hl : l = []
  · subst hl
    refine ⟨0, [], _, by simpa only [if_true] using hcall, ?_⟩
    intro e' k1 k2 k3 k4 k5
    refine ⟨r', by rw [k4], ?_, ?_, ?_, ?_, ?_, ha, ?_, ?_⟩
    · rw [k4, g1]; exact h.id
    · rw [k4, k2, g1]
      intro hr
      have := of_decide_eq_true hr
      simp only [Experiment.fs, h.id] at this
      exact fun hx => this (by rw [hx])
    · rw [k2, g1]; exact h.held
    · rw [k4]; exact g2
    · rw [k4]; exact he
    · rw [k1, k3, k5, g1]
      have : other e' r' = other e r := by simp only [other, k1, k2, g1]
      rw [this]
      simpa using h4
    · rw [k4, k1, g1]; intro hx; exact absurd hx (Nat.lt_irrefl _)
  · have hmem : (10 : UInt8) ∈ l := by
      rcases g4 with ⟨p, rfl, _⟩ | ⟨hn, hs, hp⟩
      · simp
      · rw [hs, hp, List.drop_length, List.append_nil, List.append_nil] at h2
        exact lines_mem _ h2 hl
    have hpos : 1 ≤ lf l := List.one_le_count_iff.2 hmem
    refine ⟨_, _, _, by simpa only [if_neg hl] using hcall, ?_⟩
    intro e' k1 k2 k3 k4 k5
    refine ⟨r', by rw [k4], ?_, ?_, ?_, ?_, ?_, ha, ?_, ?_⟩
    · rw [k4, g1]; exact h.id
    · rw [k4]; intro hr; exact absurd (ho.symm.trans hr) (by simp)
    · rw [k2, g1]; exact h.held
    · rw [k4]; exact g2
    · rw [k4]; exact he
    · rw [k1, k3, k5, g1]
      have : other e' r' = other e r := by simp only [other, k1, k2, g1]
      rw [this]
      rw [lf_append] at h4
      split <;> omega
    · rw [k4, k1, g1]; intro hx; exact absurd hx (Nat.lt_irrefl _)

theorem counted_open (e : Experiment) (r : Reader) (h : Counted e r) (ho : e.watcher.reopen = true) :
    Counted { e with watcher := e.watcher.openAtStart e.fs } { file := e.cur } := by
  have hne := h.reopen ho
  refine ⟨rfl, rfl, fun hr => absurd hr (by simp [Watcher.openAtStart, Experiment.fs]), Nat.le_refl _, Nat.zero_le _, Or.inl (Or.inl rfl), by simp [Ascii], ?_,
    fun hl => absurd hl (Nat.lt_irrefl _)⟩
  have := h.count
  simp only [other, if_neg hne] at this
  simp only [other, if_true, List.nil_append, List.drop_zero]
  show e.sutReads + lf (e.files e.cur) + 0 ≤ e.writes
  omega

/-- a call, whatever the watcher has to do first -/
theorem bounded_call (e : Experiment) (h : Bounded e) :
    ∃ n buf w, e.call = (.ok n, buf, w) ∧
      ∀ e' : Experiment, e'.files = e.files → e'.cur = e.cur → e'.writes = e.writes → e'.watcher = w →
        e'.sutReads = e.sutReads + (if n = 0 then 0 else 1) → ∃ r', Counted e' r' := by
  obtain ⟨hd, ⟨r, hc⟩, -, -⟩ := h
  cases ho : e.watcher.reopen with
  | false => exact counted_call e r hd hc ho
  | true =>
    rw [call_reopen e ho]
    exact counted_call { e with watcher := e.watcher.openAtStart e.fs } { file := e.cur } ⟨hd.bytes, hd.later, hd.ascii, hd.whole⟩ (counted_open e r hc ho) rfl

theorem readCounting_bounded (n : Nat) : ∀ e : Experiment, Bounded e → ∃ e', e.readCounting n = some e' ∧ Bounded e' := by
  induction n with
  | zero => intro e h; exact ⟨e, rfl, h⟩
  | succ n ih =>
    intro e h
    obtain ⟨k, buf, w, h1, h2⟩ := bounded_call e h
    obtain ⟨hd, -, hm, hr⟩ := h
    cases k with
    | zero =>
      simp only [Experiment.readCounting, h1]
      refine ih _ ⟨⟨hd.bytes, hd.later, hd.ascii, hd.whole⟩, h2 _ rfl rfl rfl rfl rfl, ⟨hm.1, ?_⟩, hr⟩
      exact Nat.lt_of_le_of_lt (Nat.zero_le _) hm.2
    | succ k =>
      obtain ⟨o, ms, i, g1, g2⟩ := models_next e hm
      cases o with
      | none =>
        simp only [Experiment.readCounting, h1, g1]
        exact ⟨_, rfl, ⟨hd.bytes, hd.later, hd.ascii, hd.whole⟩, h2 _ rfl rfl rfl rfl rfl, g2, Nat.le_succ_of_le hr⟩
      | some l =>
        simp only [Experiment.readCounting, h1, g1]
        exact ⟨_, rfl, ⟨hd.bytes, hd.later, hd.ascii, hd.whole⟩, h2 _ rfl rfl rfl rfl rfl, g2, Nat.succ_le_succ hr⟩

end Verif.FileBytes
