import Verif.Lemmas.FileBytes
import Verif.Lemmas.Utf8
import Verif.Spec.File
/-! # Lemmas: the watcher of bytes does what the watcher of text does -/
namespace Verif.FileBytes
open Graphite (utf8Valid)
open File (Text takeLine)

theorem byte_range (n : Nat) (h : n < 256) : ((0x80 ≤ UInt8.ofNat n && UInt8.ofNat n ≤ 0xBF) = true) ↔ 128 ≤ n ∧ n ≤ 191 := by
  simp only [Bool.and_eq_true, decide_eq_true_eq, UInt8.le_iff_toNat_le, UInt8.toNat_ofNat', Nat.reducePow, Nat.mod_eq_of_lt h]
  exact Iff.rfl

/-- a character is a first byte and continuation bytes -/
theorem char_shape (c : Char) : ∃ a t, String.utf8EncodeChar c = a :: t ∧ (0x80 ≤ a && a ≤ 0xBF) = false ∧
    (∀ b ∈ t, (0x80 ≤ b && b ≤ 0xBF) = true) ∧ (a = 10 ↔ c = '\n') := by
  have hv := c.valid
  simp only [UInt32.isValidChar, Nat.isValidChar] at hv
  have hc : c = '\n' ↔ c.val.toNat = 10 := by
    constructor
    · rintro rfl; rfl
    · intro h
      apply Char.ext
      apply UInt32.toNat_inj.1
      rw [h]; rfl
  have h10 : ∀ n, n < 256 → (UInt8.ofNat n = 10 ↔ n = 10) := by
    intro n h
    rw [← UInt8.toNat_inj, UInt8.toNat_ofNat', Nat.mod_eq_of_lt h]
    exact Iff.rfl
  have hno : ∀ n, n < 256 → (n < 128 ∨ 191 < n) → (0x80 ≤ UInt8.ofNat n && UInt8.ofNat n ≤ 0xBF) = false := by
    intro n h h2
    rw [← Bool.not_eq_true, byte_range n h]; omega
  simp only [String.utf8EncodeChar]
  rw [hc]
  generalize c.val.toNat = v at hv
  split
  · exact ⟨_, _, rfl, hno _ (by omega) (by omega), by simp, h10 _ (by omega)⟩
  · split
    · refine ⟨_, _, rfl, hno _ (by omega) (by omega), ?_, ?_⟩
      · intro b hb; simp only [List.mem_singleton] at hb; subst hb; rw [byte_range _ (by omega)]; omega
      · rw [h10 _ (by omega)]; omega
    · split
      · refine ⟨_, _, rfl, hno _ (by omega) (by omega), ?_, ?_⟩
        · intro b hb
          simp only [List.mem_cons, List.not_mem_nil, or_false] at hb
          rcases hb with rfl | rfl <;> (rw [byte_range _ (by omega)]; omega)
        · rw [h10 _ (by omega)]; omega
      · refine ⟨_, _, rfl, hno _ (by omega) (by omega), ?_, ?_⟩
        · intro b hb
          simp only [List.mem_cons, List.not_mem_nil, or_false] at hb
          rcases hb with rfl | rfl | rfl <;> (rw [byte_range _ (by omega)]; omega)
        · rw [h10 _ (by omega)]; omega

theorem encode_append (a b : Text) : encode (a ++ b) = encode a ++ encode b := by simp [encode]
theorem encode_nil : encode [] = [] := rfl
theorem encode_lf : encode ['\n'] = [10] := by decide

theorem encode_length (t : Text) : (encode t).length = File.size t := by
  induction t with
  | nil => rfl
  | cons c t ih =>
    simp only [encode, List.flatMap_cons, List.length_append, String.length_utf8EncodeChar] at ih ⊢
    simp only [File.size, List.map_cons, List.sum_cons] at ih ⊢
    rw [ih]

theorem lf_encode (t : Text) : (10 : UInt8) ∈ encode t ↔ '\n' ∈ t := by
  induction t with
  | nil => simp [encode]
  | cons c t ih =>
    obtain ⟨a, r, e, -, h3, h4⟩ := char_shape c
    have hr : (10 : UInt8) ∉ r := fun h => absurd (h3 _ h) (by decide)
    have : encode (c :: t) = a :: r ++ encode t := by rw [← e]; rfl
    rw [this]
    simp only [List.cons_append, List.mem_cons, List.mem_append, ih, hr, false_or]
    rw [eq_comm (a := (10 : UInt8)), h4, eq_comm (a := c)]

theorem encode_eq_nil (t : Text) : encode t = [] ↔ t = [] := by
  constructor
  · intro h
    cases t with
    | nil => rfl
    | cons c t =>
      obtain ⟨a, r, e, -⟩ := char_shape c
      have : encode (c :: t) = a :: r ++ encode t := by rw [← e]; rfl
      rw [this] at h; simp at h
  · rintro rfl; rfl

theorem popChar_encode (t : Text) : popChar (encode t) = encode t.dropLast := by
  rcases List.eq_nil_or_concat t with rfl | ⟨s, c, rfl⟩
  · rfl
  · rw [List.concat_eq_append, List.dropLast_concat, encode_append]
    obtain ⟨a, r, e, h2, h3, -⟩ := char_shape c
    have : encode [c] = a :: r := by rw [← e]; simp [encode]
    rw [this]
    simp only [popChar, List.reverse_append, List.reverse_cons, List.append_assoc]
    have h4 : ∀ (x y : Bytes), (∀ b ∈ x, (0x80 ≤ b && b ≤ 0xBF) = true) →
        (x ++ y).dropWhile (fun b => 0x80 ≤ b && b ≤ 0xBF) = y.dropWhile (fun b => 0x80 ≤ b && b ≤ 0xBF) := by
      intro x y hx
      induction x with
      | nil => rfl
      | cons b x ih =>
        rw [List.cons_append, List.dropWhile_cons, if_pos (hx b (by simp)), ih fun b hb => hx b (by simp [hb])]
    rw [h4 _ _ (by simpa using h3), List.singleton_append, List.dropWhile_cons_of_neg (by simp only [h2]; simp)]
    simp

theorem takeLine_cases (t : Text) : (∃ p q, t = p ++ '\n' :: q ∧ '\n' ∉ p ∧ takeLine t = p ++ ['\n']) ∨
    ('\n' ∉ t ∧ takeLine t = t) := by
  induction t with
  | nil => right; exact ⟨by simp, rfl⟩
  | cons c t ih =>
    by_cases hc : c = '\n'
    · left; exact ⟨[], t, by simp [hc], by simp, by simp [takeLine, hc]⟩
    · rcases ih with ⟨p, q, e1, e2, e3⟩ | ⟨e1, e2⟩
      · left
        exact ⟨c :: p, q, by simp [e1], by simp [e2, Ne.symm hc], by simp [takeLine, hc, e3]⟩
      · right
        exact ⟨by simp [e1, Ne.symm hc], by simp [takeLine, hc, e2]⟩

/-- the first line of a text, in bytes -/
theorem line_encode (t : Text) (l rest : Bytes) (h : encode t = l ++ rest) (hl : IsLine l ∨ ((10 : UInt8) ∉ l ∧ rest = [])) :
    l = encode (takeLine t) ∧ rest = encode (t.drop (takeLine t).length) := by
  rcases takeLine_cases t with ⟨p, q, e1, e2, e3⟩ | ⟨e1, e2⟩
  · have he : encode t = encode p ++ [10] ++ encode q := by
      rw [e1, show p ++ '\n' :: q = p ++ (['\n'] ++ q) by simp, encode_append, encode_append, encode_lf]; simp
    have hp : (10 : UInt8) ∉ encode p := by rw [lf_encode]; exact e2
    have hd : t.drop (takeLine t).length = q := by
      rw [e3, e1, show p ++ '\n' :: q = (p ++ ['\n']) ++ q by simp]; exact List.drop_left
    rw [hd, e3, encode_append, encode_lf]
    rcases hl with ⟨x, rfl, hx⟩ | ⟨h1, rfl⟩
    · rw [he] at h
      obtain ⟨rfl, rfl⟩ := line_unique _ _ _ _ hp hx h
      exact ⟨rfl, rfl⟩
    · rw [he, List.append_nil] at h
      exact absurd (by rw [← h]; simp) h1
  · have h1 : (10 : UInt8) ∉ encode t := by rw [lf_encode]; exact e1
    rw [e2]
    rcases hl with ⟨x, rfl, hx⟩ | ⟨-, rfl⟩
    · exact absurd (by rw [h]; simp) h1
    · rw [List.append_nil] at h
      exact ⟨h.symm, by simp [encode_nil]⟩

/-- the same watcher, on text and on bytes -/
structure Sim (fs : File.FS) (w : File.Watcher) (v : Watcher) : Prop where
  path : v.path = w.path
  id : v.fileId = w.fileId
  size : v.previousSize = w.previousSize
  reopen : v.reopen = w.reopen
  closed : w.reader = none → v.reader = none
  opened : ∀ i pos, w.reader = some (i, pos) → ∃ r, v.reader = some r ∧ r.file = i ∧
    (w.previousSize > File.size (fs.files i) ∨
      (pos ≤ (fs.files i).length ∧ r.pos ≤ (encode (fs.files i)).length ∧
        r.staged ++ (encode (fs.files i)).drop r.pos = encode ((fs.files i).drop pos)))

/-- the size remembered is that of the open file -/
def Settled (fs : File.FS) (w : File.Watcher) : Prop := ∀ i pos, w.reader = some (i, pos) → w.previousSize = File.size (fs.files i)

theorem sim_open (fs : File.FS) (w : File.Watcher) (v : Watcher) (hp : v.path = w.path) (hs : v.previousSize = w.previousSize) :
    Sim fs (w.openAtStart fs) (v.openAtStart (encodeFS fs)) ∧ Settled fs (w.openAtStart fs) := by
  simp only [File.Watcher.openAtStart, Watcher.openAtStart, encodeFS, hp]
  cases hq : fs.paths w.path with
  | none =>
    simp only
    exact ⟨⟨rfl, rfl, hs, rfl, fun _ => rfl, by simp⟩, by intro i pos h; simp at h⟩
  | some i =>
    simp only
    refine ⟨⟨rfl, rfl, encode_length _, rfl, by simp, ?_⟩, ?_⟩
    · intro j pos h
      simp only [Option.some.injEq, Prod.mk.injEq] at h
      obtain ⟨rfl, rfl⟩ := h
      exact ⟨_, rfl, rfl, Or.inr ⟨Nat.zero_le _, Nat.zero_le _, by simp⟩⟩
    · intro j pos h
      simp only [Option.some.injEq, Prod.mk.injEq] at h
      obtain ⟨rfl, rfl⟩ := h
      rfl

/-- one call -/
theorem sim_read (fuel : Nat) (fs : File.FS) (w : File.Watcher) (v : Watcher) (hs : Sim fs w v)
    (hf : ∀ i, File.size (fs.files i) + 2 ≤ fuel) :
    ∃ v', v.readLine fuel (fun _ => encodeFS fs) [] = (.ok (w.readLine fs).1.1, encode (w.readLine fs).1.2, v') ∧
      Sim fs (w.readLine fs).2 v' ∧ Settled fs (w.readLine fs).2 ∧ (w.readLine fs).1.1 = File.size (w.readLine fs).1.2 := by
  -- after reopening
  have hw : Sim fs (if w.reopen then w.openAtStart fs else w) (if v.reopen then v.openAtStart (encodeFS fs) else v) := by
    rw [hs.reopen]
    split
    · exact (sim_open fs w v hs.path hs.size).1
    · exact hs
  simp only [File.Watcher.readLine, Watcher.readLine]
  generalize (if w.reopen then w.openAtStart fs else w) = w1 at hw ⊢
  generalize (if v.reopen then v.openAtStart (encodeFS fs) else v) = v1 at hw ⊢
  cases hr : w1.reader with
  | none =>
    rw [hw.closed hr]
    obtain ⟨h1, h2⟩ := sim_open fs w1 v1 hw.path hw.size
    exact ⟨_, rfl, h1, h2, rfl⟩
  | some ip =>
    obtain ⟨i, pos⟩ := ip
    obtain ⟨r, e1, rfl, e3⟩ := hw.opened i pos hr
    rw [e1]
    have hcur : ((encodeFS fs).files r.file).length = File.size (fs.files r.file) := encode_length _
    simp only [hcur, hw.size]
    -- where the two readers stand
    obtain ⟨r1, hr1, f1, f2, f3, f4⟩ : ∃ r1, (if w1.previousSize > File.size (fs.files r.file) then r.rewind else r) = r1 ∧ r1.file = r.file ∧
        (if w1.previousSize > File.size (fs.files r.file) then 0 else pos) ≤ (fs.files r.file).length ∧
        r1.pos ≤ (encode (fs.files r.file)).length ∧
        r1.staged ++ (encode (fs.files r.file)).drop r1.pos =
          encode ((fs.files r.file).drop (if w1.previousSize > File.size (fs.files r.file) then 0 else pos)) := by
      by_cases hc : w1.previousSize > File.size (fs.files r.file)
      · simp only [hc, if_true]
        exact ⟨_, rfl, rfl, Nat.zero_le _, Nat.zero_le _, by simp [Reader.rewind]⟩
      · simp only [hc, if_false]
        rcases e3 with e3 | ⟨e3, e4, e5⟩
        · exact absurd e3 hc
        · exact ⟨_, rfl, rfl, e3, e4, e5⟩
    rw [hr1]
    generalize (if w1.previousSize > File.size (fs.files r.file) then 0 else pos) = pos1 at f2 f4 ⊢
    obtain ⟨l, r', k', g1, g2, g3, g4, g5, g6⟩ := readUntil_spec (fun _ => encode (fs.files r.file)) (encode (fs.files r.file))
      (fun _ => encodeFS fs) r.file (fun _ => rfl) (fun _ => List.prefix_refl _) (fun _ => Nat.le_refl _) fuel r1 [] 1 f1 f3 (by simp)
      (by have := hf r.file; rw [← encode_length] at this; split <;> omega)
    simp only [List.nil_append, f4] at g5
    have hrest : IsLine l ∨ ((10 : UInt8) ∉ l ∧ r'.staged ++ (encode (fs.files r.file)).drop r'.pos = []) := by
      rcases g6 with h | ⟨h1, h2, h3⟩
      · exact Or.inl h
      · exact Or.inr ⟨h1, by rw [h2, h3]; simp⟩
    obtain ⟨hl, hx⟩ := line_encode _ l _ g5 hrest
    have hvalid : utf8Valid l = true := by rw [hl]; exact (Graphite.valid_iff _).2 ⟨_, rfl⟩
    simp only [g1, hvalid, if_true]
    generalize hline : takeLine ((fs.files r.file).drop pos1) = line at hl hx ⊢
    have hle : pos1 + line.length ≤ (fs.files r.file).length := by
      have : line.length ≤ ((fs.files r.file).drop pos1).length := by
        rw [← hline]
        rcases takeLine_cases ((fs.files r.file).drop pos1) with ⟨p, q, a1, -, a3⟩ | ⟨-, a2⟩
        · rw [a3, a1]; simp
        · rw [a2]; exact Nat.le_refl _
      rw [List.length_drop] at this
      omega
    by_cases hn : line = []
    · have hl0 : l = [] := by rw [hl, hn]; rfl
      simp only [hn, hl0, if_true]
      refine ⟨_, rfl, ⟨hw.path, hw.id, rfl, ?_, by simp, ?_⟩, ?_, rfl⟩
      · simp only [hw.reopen, hw.path, hw.id, encodeFS, File.FS.fileId]
        congr
      · intro j q h
        simp only [Option.some.injEq, Prod.mk.injEq] at h
        obtain ⟨rfl, rfl⟩ := h
        refine ⟨r', rfl, g2, Or.inr ⟨f2, g4, ?_⟩⟩
        rw [hx, hn]; simp
      · intro j q h
        simp only [Option.some.injEq, Prod.mk.injEq] at h
        obtain ⟨rfl, rfl⟩ := h
        rfl
    · have hl0 : l ≠ [] := by rw [hl]; intro h; exact hn ((encode_eq_nil _).1 h)
      simp only [hn, hl0, if_false, List.nil_append, if_true]
      have hpop : popChar l = encode (File.pop line) := by rw [hl, popChar_encode]; rfl
      rw [hpop, encode_length]
      refine ⟨_, rfl, ⟨hw.path, hw.id, rfl, hw.reopen, by simp, ?_⟩, ?_, trivial⟩
      · intro j q h
        simp only [Option.some.injEq, Prod.mk.injEq] at h
        obtain ⟨rfl, rfl⟩ := h
        refine ⟨r', rfl, g2, Or.inr ⟨hle, g4, ?_⟩⟩
        rw [hx, List.drop_drop]
      · intro j q h
        simp only [Option.some.injEq, Prod.mk.injEq] at h
        obtain ⟨rfl, rfl⟩ := h
        rfl

/-- time passes -/
theorem sim_later (fs fs' : File.FS) (w : File.Watcher) (v : Watcher) (hs : Sim fs w v)
    (hg : ∀ i pos, w.reader = some (i, pos) → ¬ (w.previousSize > File.size (fs.files i)) →
      fs.files i <+: fs'.files i ∨ File.size (fs'.files i) < w.previousSize)
    (hp : ∀ i pos, w.reader = some (i, pos) → ¬ (w.previousSize > File.size (fs.files i))) : Sim fs' w v := by
  refine ⟨hs.path, hs.id, hs.size, hs.reopen, hs.closed, ?_⟩
  intro i pos h
  obtain ⟨r, e1, e2, e3⟩ := hs.opened i pos h
  refine ⟨r, e1, e2, ?_⟩
  have hnot := hp i pos h
  rcases hg i pos h hnot with ⟨D, hD⟩ | hlt
  · right
    rcases e3 with e3 | ⟨a1, a2, a3⟩
    · exact absurd e3 hnot
    · rw [← hD]
      refine ⟨by simp; omega, by rw [encode_append, List.length_append]; omega, ?_⟩
      rw [encode_append, List.drop_append_of_le_length a2, ← List.append_assoc, a3, List.drop_append_of_le_length a1, encode_append]
  · exact Or.inl hlt

theorem sim_step (fs fs' : File.FS) (w : File.Watcher) (v : Watcher) (hs : Sim fs w v) (ht : Settled fs w)
    (hc : AppendedOrCut fs fs') : Sim fs' w v := by
  refine sim_later fs fs' w v hs ?_ ?_
  · intro i pos h _
    rcases hc i with h1 | h1
    · exact Or.inl h1
    · right; rw [ht i pos h]; exact h1
  · intro i pos h
    rw [ht i pos h]; omega

theorem sim_new (fs fs' : File.FS) (path : Str) (hg : ∀ i, fs.files i <+: fs'.files i) :
    Sim fs' (File.Watcher.new fs path) (Watcher.new (encodeFS fs) path) := by
  have h0 : Sim fs (File.Watcher.new fs path) (Watcher.new (encodeFS fs) path) := by
    simp only [File.Watcher.new, Watcher.new, encodeFS]
    cases hq : fs.paths path with
    | none =>
      simp only
      exact ⟨rfl, rfl, rfl, rfl, fun _ => rfl, by simp⟩
    | some i =>
      simp only
      refine ⟨rfl, rfl, rfl, rfl, by simp, ?_⟩
      intro j pos h
      simp only [Option.some.injEq, Prod.mk.injEq] at h
      obtain ⟨rfl, rfl⟩ := h
      exact ⟨_, rfl, rfl, Or.inr ⟨Nat.le_refl _, Nat.le_refl _, by simp [encode_nil]⟩⟩
  refine sim_later fs fs' _ _ h0 (fun i _ _ _ => Or.inl (hg i)) ?_
  intro i pos h
  have : (File.Watcher.new fs path).previousSize = 0 := by
    simp only [File.Watcher.new]; split <;> rfl
  omega

end Verif.FileBytes
