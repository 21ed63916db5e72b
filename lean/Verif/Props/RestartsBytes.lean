import Verif.Spec.RestartsBytes
import Verif.Props.FileBytes
/-!
# C153, for files of arbitrary bytes
-/
namespace Verif
open FileBytes
open Graphite (finishedLines utf8Valid)

/-- Bytes that end with a line feed are their lines. -/
private theorem whole_lines : ∀ (n : Nat) (a : Bytes), a.length ≤ n → Whole a → ∃ ls : List Bytes, a = ls.flatten ∧ ∀ l ∈ ls, IsLine l := by
  intro n
  induction n with
  | zero =>
    intro a h _
    have : a = [] := List.length_eq_zero_iff.1 (by omega)
    exact ⟨[], by simp [this], by simp⟩
  | succ n ih =>
    intro a h hw
    by_cases hm : (10 : UInt8) ∈ a
    · obtain ⟨p, b, rfl, hp⟩ := List.eq_append_cons_of_mem hm
      have e : p ++ 10 :: b = (p ++ [10]) ++ b := by simp
      rw [e] at hw
      obtain ⟨ls, h1, h2⟩ := ih b (by simp at h; omega) (whole_suffix _ _ hw)
      refine ⟨(p ++ [10]) :: ls, by simp [h1], ?_⟩
      intro l hl
      rcases List.mem_cons.1 hl with rfl | hl
      · exact ⟨p, rfl, hp⟩
      · exact h2 l hl
    · cases ha : a.getLast? with
      | none => exact ⟨[], by simpa using ha, by simp⟩
      | some b =>
        have hb := hw b ha
        subst hb
        exact absurd (List.mem_of_getLast? ha) hm

private theorem finished_append (a b : Bytes) (ha : Whole a) : finishedLines (a ++ b) = finishedLines a ++ finishedLines b := by
  obtain ⟨ls, h1, h2⟩ := whole_lines a.length a (Nat.le_refl _) ha
  have h3 := finished_lines ls h2 []
  have h4 := finished_lines ls h2 b
  rw [← h1] at h3 h4
  rw [h4]
  simp [finishedLines] at h3
  rw [h3]

private theorem shown_append (a b : List Bytes) : shown (a ++ b) = shown a ++ shown b := by simp [shown]

private theorem shown_sublist {a b : List Bytes} (h : a.Sublist b) : (shown a).Sublist (shown b) := by
  simp only [shown]
  exact (h.filter _).map _

private theorem written_whole (events : List FileBytes.Event) (h : ∀ e ∈ events, ∀ p ∈ e.pieces, Whole p) : Whole (Event.written events) := by
  apply whole_flatten
  intro p hp
  obtain ⟨e, he, hpe⟩ := List.mem_flatMap.1 hp
  exact h e he p hpe

/-- **C153 (bytes).**  A file of any bytes is appended to in whole lines, over any number of lives of the source, which may each come to their end at any line, and with any writes between them and
in the middle of reads: what is sent of it in all of them comes from the lines appended, in order, and none is sent twice; and it is text and not blank. -/
theorem C153_bytes (path : Str) (content : Bytes) (lives : List FileBytes.Life) (hl : ∀ l ∈ lives, l.Lines) :
    (sentOver path content lives).Sublist (shown (finishedLines (lives.flatMap (·.appended)))) := by
  induction lives generalizing content with
  | nil => simp [sentOver]
  | cons l ls ih =>
    obtain ⟨h1, h2⟩ := hl l (by simp)
    obtain ⟨n, h3, -⟩ := C103_passes_partial l.max (content ++ l.missed) path l.events h2
    have hw : Whole l.appended := whole_append _ _ h1 (written_whole _ h2)
    rw [List.flatMap_cons, finished_append _ _ hw, shown_append]
    refine List.Sublist.append ?_ (ih _ fun x hx => hl x (by simp [hx]))
    refine (List.take_sublist _ _).trans ?_
    rw [h3]
    refine shown_sublist ((List.take_sublist _ _).trans ?_)
    rw [FileBytes.Life.appended, finished_append _ _ h1]
    exact List.sublist_append_right _ _

/-- **C153 (bytes, all of them).**  If each life lasts until it has caught up with the file, exactly the lines that are text and not blank and were written while the file was watched are sent: those
written between the lives never. -/
theorem C153_bytes_all (path : Str) (content : Bytes) (lives : List FileBytes.Life) (hl : ∀ l ∈ lives, l.Lines) (hs : ∀ l ∈ lives, l.Settled) :
    sentOver path content lives = lives.flatMap fun l => shown (finishedLines (Event.written l.events)) := by
  induction lives generalizing content with
  | nil => rfl
  | cons l ls ih =>
    obtain ⟨-, h2⟩ := hl l (by simp)
    obtain ⟨ev, m, e, hm, he⟩ := hs l (by simp)
    have hev : ∀ e ∈ ev, ∀ p ∈ e.pieces, Whole p := fun x hx => h2 x (by rw [e]; simp [hx])
    have hwr : Event.written l.events = Event.written ev := by
      rw [e]; simp [Event.written, Event.pieces]
    obtain ⟨n, -, h3⟩ := C103_passes_partial l.max (content ++ l.missed) path ev hev
    have h4 := h3 m (by rw [← hwr]; omega)
    have h5 : ((World.start (content ++ l.missed) path).serve l.max l.events).delivered = shown (finishedLines (Event.written l.events)) := by
      rw [hwr, ← h4, e]
      simp only [World.serve, List.foldl_append]
    have h6 : (shown (finishedLines (Event.written l.events))).length ≤ l.ends := by
      refine Nat.le_trans ?_ he
      simp only [shown, List.length_map]
      exact List.length_filter_le _ _
    simp only [sentOver, List.flatMap_cons]
    rw [ih _ (fun x hx => hl x (by simp [hx])) (fun x hx => hs x (by simp [hx])), h5, List.take_of_length_le h6]

/-- Two lives; between them a line is written that nobody watches, and the first ends before the second of its lines is sent. -/
private def twoLives : List FileBytes.Life :=
  [⟨[], 100, [.append [97, 10, 255, 10, 98, 10], .pass [], .pass []], 1⟩, ⟨[99, 10], 100, [.append [100, 10], .pass [], .pass []], 9⟩]

example : (∀ l ∈ twoLives, l.Lines) ∧ sentOver [] [120, 10] twoLives = [[97], [100]] ∧
    shown (finishedLines (twoLives.flatMap (·.appended))) = [[97], [98], [99], [100]] := by
  refine ⟨?_, by decide +kernel, by decide +kernel⟩
  intro l hl
  simp only [twoLives, List.mem_cons, List.not_mem_nil, or_false] at hl
  rcases hl with rfl | rfl <;> simp [FileBytes.Life.Lines, Whole, FileBytes.Event.pieces]

example : (∀ l ∈ twoLives.drop 1, l.Settled) ∧ (∀ l ∈ twoLives.drop 1, l.Lines) ∧ sentOver [] [120, 10] (twoLives.drop 1) = [[100]] := by
  refine ⟨?_, ?_, by decide +kernel⟩
  · intro l hl
    simp only [twoLives, List.drop_succ_cons, List.drop_zero, List.mem_singleton] at hl
    subst hl
    exact ⟨[.append [100, 10]], 2, rfl, by decide +kernel, by decide +kernel⟩
  · intro l hl
    simp only [twoLives, List.drop_succ_cons, List.drop_zero, List.mem_singleton] at hl
    subst hl
    simp [FileBytes.Life.Lines, Whole, FileBytes.Event.pieces]

end Verif
