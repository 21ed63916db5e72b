import Verif.Model.StatsdRecv
import Verif.Props.Statsd
import Verif.Lemmas.Proto
/-!
# C98: what is read of a datagram
-/
namespace Verif
open Statsd

/-- **C98, the content (part).**  Of a datagram of at most 16250 bytes the source reads all: if it is the UTF-8 form of a text, that text.
Missing: longer datagrams, see below. -/
theorem C98_text_partial (s : Str) (now : Int) (h : (Proto.utf8 s).length ≤ 16250) : receive (Proto.utf8 s) now = ⟨some s, now⟩ := by
  simp only [receive, bufferSize, List.take_of_length_le h, Proto.unUtf8_utf8]

example : (Proto.utf8 "é:1|c\n".toList).length = 7 := by decide

private theorem receive_long (s t : Str) (now : Int) (h : (Proto.utf8 s).length = 16250) : receive (Proto.utf8 (s ++ t)) now = ⟨some s, now⟩ := by
  have e : Proto.utf8 (s ++ t) = Proto.utf8 s ++ Proto.utf8 t := by simp [Proto.utf8]
  simp only [receive, bufferSize, e, List.take_left' h, Proto.unUtf8_utf8]

section
variable {F : Type} [F64 F]

private theorem one_reading (cfg : Config F) (now : Int) (hu : cfg.Usable) (ha : cfg.AsciiNumbers) (r : Reading) (hv : r.Valid cfg)
    (hn : '\n' ∉ r.text) (hr : '\r' ∉ r.text) : ∃ p, r.point cfg now = some p ∧ handleDatagrams cfg [⟨some r.text, now⟩] [] = ([p], true) := by
  obtain ⟨pts, h1, h2⟩ := C40_readings cfg now hu ha [] (some r) (by simp) (by simp [hv, hn, hr])
  simp only [List.map_nil, Option.toList_some, List.nil_append, List.map_cons, unlines, List.flatMap_nil, Option.map_some, Option.getD_some] at h1 h2
  obtain ⟨p, rfl⟩ : ∃ p, pts = [p] := by
    have := congrArg List.length h1
    simp at this
    exact List.length_eq_one_iff.1 this.symm
  simp only [List.map_cons, List.map_nil, List.cons.injEq, and_true] at h1
  exact ⟨p, h1, by simp [handleDatagrams, h2]⟩

/-- C98 is false of the code for datagrams over 16250 bytes: they are cut without notice, and what is left may be a valid reading of another
number.  Here the sample rate `10` of a counter becomes `1`: the source forwards the point of the second reading although the client sent the first. -/
theorem C98_long_datagram_false (cfg : Config F) (now : Int) (hu : cfg.Usable) (ha : cfg.AsciiNumbers) (name : Str) (hlen : (Proto.utf8 name).length = 16244)
    (h1 : ':' ∉ name) (h2 : '\n' ∉ name) (h3 : '\r' ∉ name) (h5 : (cfg.parseF ['5']).isSome) (h10 : (cfg.parseF ['1', '0']).isSome)
    (h01 : (cfg.parseF ['1']).isSome) :
    let sent : Reading := ⟨name, ['5'], .counter, some (false, ['1', '0'])⟩
    let taken : Reading := ⟨name, ['5'], .counter, some (false, ['1'])⟩
    sent.Valid cfg ∧ ∃ p, taken.point cfg now = some p ∧ handleDatagrams cfg [receive (Proto.utf8 sent.text) now] [] = ([p], true) := by
  have hne : name ≠ [] := by rintro rfl; simp [Proto.utf8] at hlen
  have key : ∀ rate : Str, (cfg.parseF rate).isSome → (Reading.mk name ['5'] .counter (some (false, rate))).Valid cfg := by
    intro rate hr
    refine ⟨hne, h1, by simp, h5, ?_⟩
    intro bar rate' h
    simp only [Option.some.injEq, Prod.mk.injEq] at h
    rw [← h.2]; exact hr
  refine ⟨key _ h10, ?_⟩
  have e : (Reading.mk name ['5'] .counter (some (false, ['1', '0']))).text =
      (Reading.mk name ['5'] .counter (some (false, ['1']))).text ++ ['0'] := by simp [Reading.text]
  have hl : (Proto.utf8 (Reading.mk name ['5'] .counter (some (false, ['1']))).text).length = 16250 := by
    have e2 : (Reading.mk name ['5'] .counter (some (false, ['1']))).text = name ++ [':', '5', '|', 'c', '@', '1'] := by simp [Reading.text, Ty.text]
    have e3 : Proto.utf8 (name ++ [':', '5', '|', 'c', '@', '1']) = Proto.utf8 name ++ [58, 53, 124, 99, 64, 49] := by
      have : Proto.utf8 [':', '5', '|', 'c', '@', '1'] = [58, 53, 124, 99, 64, 49] := by decide
      rw [← this]; simp [Proto.utf8]
    rw [e2, e3, List.length_append, hlen]; rfl
  rw [e, receive_long _ _ now hl]
  refine one_reading cfg now hu ha _ (key _ h01) ?_ ?_
  · simp [Reading.text, Ty.text, h2]
  · simp [Reading.text, Ty.text, h3]

end

/-- Such a configuration and name, with different numbers. -/
example :
    let cfg : Config Int := { summarizeErrorBound := 0, parseF := fun s => if s = ['5'] then some 5 else if s = ['1'] then some 1 else if s = ['1', '0'] then some 10 else none }
    let name : Str := List.replicate 16244 'a'
    cfg.Usable ∧ cfg.AsciiNumbers ∧ (Proto.utf8 name).length = 16244 ∧ ':' ∉ name ∧ '\n' ∉ name ∧ '\r' ∉ name ∧
      (cfg.parseF ['5']).isSome ∧ (cfg.parseF ['1', '0']).isSome ∧ (cfg.parseF ['1']).isSome ∧
      (Reading.mk name ['5'] .counter (some (false, ['1', '0']))).number cfg = some 0 ∧
      (Reading.mk name ['5'] .counter (some (false, ['1']))).number cfg = some 5 := by
  refine ⟨⟨by decide, by simp⟩, ?_, ?_, ?_, ?_, ?_, by decide, by decide, by decide, by decide, by decide⟩
  · intro s hs
    dsimp only at hs
    by_cases h1 : s = ['5']
    · exact ⟨'5', [], h1, by decide⟩
    · by_cases h2 : s = ['1']
      · exact ⟨'1', [], h2, by decide⟩
      · by_cases h3 : s = ['1', '0']
        · exact ⟨'1', ['0'], h3, by decide⟩
        · rw [if_neg h1, if_neg h2, if_neg h3] at hs; exact absurd hs (by simp)
  · have : ∀ n, (Proto.utf8 (List.replicate n 'a')).length = n := by
      intro n
      induction n with
      | zero => rfl
      | succ n ih =>
        have hc : String.utf8EncodeChar 'a' = [97] := by decide
        simp only [Proto.utf8, List.replicate_succ, List.flatMap_cons, hc, List.length_append] at ih ⊢
        rw [ih]; simp; omega
    exact this _
  all_goals
    intro h
    exact absurd (List.eq_of_mem_replicate h) (by decide)

end Verif
