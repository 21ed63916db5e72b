import Verif.Model.Flush
import Verif.Props.Send
import Verif.Spec.Filter
/-!
# C64: the flush timer
-/
namespace Verif
open FlushTimer
variable {F : Type} [F64 F]

private theorem loop_eq (chans : List (Chan (Event F))) (idx n : Nat) :
    loop chans idx n = (sendAll chans ((List.range' (idx + 1) n).map Event.timerFlush)).1 := by
  induction n generalizing chans idx with
  | zero => rfl
  | succ n ih =>
    rw [loop, ih, List.range'_succ, List.map_cons, sendAll]

/-- **C64.**  At any point of the timer's execution — after any number `n` of turns — what each
channel has accepted from it is a subsequence of the pulses 1, 2, ..., `n`; and all of them, in order,
if the channel never reports that it is full. -/
theorem C64_pulses (chans : List (Chan (Event F))) (n : Nat) :
    (run chans n).length = chans.length ∧
    ∀ (i : Nat) (h : i < chans.length) (h' : i < (run chans n).length),
      ∃ sub, (run chans n)[i].accepted = chans[i].accepted ++ sub.map Event.timerFlush ∧
        sub.Sublist (List.range' 1 n) ∧ (.full ∉ chans[i].script → sub = List.range' 1 n) := by
  have e : run chans n = _ := loop_eq chans 0 n
  simp only [e]
  obtain ⟨h1, h2⟩ := C15_send_order chans ((List.range' (0 + 1) n).map Event.timerFlush)
  refine ⟨h1, fun i h h' => ?_⟩
  obtain ⟨sub, e1, e2, e3⟩ := h2 i h h'
  obtain ⟨sub', g1, rfl⟩ := List.sublist_map_iff.1 e2
  refine ⟨sub', e1, g1, fun hf => ?_⟩
  have := e3 hf
  have hinj : Function.Injective (Event.timerFlush (F := F)) := fun a b h => by simpa using h
  exact (List.map_inj_right (fun a b h => hinj h)).1 this

/-- No pulse is repeated: the accepted pulses are strictly increasing, whatever the channels report. -/
theorem C64_increasing (chans : List (Chan (Event F))) (n : Nat) (i : Nat) (h : i < chans.length)
    (h' : i < (run chans n).length) :
    ∃ sub : List Nat, (run chans n)[i].accepted = chans[i].accepted ++ sub.map Event.timerFlush ∧
      sub.Pairwise (· < ·) ∧ ∀ j ∈ sub, 1 ≤ j ∧ j ≤ n := by
  obtain ⟨sub, h1, h2, -⟩ := (C64_pulses chans n).2 i h h'
  refine ⟨sub, h1, List.Pairwise.sublist h2 (List.pairwise_lt_range' (step := 1)), fun j hj => ?_⟩
  have := h2.subset hj
  simp only [List.mem_range'_1] at this
  omega

/-- Two channels, the second full once. -/
example : (run [⟨[], []⟩, ⟨[], [.ok, .full]⟩] 3 : List (Chan (Event Int))).map (·.accepted.map Event.flushIdx) =
    [[some 1, some 2, some 3], [some 1, some 3]] := by decide

end Verif
