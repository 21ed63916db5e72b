import Verif.Model.Logging
/-!
# C132: which of the broker client's messages are logged
-/
namespace Verif
open Logging

/-- `p` occurs in `s`. -/
private def Occurs (p s : Str) : Prop := ∃ a b, s = a ++ (p ++ b)

private theorem places_nil (p : Str) (hp : p ≠ []) (n : Nat) : ∀ (i : Nat) (s : Str), s.length < n → (places p n i s = [] ↔ ¬ Occurs p s) := by
  induction n with
  | zero => intro i s h; omega
  | succ n ih =>
    intro i s h
    unfold places
    by_cases hs : p.isPrefixOf s = true
    · rw [if_pos hs]
      obtain ⟨b, hb⟩ := List.isPrefixOf_iff_prefix.1 hs
      simp only [reduceCtorEq, false_iff, Classical.not_not]
      exact ⟨[], b, hb.symm⟩
    · rw [if_neg hs]
      cases s with
      | nil =>
        simp only [true_iff]
        rintro ⟨a, b, e⟩
        have := congrArg List.length e
        simp at this
        exact hp (List.length_eq_zero_iff.1 (by omega))
      | cons c s =>
        simp only
        rw [ih (i + 1) s (by simpa using h)]
        refine ⟨fun hn => ?_, fun hn => ?_⟩
        · rintro ⟨a, b, e⟩
          cases a with
          | nil => exact hs (List.isPrefixOf_iff_prefix.2 ⟨b, by simpa using e.symm⟩)
          | cons x a => simp only [List.cons_append, List.cons.injEq] at e; exact hn ⟨a, b, e.2⟩
        · rintro ⟨a, b, e⟩; exact hn ⟨c :: a, b, by rw [e]; rfl⟩

private theorem shouldEmit_iff (m : Str) : shouldEmit m = true ↔ ¬ ∃ a b, m = a ++ ("Receive failed: Disconnected".toList ++ b) := by
  unfold shouldEmit
  rw [List.isEmpty_iff]
  exact places_nil _ (by decide) _ _ _ (Nat.lt_succ_self _)

/-- **C132 (which messages).**  A message of the broker client is written exactly if it does not contain "Receive failed: Disconnected" and its severity is
asked for: errors and worse always, warnings from one `-v` on, notices and information from two, debugging from three; global errors likewise always, unless
they contain that text. -/
theorem C132_exact (verbose : Nat) (message : Str) :
    (∀ severity, logged verbose severity message = true ↔
      (¬ ∃ a b, message = a ++ ("Receive failed: Disconnected".toList ++ b)) ∧
      (match severity with
        | .emerg | .alert | .critical | .error => 0
        | .warning => 1
        | .notice | .info => 2
        | .debug => 3) ≤ verbose) ∧
    (errorLogged verbose message = true ↔ ¬ ∃ a b, message = a ++ ("Receive failed: Disconnected".toList ++ b)) := by
  have hv : ∀ l, passes verbose l = true ↔ l.rank ≤ (level verbose).rank := fun l => by simp [passes]
  have hlevel : (level verbose).rank = min (verbose + 1) 5 := by
    rcases verbose with _ | _ | _ | _ | n <;> simp [level, Level.rank]
  refine ⟨fun severity => ?_, ?_⟩
  · rw [logged, Bool.and_eq_true, shouldEmit_iff, hv, hlevel]
    cases severity <;> simp only [recordLevel, Level.rank] <;> refine and_congr Iff.rfl ?_ <;> omega
  · rw [errorLogged, Bool.and_eq_true, shouldEmit_iff, hv, hlevel]
    simp only [Level.rank, and_iff_left_iff_imp]
    omega

/-- **C132 (more is more).**  A further `-v` never hides a message. -/
theorem C132_monotone (v w : Nat) (h : v ≤ w) (severity : Severity) (message : Str) (hl : logged v severity message = true) :
    logged w severity message = true := by
  rw [(C132_exact _ _).1] at hl ⊢
  exact ⟨hl.1, Nat.le_trans hl.2 h⟩

example : logged 0 .error "x: Receive failed: Disconnected (after 9 ms)".toList = false ∧ logged 0 .error "Receive failed: Timed out".toList = true ∧
    logged 0 .warning "w".toList = false ∧ logged 1 .warning "w".toList = true ∧ logged 9 .debug "".toList = true ∧
    logged 2 .debug "".toList = false ∧ errorLogged 0 "e".toList = true := by decide +kernel

end Verif
