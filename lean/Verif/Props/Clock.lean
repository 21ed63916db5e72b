import Verif.Model.Clock
/-!
# C107: cernan's clock
-/
namespace Verif
open Clock

/-- The times the system can give. -/
def Clock.InRange (sys : Nat → Int) : Prop := ∀ ms, -(2 ^ 63) ≤ sys ms ∧ sys ms < 2 ^ 63

private theorem round_trip {v : Int} (h : -(2 ^ 63) ≤ v ∧ v < 2 ^ 63) : Clock.asI64 (asUsize v) = v := by
  unfold Clock.asI64 asUsize
  split <;> omega

private theorem run_cons {sys : Nat → Int} {s s' : State} {l : Label} {ls : List Label} {rs : List Reading}
    (h : run sys s (l :: ls) = some (s', rs)) :
    ∃ s1 r rs1, step sys s l = some (s1, r) ∧ run sys s1 ls = some (s', rs1) ∧ rs = r.toList.map (Reading.mk s.time) ++ rs1 := by
  simp only [run, Option.bind_eq_some_iff, Option.map_eq_some_iff] at h
  obtain ⟨⟨s1, r⟩, h1, ⟨s2, rs1⟩, h2, h3⟩ := h
  simp only [Prod.mk.injEq] at h3
  exact ⟨s1, r, rs1, h1, by rw [h2, h3.1], h3.2.symm⟩

/-- What is stored was given by the system at some moment, no later than now. -/
private def Known (sys : Nat → Int) (first : Nat) (s : State) : Prop :=
  (∀ n, s.now = some n → ∃ m, first ≤ m ∧ m ≤ s.time ∧ n = asUsize (sys m)) ∧ first ≤ s.time

private theorem step_known (sys : Nat → Int) (hr : InRange sys) (s s1 : State) (l : Label) (r : Option Int) (first : Nat)
    (hk : Known sys first s) (h : step sys s l = some (s1, r)) :
    s.time ≤ s1.time ∧ ((r = none ∧ Known sys first s1) ∨
      ∃ m, first ≤ m ∧ m ≤ s.time ∧ r = some (sys m) ∧ Known sys m s1) := by
  cases l with
  | pass ms =>
    simp only [step, Option.some.injEq, Prod.mk.injEq] at h
    obtain ⟨rfl, rfl⟩ := h
    refine ⟨Nat.le_add_right .., Or.inl ⟨rfl, fun n hn => ?_, Nat.le_trans hk.2 (Nat.le_add_right ..)⟩⟩
    obtain ⟨m, a, b, c⟩ := hk.1 n hn
    exact ⟨m, a, Nat.le_trans b (Nat.le_add_right ..), c⟩
  | read =>
    simp only [step, Option.some.injEq, Prod.mk.injEq] at h
    obtain ⟨m, hm1, hm2, hm3⟩ : ∃ m, first ≤ m ∧ m ≤ s.time ∧ s.now.getD (asUsize (sys s.time)) = asUsize (sys m) := by
      cases hn : s.now with
      | none => exact ⟨s.time, hk.2, Nat.le_refl _, rfl⟩
      | some n => exact hk.1 n hn
    rw [hm3] at h
    obtain ⟨rfl, rfl⟩ := h
    refine ⟨Nat.le_refl _, Or.inr ⟨m, hm1, hm2, by rw [round_trip (hr m)], fun n hn => ?_, hm2⟩⟩
    simp only [Option.some.injEq] at hn
    exact ⟨m, Nat.le_refl _, hm2, hn.symm⟩
  | spawn =>
    simp only [step] at h
    split at h
    · simp only [Option.some.injEq, Prod.mk.injEq] at h
      obtain ⟨rfl, rfl⟩ := h
      exact ⟨Nat.le_refl _, Or.inl ⟨rfl, hk⟩⟩
    · simp at h
  | wake =>
    simp only [step] at h
    split at h
    · split at h
      · simp only [Option.some.injEq, Prod.mk.injEq] at h
        obtain ⟨rfl, rfl⟩ := h
        refine ⟨Nat.le_refl _, Or.inl ⟨rfl, fun n hn => ?_, hk.2⟩⟩
        simp only [Option.some.injEq] at hn
        exact ⟨s.time, hk.2, Nat.le_refl _, hn.symm⟩
      · simp at h
    · simp at h

private theorem moments (sys : Nat → Int) (hr : InRange sys) : ∀ (ls : List Label) (s s' : State) (first : Nat) (rs : List Reading),
    Known sys first s → run sys s ls = some (s', rs) →
    ∃ ms : List Nat, ms.length = rs.length ∧ (first :: ms).Pairwise (· ≤ ·) ∧
      ∀ p ∈ ms.zip rs, p.1 ≤ p.2.time ∧ p.2.value = sys p.1 := by
  intro ls
  induction ls with
  | nil =>
    intro s s' f rs _ h
    simp only [run, Option.some.injEq, Prod.mk.injEq] at h
    exact ⟨[], by simp [← h.2], by simp, by simp⟩
  | cons l ls ih =>
    intro s s' f rs hk h
    obtain ⟨s1, r, rs1, h1, h2, rfl⟩ := run_cons h
    obtain ⟨_, ⟨rfl, hk1⟩ | ⟨m, hm1, hm2, rfl, hk1⟩⟩ := step_known sys hr s s1 l r f hk h1
    · exact ih s1 s' f rs1 hk1 h2
    · obtain ⟨ms, e1, e2, e3⟩ := ih s1 s' m rs1 hk1 h2
      refine ⟨m :: ms, by simp [e1], List.Pairwise.cons (fun x hx => ?_) e2, fun p hp => ?_⟩
      · rcases List.mem_cons.1 hx with rfl | hx
        · exact hm1
        · exact Nat.le_trans hm1 (List.rel_of_pairwise_cons e2 hx)
      · rcases List.mem_cons.1 hp with rfl | hp
        · exact ⟨hm2, rfl⟩
        · exact e3 p hp

/-- **C107** every time read is one the system gave, at or before the moment of reading; and readings are taken from moments in
order. -/
theorem C107_readings (sys : Nat → Int) (hr : InRange sys) (ls : List Label) (s : State) (rs : List Reading)
    (h : run sys {} ls = some (s, rs)) :
    ∃ moments : List Nat, moments.length = rs.length ∧ moments.Pairwise (· ≤ ·) ∧
      ∀ p ∈ moments.zip rs, p.1 ≤ p.2.time ∧ p.2.value = sys p.1 := by
  obtain ⟨ms, h1, h2, h3⟩ := moments sys hr ls {} s 0 rs ⟨by simp, Nat.zero_le _⟩ h
  exact ⟨ms, h1, h2.of_cons, h3⟩

private theorem pairwise_values : ∀ (ms : List Nat) (rs : List Reading) (sys : Nat → Int), ms.length = rs.length →
    (∀ a b, a ≤ b → sys a ≤ sys b) → ms.Pairwise (· ≤ ·) → (∀ p ∈ ms.zip rs, p.2.value = sys p.1) →
    rs.Pairwise (fun a b => a.value ≤ b.value) := by
  intro ms
  induction ms with
  | nil => intro rs sys h _ _ _; cases rs with
    | nil => exact List.Pairwise.nil
    | cons => simp at h
  | cons m ms ih =>
    intro rs sys h hm hp hv
    cases rs with
    | nil => exact List.Pairwise.nil
    | cons r rs =>
      simp only [List.length_cons, Nat.add_right_cancel_iff] at h
      refine List.Pairwise.cons (fun x hx => ?_) (ih rs sys h hm hp.of_cons fun p hp => hv p (List.mem_cons_of_mem _ hp))
      obtain ⟨i, hi, hx⟩ := List.mem_iff_getElem.1 hx
      have hi' : i < ms.length := by omega
      have hz : (ms[i], x) ∈ ms.zip rs := by
        refine List.mem_iff_getElem.2 ⟨i, by simp [List.length_zip]; omega, ?_⟩
        simp [List.getElem_zip, hx]
      have h1 := hv (m, r) (by simp)
      have h2 := hv (ms[i], x) (List.mem_cons_of_mem _ hz)
      simp only at h1 h2
      rw [h1, h2]
      exact hm _ _ (List.rel_of_pairwise_cons hp (List.getElem_mem hi'))

/-- **C107** if the system's clock never goes back, neither does cernan's, and it is never ahead. -/
theorem C107_monotone (sys : Nat → Int) (hr : InRange sys) (mono : ∀ a b, a ≤ b → sys a ≤ sys b) (ls : List Label) (s : State)
    (rs : List Reading) (h : run sys {} ls = some (s, rs)) :
    rs.Pairwise (fun a b => a.value ≤ b.value) ∧ ∀ r ∈ rs, r.value ≤ sys r.time := by
  obtain ⟨ms, h1, h2, h3⟩ := C107_readings sys hr ls s rs h
  refine ⟨pairwise_values ms rs sys h1 mono h2 fun p hp => (h3 p hp).2, fun r hr => ?_⟩
  obtain ⟨i, hi, hx⟩ := List.mem_iff_getElem.1 hr
  have hi' : i < ms.length := by omega
  have hz : (ms[i], r) ∈ ms.zip rs := by
    refine List.mem_iff_getElem.2 ⟨i, by simp [List.length_zip]; omega, ?_⟩
    simp [List.getElem_zip, hx]
  obtain ⟨h1, h2⟩ := h3 _ hz
  simp only at h1 h2
  rw [h2]
  exact mono _ _ h1

/-- The clock's thread never oversleeps by more than `late` milliseconds: in no state of the schedule has it slept longer. -/
def Clock.Prompt (sys : Nat → Int) (late : Nat) (s : State) (ls : List Label) : Prop :=
  ∀ n s' rs, run sys s (ls.take n) = some (s', rs) → ∀ since, s'.asleep = some since → s'.time ≤ since + 500 + late

private theorem Prompt.tail {sys : Nat → Int} {late : Nat} {s s1 : State} {l : Label} {ls : List Label} {r : Option Int}
    (h : Prompt sys late s (l :: ls)) (e : step sys s l = some (s1, r)) : Prompt sys late s1 ls := by
  intro n s' rs hr since hs
  refine h (n + 1) s' (r.toList.map (Reading.mk s.time) ++ rs) ?_ since hs
  simp only [List.take_succ_cons, run, e, Option.bind_some, hr, Option.map_some]

private theorem fresh (sys : Nat → Int) (hr : InRange sys) (late : Nat) :
    ∀ (ls : List Label) (s s' : State) (since : Nat) (rs : List Reading), s.asleep = some since → since ≤ s.time →
    s.now = some (asUsize (sys since)) → Prompt sys late s ls → run sys s ls = some (s', rs) →
    ∀ r ∈ rs, ∃ m, m ≤ r.time ∧ r.time ≤ m + 500 + late ∧ r.value = sys m := by
  intro ls
  induction ls with
  | nil =>
    intro s s' since rs _ _ _ _ h
    simp only [run, Option.some.injEq, Prod.mk.injEq] at h
    simp [← h.2]
  | cons l ls ih =>
    intro s s' since rs ha hle hn hp h
    obtain ⟨s1, r, rs1, h1, h2, rfl⟩ := run_cons h
    have hp1 := Prompt.tail hp h1
    have hnow : s.time ≤ since + 500 + late := hp 0 s [] rfl since ha
    cases l with
    | pass ms =>
      simp only [step, Option.some.injEq, Prod.mk.injEq] at h1
      obtain ⟨rfl, rfl⟩ := h1
      exact ih { s with time := s.time + ms } s' since rs1 ha (Nat.le_trans hle (Nat.le_add_right ..)) hn hp1 h2
    | read =>
      simp only [step, hn, Option.getD_some, Option.some.injEq, Prod.mk.injEq] at h1
      obtain ⟨rfl, rfl⟩ := h1
      intro x hx
      simp only [Option.toList_some, List.map_cons, List.map_nil, List.cons_append, List.nil_append, List.mem_cons] at hx
      rcases hx with rfl | hx
      · exact ⟨since, hle, hnow, round_trip (hr since)⟩
      · exact ih { s with now := some (asUsize (sys since)) } s' since rs1 ha hle rfl hp1 h2 x hx
    | spawn => simp [step, ha] at h1
    | wake =>
      simp only [step, ha] at h1
      split at h1
      · simp only [Option.some.injEq, Prod.mk.injEq] at h1
        obtain ⟨rfl, rfl⟩ := h1
        exact ih { s with now := some (asUsize (sys s.time)), asleep := some s.time } s' s.time rs1 rfl (Nat.le_refl _) rfl hp1 h2
      · simp at h1

/-- **C107** from the first refresh on, what is read is at most 500 ms old plus what the thread oversleeps. -/
theorem C107_fresh (sys : Nat → Int) (hr : InRange sys) (late : Nat) (before after : List Label) (s1 s2 : State)
    (rs1 rs2 : List Reading) (h1 : run sys {} (before ++ [.wake]) = some (s1, rs1)) (h2 : run sys s1 after = some (s2, rs2))
    (prompt : Prompt sys late s1 after) :
    ∀ r ∈ rs2, ∃ m, m ≤ r.time ∧ r.time ≤ m + 500 + late ∧ r.value = sys m := by
  suffices h : ∀ (ls : List Label) (s : State) (rs : List Reading), run sys s (ls ++ [.wake]) = some (s1, rs) →
      s1.asleep = some s1.time ∧ s1.now = some (asUsize (sys s1.time)) by
    obtain ⟨ha, hn⟩ := h before {} rs1 h1
    exact fresh sys hr late after s1 s2 s1.time rs2 ha (Nat.le_refl _) hn prompt h2
  intro ls
  induction ls with
  | nil =>
    intro s rs h
    obtain ⟨s2, r, rs2, e1, e2, _⟩ := run_cons h
    simp only [run, Option.some.injEq, Prod.mk.injEq] at e2
    rw [← e2.1]
    simp only [step] at e1
    split at e1
    · split at e1
      · simp only [Option.some.injEq, Prod.mk.injEq] at e1
        rw [← e1.1]
        exact ⟨rfl, rfl⟩
      · simp at e1
    · simp at e1
  | cons l ls ih =>
    intro s rs h
    obtain ⟨s2, r, rs2, _, e2, _⟩ := run_cons h
    exact ih s2 rs2 e2

/-- **C107** in seconds: on a system whose clock runs evenly, and if the thread oversleeps by at most half a second, cernan's time is
the system's or one second behind. -/
theorem C107_one_second (epochMs : Int) (hr : InRange fun ms => (epochMs + ms) / 1000) (before after : List Label) (s1 s2 : State)
    (rs1 rs2 : List Reading) (h1 : run (fun ms => (epochMs + ms) / 1000) {} (before ++ [.wake]) = some (s1, rs1))
    (h2 : run (fun ms => (epochMs + ms) / 1000) s1 after = some (s2, rs2))
    (prompt : Prompt (fun ms => (epochMs + ms) / 1000) 500 s1 after) :
    ∀ r ∈ rs2, r.value = (epochMs + r.time) / 1000 ∨ r.value = (epochMs + r.time) / 1000 - 1 := by
  intro r hm
  obtain ⟨m, a, b, c⟩ := C107_fresh _ hr 500 before after s1 s2 rs1 rs2 h1 h2 prompt r hm
  rw [c]
  omega

/-- Where the clock is not fresh: until the thread has woken up for the first time, which is after start-up, the time stands still at that
of its first use, however long that is. -/
theorem C107_fresh_false (epochMs : Int) (hr : InRange fun ms => (epochMs + ms) / 1000) (n : Nat) :
    ∃ s, run (fun ms => (epochMs + ms) / 1000) {} [.read, .pass (1000 * n), .read] =
      some (s, [⟨0, epochMs / 1000⟩, ⟨1000 * n, (epochMs + (1000 * n : Nat)) / 1000 - n⟩]) := by
  have e : (epochMs + ((1000 * n : Nat) : Int)) / 1000 - n = epochMs / 1000 := by omega
  have h0 := hr 0
  have h0 : Clock.asI64 (asUsize (epochMs / 1000)) = epochMs / 1000 := round_trip (by simpa using h0)
  refine ⟨⟨1000 * n, some (asUsize (epochMs / 1000)), none⟩, ?_⟩
  rw [e]
  simp [run, step, h0]

/-- Non-vacuity: the time is read before the thread runs, before it wakes and after; the thread oversleeps by 100 ms. -/
example :
    let sys : Nat → Int := fun ms => (1700000000300 + ms) / 1000
    run sys {} ([.read, .pass 900, .read, .spawn, .pass 600] ++ [.wake]) =
      some (⟨1500, some 1700000001, some 1500⟩, [⟨0, 1700000000⟩, ⟨900, 1700000000⟩]) ∧
    run sys ⟨1500, some 1700000001, some 1500⟩ [.pass 599, .read, .pass 1, .wake, .read] =
      some (⟨2100, some 1700000002, some 2100⟩, [⟨2099, 1700000001⟩, ⟨2100, 1700000002⟩]) := by
  decide

example : Prompt (fun ms => (1700000000300 + ms) / 1000) 500 ⟨1500, some 1700000001, some 1500⟩ [.pass 599, .read, .pass 1, .wake, .read] := by
  intro n s' rs h since hs
  rcases n with _ | _ | _ | _ | _ | n <;>
    (simp [run, step] at h; obtain ⟨rfl, _⟩ := h; simp at hs; subst hs; decide)

end Verif
