import Verif.Spec.Crash
import Verif.Lemmas.NetHang
import Verif.Lemmas.NetLog
/-!
# Lemmas for threads that panic
-/
namespace Verif
namespace Crash
section
variable {F : Type} [F64 F] {p : Net.Setup F} {ls : Nat → Label F}

/-- An action that changes nothing. -/
def noop : Net.Label F := .emit 0 .shutdown

theorem step_noop (s : Net.State F) : Net.step p s noop = s := by
  simp only [noop, Net.step]
  split
  · rfl
  · simp [Net.Event.isServed]

/-- Does the action take place? -/
def takes (s : State F) (l : Net.Label F) : Bool :=
  !s.aborted && !(actor l).any (s.dead.contains ·) &&
    match l with
    | .main => !(awaited s.net).any (s.dead.contains ·)
    | _ => true

/-- What a process without panics does in the same place. -/
def shadow (p : Net.Setup F) (ls : Nat → Label F) (t : Nat) : Net.Label F :=
  match ls t with
  | .crash _ => noop
  | .net l => if takes (run p ls t) l then l else noop

theorem step_net (s : State F) (l : Label F) : (step p s l).net = match l with
    | .crash _ => s.net
    | .net l => if takes s l then Net.step p s.net l else s.net := by
  unfold step
  cases ha : s.aborted with
  | true => cases l <;> simp [takes, ha]
  | false =>
    cases l with
    | crash x => simp only [Bool.false_eq_true, if_false]; split <;> rfl
    | net l =>
      cases l <;> simp only [takes, ha, actor, Option.any_some, Option.any_none, Bool.not_false, Bool.and_true, Bool.true_and, Bool.false_eq_true, if_false]
      case main => cases h : (awaited s.net).any (s.dead.contains ·) <;> rfl
      case act n now => by_cases h : Thread.node n ∈ s.dead <;> simp [h]
      case emit i e => by_cases h : Thread.source i ∈ s.dead <;> simp [h]
      case stop i => by_cases h : Thread.source i ∈ s.dead <;> simp [h]
      all_goals rfl

/-- Every run is a run without panics in which some actions do not take place. -/
theorem run_net (t : Nat) : (run p ls t).net = Net.run p (shadow p ls) t := by
  induction t with
  | zero => rfl
  | succ t ih =>
    rw [run, Net.run, step_net, ← ih, shadow]
    cases ls t with
    | crash x => exact (step_noop _).symm
    | net l =>
      simp only
      split
      · rfl
      · exact (step_noop _).symm

theorem dead_stable {t u : Nat} (h : t ≤ u) {x : Thread} (hx : x ∈ (run p ls t).dead) : x ∈ (run p ls u).dead := by
  refine Net.stable (P := fun t => x ∈ (run p ls t).dead) (fun t hx => ?_) hx h
  rw [run]
  unfold step
  split
  · exact hx
  · split
    · split
      · exact List.mem_cons_of_mem _ hx
      · exact hx
    · split <;> exact hx
    · split <;> exact hx

theorem aborted_stable {t u : Nat} (h : t ≤ u) (ha : (run p ls t).aborted = true) : run p ls u = run p ls t := by
  refine Net.stable (P := fun u => run p ls u = run p ls t) (fun u hu => ?_) rfl h
  rw [run, hu]
  unfold step
  rw [if_pos ha]

/-- What a dead thread could do does not take place. -/
theorem shadow_dead {t : Nat} {x : Thread} (hx : x ∈ (run p ls t).dead) : actor (shadow p ls t) = some x → shadow p ls t = noop := by
  unfold shadow
  cases hl : ls t with
  | crash y => intro _; rfl
  | net l =>
    simp only
    split
    · rename_i h
      intro ha
      simp [takes, ha, hx] at h
    · intro _; rfl

theorem shadow_live {t : Nat} {l : Net.Label F} (hl : ls t = .net l) (ha : (run p ls t).aborted = false)
    (hd : ∀ x ∈ (run p ls t).dead, actor l ≠ some x) (hw : l = .main → ∀ x ∈ (run p ls t).dead, awaited (run p ls t).net ≠ some x) :
    shadow p ls t = l := by
  have key : ∀ o : Option Thread, (∀ x ∈ (run p ls t).dead, o ≠ some x) → o.any ((run p ls t).dead.contains ·) = false := by
    intro o ho
    cases o with
    | none => rfl
    | some y =>
      simp only [Option.any_some, List.contains_eq_mem, decide_eq_false_iff_not]
      exact fun h => ho y h rfl
  rw [shadow, hl]
  simp only
  rw [if_pos]
  simp only [takes, ha, key _ hd, Bool.not_false, Bool.and_true, Bool.true_and]
  cases l
  case main => simp only; rw [key _ (hw rfl)]; rfl
  all_goals rfl

/-- A thread that has panicked has not returned, and never does. -/
theorem dead_unfinished (t : Nat) : ∀ x ∈ (run p ls t).dead, ¬ Finished (run p ls t) x := by
  induction t with
  | zero => intro x hx; cases hx
  | succ t ih =>
    intro x hx
    -- dead already, or just now
    have hx' : x ∈ (run p ls t).dead ∨ running p (run p ls t).net x = true ∧ (run p ls (t + 1)).net = (run p ls t).net := by
      rw [run] at hx ⊢
      unfold step at hx ⊢
      by_cases ha : (run p ls t).aborted = true
      · rw [if_pos ha] at hx; exact .inl hx
      · rw [if_neg ha] at hx ⊢
        split at hx
        · rename_i y _
          split at hx
          · rename_i hr
            rcases List.mem_cons.1 hx with rfl | hx
            · exact .inr ⟨hr, by simp [hr]⟩
            · exact .inl hx
          · exact .inl hx
        · split at hx <;> exact .inl hx
        · split at hx <;> exact .inl hx
    rcases hx' with hx | ⟨hr, hn⟩
    · have h0 := ih x hx
      have hsh := shadow_dead (p := p) (ls := ls) hx
      have hn1 : (run p ls (t + 1)).net = Net.step p (run p ls t).net (shadow p ls t) := by
        rw [run_net, Net.run, ← run_net]
      cases x with
      | source i =>
        simp only [Finished] at h0 ⊢
        rw [hn1]
        rcases Net.step_ended p (run p ls t).net (shadow p ls t) with g | ⟨j, sc, g1, -, -, -, g⟩
        · rw [g]; exact h0
        · rw [g]
          intro h
          rcases List.mem_cons.1 h with rfl | h
          · have := hsh (by rw [g1]; rfl)
            rw [g1] at this; cases this
          · exact h0 h
      | node n =>
        simp only [Finished] at h0 ⊢
        rw [hn1, Net.step_nodes]
        rintro ⟨nd, h1, h2⟩
        simp only [Option.map_eq_some_iff] at h1
        obtain ⟨nd0, h1, h3⟩ := h1
        refine h0 ⟨nd0, h1, ?_⟩
        have hb : Net.base (shadow p ls t) n nd0 = nd0 := by
          cases hs : shadow p ls t with
          | act m now =>
            by_cases hm : m = n
            · have := hsh (by rw [hs, hm]; rfl)
              rw [hs] at this; cases this
            · simp [Net.base, Ne.symm hm]
          | _ => rfl
        rw [hb] at h3
        cases nd0 with
        | filter f k ch q r => rw [← h3, Net.pushAll_filter] at h2; exact h2
        | sink k m r => rw [← h3, Net.pushAll_sink] at h2; exact h2
    · cases x with
      | source i =>
        simp only [Finished]; rw [hn]
        simp only [running, Bool.and_eq_true, Bool.not_eq_true', List.contains_eq_mem, decide_eq_false_iff_not] at hr
        exact hr.2
      | node n =>
        simp only [Finished]; rw [hn]
        rintro ⟨nd, h1, h2⟩
        simp [running, h1, h2] at hr

theorem nodes_isSome {ls : Nat → Net.Label F} {n : Str} (t : Nat) :
    ((Net.run p ls t).nodes n).isSome = ((Net.initial p).nodes n).isSome := by
  induction t with
  | zero => rfl
  | succ t ih => rw [Net.run, Net.step_nodes, Option.isSome_map, ih]

/-- Only threads that exist panic. -/
theorem dead_exists (t : Nat) : ∀ x ∈ (run p ls t).dead, match x with
    | .source i => i < p.wiring.sources.length
    | .node n => ((Net.initial p).nodes n).isSome := by
  induction t with
  | zero => intro x hx; cases hx
  | succ t ih =>
    intro x hx
    rw [run] at hx
    unfold step at hx
    split at hx
    · exact ih x hx
    · split at hx
      · split at hx
        · rename_i hr
          rcases List.mem_cons.1 hx with rfl | hx
          · cases x with
            | source i =>
              simp only [running, Bool.and_eq_true, decide_eq_true_eq] at hr
              exact hr.1
            | node n =>
              simp only [running] at hr
              split at hr
              · rename_i nd h
                rw [run_net] at h
                show ((Net.initial p).nodes n).isSome = true
                rw [← nodes_isSome (ls := shadow p ls) t, h]; rfl
              · cases hr
          · exact ih x hx
        · exact ih x hx
      · split at hx <;> exact ih x hx
      · split at hx <;> exact ih x hx

/-- `main` joins in order. -/
theorem joining_suffix {ls : Nat → Net.Label F} (t : Nat) : ∀ todo, (Net.run p ls t).main = .joining todo → ∃ pre, p.joinOrder = pre ++ todo := by
  induction t with
  | zero => intro todo h; cases h
  | succ t ih =>
    intro todo h
    rw [Net.run] at h
    by_cases hl : ls t = .main
    · rw [hl, Net.step] at h
      unfold Net.State.mainStep at h
      split at h
      · split at h <;> simp_all
      · simp only [Net.Main.joining.injEq] at h; exact ⟨[], by simp [h]⟩
      · split at h
        · split at h <;> simp_all
        · simp_all
      · cases h
      · rename_i n ns hm
        obtain ⟨pre, hpre⟩ := ih _ hm
        split at h
        · split at h
          · simp only [Net.Main.joining.injEq] at h; exact ⟨pre ++ [n], by simp [hpre, h]⟩
          · exact ih _ h
        · simp only [Net.Main.joining.injEq] at h; exact ⟨pre ++ [n], by simp [hpre, h]⟩
      · simp_all
    · rw [Net.step_main p _ _ hl] at h
      exact ih _ h

/-- Once the process has been aborted, `main` was waiting for a dead thread. -/
theorem aborted_awaited (t : Nat) (h : (run p ls t).aborted = true) : ∃ x ∈ (run p ls t).dead, awaited (run p ls t).net = some x := by
  induction t with
  | zero => cases h
  | succ t ih =>
    rw [run] at h ⊢
    unfold step at h ⊢
    by_cases ha : (run p ls t).aborted = true
    · rw [if_pos ha]; exact ih ha
    · rw [if_neg ha] at h ⊢
      split
      · rename_i hl
        rw [hl] at h
        simp only at h
        split at h <;> exact absurd h ha
      · rename_i hl
        rw [hl] at h
        simp only at h
        split at h
        · rename_i hw
          rw [if_pos hw]
          cases hx : awaited (run p ls t).net with
          | none => rw [hx] at hw; cases hw
          | some x => rw [hx] at hw; exact ⟨x, by simpa using hw, by simpa using hx⟩
        · exact absurd h ha
      · rename_i l hne hl
        rw [hl] at h
        cases l
        case main => exact absurd rfl hne
        all_goals
          simp only at h
          split at h <;> exact absurd h ha

/-- A dead source that `main` shuts down ends the process. -/
theorem source_aborts (hf : Fair p ls) (hlt : ∀ i ∈ p.stopOrder, i < p.wiring.sources.length) (hsig : ∃ t, ls t = .net .signal)
    {i : Nat} (hi : i ∈ p.stopOrder) {t0 : Nat} (hd : .source i ∈ (run p ls t0).dead) : ∃ t, (run p ls t).aborted = true := by
  apply Classical.byContradiction
  intro hno
  have hna : ∀ t, (run p ls t).aborted = false := by
    intro t
    cases h : (run p ls t).aborted with
    | false => rfl
    | true => exact absurd ⟨t, h⟩ hno
  -- whenever `main` gets its turn it does not wait for a dead thread
  have hwait : ∀ t, ls t = .net .main → ∀ x ∈ (run p ls t).dead, awaited (run p ls t).net ≠ some x := by
    intro t hl x hx he
    have : (run p ls (t + 1)).aborted = true := by
      rw [run, hl]
      simp [step, hna t, he, hx]
    rw [hna] at this; cases this
  have hmain : ∀ t, ∃ t', t ≤ t' ∧ shadow p ls t' = .main := by
    intro t
    obtain ⟨t', h1, h2⟩ := hf.main t
    refine ⟨t', h1, shadow_live h2 (hna t') (fun x _ h => by cases h) fun _ => hwait t' h2⟩
  have hsig' : ∃ t, shadow p ls t = .signal := by
    obtain ⟨t, ht⟩ := hsig
    exact ⟨t, shadow_live ht (hna t) (fun x _ h => by cases h) fun h => by cases h⟩
  have stop : ∀ todo, (∀ j ∈ todo, j < p.wiring.sources.length) → (∃ j ∈ todo, ∃ t, .source j ∈ (run p ls t).dead) →
      ∀ t, (Net.run p (shadow p ls) t).main = .stopping todo → False := by
    intro todo
    induction todo with
    | nil => rintro - ⟨j, hj, -⟩; cases hj
    | cons j js ih =>
      intro hlt hdead t ht
      by_cases hjd : ∃ t, .source j ∈ (run p ls t).dead
      · obtain ⟨td, htd⟩ := hjd
        have hne : ∀ t, j ∉ (Net.run p (shadow p ls) t).ended := by
          intro t h
          have h1 : j ∈ (Net.run p (shadow p ls) (max t td)).ended :=
            Net.stable (P := fun t => j ∈ (Net.run p (shadow p ls) t).ended) (fun t h => Net.ended_stable _ h) h (Nat.le_max_left _ _)
          rw [← run_net] at h1
          exact dead_unfinished _ _ (dead_stable (Nat.le_max_right _ _) htd) h1
        -- `main` stays where it is
        have hstay : ∀ u, t ≤ u → (Net.run p (shadow p ls) u).main = .stopping (j :: js) := by
          intro u hu
          refine Net.stable (P := fun u => (Net.run p (shadow p ls) u).main = .stopping (j :: js)) (fun u h => ?_) ht hu
          by_cases hl : shadow p ls u = .main
          · rw [Net.run, hl]
            by_cases h1 : j ∈ (Net.run p (shadow p ls) u).told
            · simp [Net.step, Net.State.mainStep, h, h1, hne]
            · simp [Net.step, Net.State.mainStep, h, h1]
          · rw [Net.run, Net.step_main p _ _ hl]; exact h
        obtain ⟨u, hu, hl⟩ := hmain (max t td)
        have hm := hstay u (by omega)
        have htold : j ∈ (Net.run p (shadow p ls) (u + 1)).told := by
          rw [Net.run, hl]
          by_cases h1 : j ∈ (Net.run p (shadow p ls) u).told
          · simp [Net.step, Net.State.mainStep, hm, h1, hne]
          · simp [Net.step, Net.State.mainStep, hm, h1]
        have htold' : ∀ v, u + 1 ≤ v → j ∈ (Net.run p (shadow p ls) v).told := by
          intro v hv
          refine Net.stable (P := fun v => u + 1 ≤ v ∧ j ∈ (Net.run p (shadow p ls) v).told) (fun v h => ⟨by omega, ?_⟩) ⟨Nat.le_refl _, htold⟩ hv |>.2
          by_cases hl : shadow p ls v = .main
          · rw [Net.run, hl]
            have := hstay v (by omega)
            simp [Net.step, Net.State.mainStep, this, h.2, hne]
          · rw [Net.run, Net.step_told p _ _ hl]; exact h.2
        obtain ⟨v, hv, hl2⟩ := hf.main (u + 1)
        refine hwait v hl2 (.source j) (dead_stable (by omega) htd) ?_
        rw [run_net, awaited, hstay v (by omega)]
        simp [htold' v hv]
      · obtain ⟨w, -, h1, -⟩ := Net.main_passes (p := p) hmain (hlt j List.mem_cons_self) (i := j) (by
          intro t
          obtain ⟨t', h1, h2⟩ := hf.sources j (hlt j List.mem_cons_self) t
          refine ⟨t', h1, shadow_live h2 (hna t') ?_ fun h => by cases h⟩
          intro x hx he
          cases he
          exact hjd ⟨t', hx⟩) js t ht
        refine ih (fun k hk => hlt k (List.mem_cons_of_mem _ hk)) ?_ w h1
        obtain ⟨k, hk, hkd⟩ := hdead
        rcases List.mem_cons.1 hk with rfl | hk
        · exact absurd hkd hjd
        · exact ⟨k, hk, hkd⟩
  obtain ⟨t, ht⟩ := Net.main_stops (p := p) hmain hsig'
  exact stop _ hlt ⟨i, hi, t0, hd⟩ t ht

end
end Crash
end Verif
