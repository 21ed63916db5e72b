import Verif.Spec.Handlers
import Verif.Lemmas.Crash
import Verif.Lemmas.Thread
/-!
# Lemmas for stream handlers that panic
-/
namespace Verif
namespace Handlers
section
variable {F : Type} [F64 F] {p : Setup F} {ls : Nat → Label F}

/-- What the process without handlers does in the same place. -/
def shadow (p : Setup F) (ls : Nat → Label F) (t : Nat) : Crash.Label F :=
  match ls t with
  | .proc (.net (.stop i)) =>
    if stopping (run p ls t).proc i then
      match next (p.drain i) ((run p ls t).pools i) with
      | some _ => .net Crash.noop
      | none => match ((run p ls t).pools i).phase with
        | .panicked => .crash (.source i)
        | _ => .net (.stop i)
    else .net (.stop i)
  | .proc l => l
  | .pool _ _ => .net Crash.noop

theorem crash_noop (q : Net.Setup F) (s : Crash.State F) : Crash.step q s (.net Crash.noop) = s := by
  have h : Net.step q s.net (.emit 0 .shutdown) = s.net := Crash.step_noop (p := q) s.net
  show Crash.step q s (.net (.emit 0 .shutdown)) = s
  simp only [Crash.step, h]
  split
  · rfl
  · split <;> rfl

/-- Telling a source that is not stopping to go on changes nothing. -/
theorem idle_stop (q : Net.Setup F) {s : Crash.State F} {i : Nat} (h : stopping s i = false) : Crash.step q s (.net (.stop i)) = s := by
  simp only [Crash.step, Crash.actor, Option.any_some]
  by_cases ha : s.aborted = true
  · rw [if_pos ha]
  · rw [if_neg ha]
    by_cases hd : Crash.Thread.source i ∈ s.dead
    · simp [hd]
    · have hd' : s.dead.contains (Crash.Thread.source i) = false := by simp [hd]
      simp only [hd', Bool.false_eq_true, if_false]
      have : Net.step q s.net (.stop i) = s.net := by
        simp only [Net.step]
        cases hq : q.wiring.sources[i]? with
        | none => rfl
        | some sc =>
          obtain ⟨a, b⟩ := sc
          simp only
          rw [if_neg]
          rintro ⟨h1, h2⟩
          simp [stopping, ha, hd, h1, h2] at h
      rw [this]

theorem poolStep_proc (s : State F) (i : Nat) (l : Thread.Label) : (s.poolStep i l).proc = s.proc := by
  simp only [State.poolStep]
  split <;> rfl

/-- The rest of the process does what it would do without handlers. -/
theorem run_proc (t : Nat) : (run p ls t).proc = Crash.run p.proc (shadow p ls) t := by
  induction t with
  | zero => rfl
  | succ t ih =>
    rw [run, Crash.run, ← ih, shadow]
    cases hl : ls t with
    | pool i l =>
      simp only [step, crash_noop]
      split
      · exact poolStep_proc _ _ _
      · rfl
    | proc l =>
      cases l with
      | crash x => rfl
      | net l =>
        cases l with
        | stop i =>
          simp only [step]
          by_cases hs : stopping (run p ls t).proc i = true
          · simp only [hs, if_true]
            cases hn : next (p.drain i) ((run p ls t).pools i) with
            | some l => simp only [crash_noop]; exact poolStep_proc _ _ _
            | none =>
              simp only
              cases hp : ((run p ls t).pools i).phase <;> rfl
          · simp only [hs, Bool.false_eq_true, if_false]
            rw [idle_stop]
            simpa using hs
        | _ => rfl

/-- Each pool does nothing, or one of its own steps. -/
theorem pool_step (t i : Nat) : (run p ls (t + 1)).pools i = (run p ls t).pools i ∨
    ∃ l, Thread.step ((run p ls t).pools i) l = some ((run p ls (t + 1)).pools i) ∧
      ((∃ l', ls t = .pool i l' ∧ l = l' ∧ may p (run p ls t).proc i l = true) ∨
       (ls t = .proc (.net (.stop i)) ∧ stopping (run p ls t).proc i = true ∧ next (p.drain i) ((run p ls t).pools i) = some l)) := by
  have key : ∀ (s : State F) j l, (s.poolStep j l).pools i = s.pools i ∨ j = i ∧ Thread.step (s.pools i) l = some ((s.poolStep j l).pools i) := by
    intro s j l
    simp only [State.poolStep]
    cases h : Thread.step (s.pools j) l with
    | none => exact .inl rfl
    | some u =>
      by_cases hj : i = j
      · subst hj; right; simp [h]
      · left; simp [hj]
  rw [run]
  cases hl : ls t with
  | pool j l =>
    simp only [step]
    by_cases hm : may p (run p ls t).proc j l = true
    · simp only [hm, if_true]
      rcases key (run p ls t) j l with h | ⟨rfl, h⟩
      · exact .inl h
      · exact .inr ⟨l, h, .inl ⟨l, rfl, rfl, hm⟩⟩
    · simp [hm]
  | proc l =>
    cases l with
    | crash x => exact .inl rfl
    | net l =>
      cases l with
      | stop j =>
        simp only [step]
        by_cases hs : stopping (run p ls t).proc j = true
        · simp only [hs, if_true]
          cases hn : next (p.drain j) ((run p ls t).pools j) with
          | some l =>
            rcases key (run p ls t) j l with h | ⟨rfl, h⟩
            · exact .inl h
            · exact .inr ⟨l, h, .inr ⟨rfl, hs, hn⟩⟩
          | none =>
            left
            simp only
            cases hp : ((run p ls t).pools j).phase <;> rfl
        · simp [hs]
      | _ => exact .inl rfl

theorem pool_inv (t i : Nat) : Thread.Inv ((run p ls t).pools i) := by
  induction t with
  | zero => exact Thread.Inv.init
  | succ t ih =>
    rcases pool_step (p := p) (ls := ls) t i with h | ⟨l, h, -⟩
    · rw [h]; exact ih
    · exact ih.step l h

theorem crashed_stable {t u : Nat} (h : t ≤ u) {i id : Nat} (hx : id ∈ ((run p ls t).pools i).crashed) : id ∈ ((run p ls u).pools i).crashed := by
  refine Net.stable (P := fun t => id ∈ ((run p ls t).pools i).crashed) (fun t hx => ?_) hx h
  rcases pool_step (p := p) (ls := ls) t i with h | ⟨l, h, -⟩
  · rw [h]; exact hx
  · exact Thread.crashed_step l h id hx

/-- A step of a pool that its owner does not take leaves the phase as it is; and only a pool that is serving gets new threads. -/
theorem phase_step {s s' : Thread.State} {l : Thread.Label} (h : Thread.step s l = some s') :
    (s'.phase = s.phase ∨ (∃ o, l = .shutdown o) ∨ l = .signal ∨ l = .join) ∧
    (s.phase = .serving ∨ (∀ i, i ∈ s'.running → i ∈ s.running)) ∧ (s.phase ≠ .serving → s'.phase ≠ .serving) := by
  cases l <;> simp only [Thread.step] at h <;> (repeat' split at h) <;>
    first
      | (simp at h; done)
      | (simp only [Option.some.injEq] at h; subst h
         refine ⟨?_, ?_, ?_⟩ <;> simp_all)

/-- A source returns only when its pool has shut down. -/
theorem ended_returned (t i : Nat) (h : i ∈ (run p ls t).proc.net.ended) : ∃ ids, ((run p ls t).pools i).phase = .returned ids := by
  induction t with
  | zero => cases h
  | succ t ih =>
    have keep : ∀ ids, ((run p ls t).pools i).phase = .returned ids → ((run p ls (t + 1)).pools i).phase = .returned ids := by
      intro ids hp
      rcases pool_step (p := p) (ls := ls) t i with h | ⟨l, h, -⟩
      · rw [h]; exact hp
      · rcases (phase_step h).1 with g | ⟨o, rfl⟩ | rfl | rfl
        · rw [g]; exact hp
        · simp [Thread.step, hp] at h
        · simp [Thread.step, hp] at h
        · simp [Thread.step, hp] at h
    by_cases he : i ∈ (run p ls t).proc.net.ended
    · obtain ⟨ids, hp⟩ := ih he
      exact ⟨ids, keep ids hp⟩
    · rw [run_proc, Crash.run_net, Net.run, ← Crash.run_net, ← run_proc] at h
      rcases Net.step_ended p.proc (run p ls t).proc.net (Crash.shadow p.proc (shadow p ls) t) with g | ⟨j, sc, hlab, -, ht, hne, g⟩
      · rw [g] at h; exact absurd h he
      · rw [g] at h
        have hij : j = i := by
          rcases List.mem_cons.1 h with h | h
          · exact h.symm
          · exact absurd h he
        subst hij
        obtain ⟨hsh, htk⟩ : shadow p ls t = .net (.stop j) ∧ Crash.takes (run p ls t).proc (.stop j) = true := by
          rw [run_proc]
          unfold Crash.shadow at hlab
          cases hs : shadow p ls t with
          | crash x => rw [hs] at hlab; cases hlab
          | net l =>
            rw [hs] at hlab
            simp only at hlab
            by_cases htk : Crash.takes (Crash.run p.proc (shadow p ls) t) l = true
            · rw [if_pos htk] at hlab; subst hlab; exact ⟨rfl, htk⟩
            · rw [if_neg htk] at hlab; cases hlab
        have hstop : stopping (run p ls t).proc j = true := by
          simp only [Crash.takes, Crash.actor, Option.any_some, Bool.and_true, Bool.and_eq_true, Bool.not_eq_true'] at htk
          simp [stopping, htk.1, ht, hne]
          simpa using htk.2
        have hnext : ∃ ids, ((run p ls t).pools j).phase = .returned ids := by
          unfold shadow at hsh
          cases hl : ls t with
          | pool a b => rw [hl] at hsh; cases hsh
          | proc l =>
            rw [hl] at hsh
            cases l with
            | crash x => cases hsh
            | net l =>
              cases l with
              | stop k =>
                have hk : k = j := by
                  simp only at hsh
                  repeat' split at hsh
                  all_goals first | (cases hsh; done) | (cases hsh; rfl)
                subst hk
                simp only [hstop, if_true, next] at hsh
                cases hp : ((run p ls t).pools k).phase with
                | returned ids => exact ⟨ids, rfl⟩
                | draining todo => cases todo <;> (rw [hp] at hsh; cases hsh)
                | _ => rw [hp] at hsh; cases hsh
              | _ => cases hsh
        obtain ⟨ids, hp⟩ := hnext
        exact ⟨ids, keep ids hp⟩

/-- Nothing but a turn of the source changes the phase of its pool. -/
theorem phase_still {t i : Nat} (h : ls t ≠ .proc (.net (.stop i))) : ((run p ls (t + 1)).pools i).phase = ((run p ls t).pools i).phase := by
  rcases pool_step (p := p) (ls := ls) t i with g | ⟨l, g, ⟨l', -, -, hm⟩ | ⟨hl, -⟩⟩
  · rw [g]
  · rcases (phase_step g).1 with e | ⟨o, rfl⟩ | rfl | rfl
    · exact e
    · cases hm
    · cases hm
    · cases hm
  · exact absurd hl h

/-- No thread starts in a pool that is not serving. -/
theorem running_still {t i : Nat} (h : ((run p ls t).pools i).phase ≠ .serving) :
    ((run p ls (t + 1)).pools i).phase ≠ .serving ∧ ∀ id, id ∈ ((run p ls (t + 1)).pools i).running → id ∈ ((run p ls t).pools i).running := by
  rcases pool_step (p := p) (ls := ls) t i with g | ⟨l, g, -⟩
  · rw [g]; exact ⟨h, fun _ h => h⟩
  · obtain ⟨-, h2, h3⟩ := phase_step g
    exact ⟨h3 h, h2.resolve_left h⟩

theorem running_later {t u i : Nat} (h : ((run p ls t).pools i).phase ≠ .serving) (htu : t ≤ u) :
    ((run p ls u).pools i).phase ≠ .serving ∧ ∀ id, id ∈ ((run p ls u).pools i).running → id ∈ ((run p ls t).pools i).running := by
  refine Net.stable (P := fun u => ((run p ls u).pools i).phase ≠ .serving ∧ ∀ id, id ∈ ((run p ls u).pools i).running → id ∈ ((run p ls t).pools i).running)
    (fun u hu => ?_) ⟨h, fun _ h => h⟩ htu
  obtain ⟨h1, h2⟩ := running_still hu.1
  exact ⟨h1, fun id hid => hu.2 id (h2 id hid)⟩

/-- The next turn of the source finds its pool in the same phase. -/
theorem next_turn (hf : Fair p ls) {i : Nat} (hi : i < p.proc.wiring.sources.length) (t : Nat) :
    ∃ u, t ≤ u ∧ ls u = .proc (.net (.stop i)) ∧ ((run p ls u).pools i).phase = ((run p ls t).pools i).phase := by
  obtain ⟨v, hv, hl⟩ := hf.sources i hi t
  obtain ⟨d, rfl⟩ : ∃ d, v = t + d := ⟨v - t, by omega⟩
  clear hv
  induction d generalizing t with
  | zero => exact ⟨t, Nat.le_refl _, hl, rfl⟩
  | succ d ih =>
    by_cases h : ls t = .proc (.net (.stop i))
    · exact ⟨t, Nat.le_refl _, h, rfl⟩
    · obtain ⟨u, h1, h2, h3⟩ := ih (t + 1) (by rw [show t + 1 + d = t + (d + 1) by omega]; exact hl)
      exact ⟨u, by omega, h2, by rw [h3, phase_still h]⟩

/-- A turn of a source that is stopping. -/
theorem turn_pool {t i : Nat} {l : Thread.Label} {s : Thread.State} (hl : ls t = .proc (.net (.stop i))) (hs : stopping (run p ls t).proc i = true)
    (hn : next (p.drain i) ((run p ls t).pools i) = some l) (h : Thread.step ((run p ls t).pools i) l = some s) : (run p ls (t + 1)).pools i = s := by
  rw [run, hl]
  simp only [step, hs, if_true, hn, State.poolStep, h]

/-- The pool has shut down, or that has panicked. -/
def Settled (s : Thread.State) : Prop := (∃ ids, s.phase = .returned ids) ∨ s.phase = .panicked

theorem joining_signalled {t i id : Nat} {todo : List Nat} (h : ((run p ls t).pools i).phase = .joining id todo) : id ∈ ((run p ls t).pools i).signalled := by
  have key : ∀ t id todo, ((run p ls t).pools i).phase = .joining id todo → id ∈ ((run p ls t).pools i).signalled := by
    intro t
    induction t with
    | zero => intro id todo h; cases h
    | succ t ih =>
      intro id todo h
      rcases pool_step (p := p) (ls := ls) t i with g | ⟨l, g, -⟩
      · rw [g] at h ⊢; exact ih id todo h
      · have step : ∀ s s' : Thread.State, Thread.step s l = some s' → (∀ id todo, s.phase = .joining id todo → id ∈ s.signalled) →
            s'.phase = .joining id todo → id ∈ s'.signalled := by
          intro s s' hs ih hp
          cases l <;> simp only [Thread.step] at hs <;> (repeat' split at hs) <;>
            first
              | (simp at hs; done)
              | (simp only [Option.some.injEq] at hs; subst hs; simp_all; done)
              | (simp only [Option.some.injEq] at hs; subst hs; exact ih id todo hp)
        exact step _ _ g ih h
  exact key t id todo h

/-- A source that waits for a handler goes on some time. -/
theorem leaves_joining (hf : Fair p ls) {i : Nat} (hi : i < p.proc.wiring.sources.length) {id : Nat} {todo : List Nat} {t : Nat}
    (hst : ∀ u ≥ t, stopping (run p ls u).proc i = true) (hj : ((run p ls t).pools i).phase = .joining id todo) :
    ∃ w ≥ t, ((run p ls w).pools i).phase = .draining todo ∨ ((run p ls w).pools i).phase = .panicked := by
  obtain ⟨v, hv, hend⟩ := hf.handlers i t id (joining_signalled hj)
  have hend : id ∉ ((run p ls v).pools i).running := by
    rcases hend with h | h
    · exact h
    · have := hst v (by omega)
      simp [stopping, h] at this
  -- until then the source waits, or has gone on
  have wait : ∀ d, (((run p ls (t + d)).pools i).phase = .joining id todo) ∨
      ∃ w ≥ t, ((run p ls w).pools i).phase = .draining todo ∨ ((run p ls w).pools i).phase = .panicked := by
    intro d
    induction d with
    | zero => exact .inl hj
    | succ d ihd =>
      rcases ihd with hd | hd
      · by_cases hl : ls (t + d) = .proc (.net (.stop i))
        · cases hjh : Thread.joinHandle ((run p ls (t + d)).pools i) id with
          | none =>
            left
            have : (run p ls (t + d + 1)).pools i = (run p ls (t + d)).pools i := by
              rw [run, hl]
              simp only [step, hst (t + d) (by omega), if_true, next, hd, State.poolStep, Thread.step, hjh]
            rw [← Nat.add_assoc, this]; exact hd
          | some b =>
            right
            refine ⟨t + d + 1, by omega, ?_⟩
            cases b with
            | true => left; rw [turn_pool hl (hst _ (by omega)) (l := .join) (by simp only [next, hd]) (by simp only [Thread.step, hd, hjh]; rfl)]
            | false => right; rw [turn_pool hl (hst _ (by omega)) (l := .join) (by simp only [next, hd]) (by simp only [Thread.step, hd, hjh]; rfl)]
        · left; rw [← Nat.add_assoc, phase_still hl]; exact hd
      · exact .inr hd
  have gone : ∃ w ≥ t, ((run p ls w).pools i).phase = .draining todo ∨ ((run p ls w).pools i).phase = .panicked := by
    rcases wait (v - t) with h | h
    · rw [show t + (v - t) = v by omega] at h
      obtain ⟨w, w1, w2, w3⟩ := next_turn hf hi v
      rw [h] at w3
      have hnr : id ∉ ((run p ls w).pools i).running := fun hr => hend ((running_later (t := v) (by rw [h]; simp) w1).2 id hr)
      refine ⟨w + 1, by omega, ?_⟩
      by_cases hc : id ∈ ((run p ls w).pools i).crashed
      · right
        rw [turn_pool w2 (hst _ (by omega)) (l := .join) (by simp only [next, w3])
          (by simp only [Thread.step, w3, Thread.joinHandle, if_neg hnr, hc, not_true_eq_false, decide_false]; rfl)]
      · left
        rw [turn_pool w2 (hst _ (by omega)) (l := .join) (by simp only [next, w3])
          (by simp only [Thread.step, w3, Thread.joinHandle, if_neg hnr, hc, not_false_eq_true, decide_true]; rfl)]
    · exact h
  exact gone

theorem settles_draining (hf : Fair p ls) {i : Nat} (hi : i < p.proc.wiring.sources.length) (todo : List Nat) : ∀ t,
    (∀ u ≥ t, stopping (run p ls u).proc i = true) → ((run p ls t).pools i).phase = .draining todo → ∃ u ≥ t, Settled ((run p ls u).pools i) := by
  induction todo with
  | nil =>
    intro t hst hp
    obtain ⟨u, h1, h2, h3⟩ := next_turn hf hi t
    rw [hp] at h3
    refine ⟨u + 1, by omega, .inl ⟨((run p ls u).pools i).pool.joinable, ?_⟩⟩
    have hinv : Thread.Inv ((run p ls u).pools i) := pool_inv u i
    rw [turn_pool h2 (hst u h1) (l := .join) (by simp only [next, h3]) (by simp only [Thread.step, h3, Thread.joinReady_inv hinv]; rfl)]
  | cons id todo ih =>
    intro t hst hp
    obtain ⟨u, h1, h2, h3⟩ := next_turn hf hi t
    rw [hp] at h3
    have hsig := turn_pool h2 (hst u h1) (l := .signal) (by simp only [next, h3]) (by simp only [Thread.step, h3]; rfl)
    have hj : ((run p ls (u + 1)).pools i).phase = .joining id todo := by rw [hsig]
    obtain ⟨w, hw, hd | hd⟩ := leaves_joining hf hi (fun y hy => hst y (by omega)) hj
    · obtain ⟨x, hx, h⟩ := ih w (fun y hy => hst y (by omega)) hd
      exact ⟨x, by omega, h⟩
    · exact ⟨w, by omega, .inr hd⟩

/-- A source that has been told to shut down does not wait for its handlers for ever. -/
theorem settles (hdr : Drains p) (hf : Fair p ls) {i : Nat} (hi : i < p.proc.wiring.sources.length) (t : Nat)
    (hst : ∀ u ≥ t, stopping (run p ls u).proc i = true) : ∃ u ≥ t, Settled ((run p ls u).pools i) := by
  cases hp : ((run p ls t).pools i).phase with
  | serving =>
    obtain ⟨u, h1, h2, h3⟩ := next_turn hf hi t
    rw [hp] at h3
    have hsd := turn_pool h2 (hst u h1) (l := .shutdown (p.drain i ((run p ls u).pools i).pool.threads)) (by simp only [next, h3])
      (by simp only [Thread.step, h3, hdr i _, and_self, if_true]; rfl)
    obtain ⟨v, hv, h⟩ := settles_draining hf hi (p.drain i ((run p ls u).pools i).pool.threads) (u + 1) (fun y hy => hst y (by omega)) (by rw [hsd])
    exact ⟨v, by omega, h⟩
  | draining todo => exact settles_draining hf hi todo t hst hp
  | joining id todo =>
    obtain ⟨w, hw, hd | hd⟩ := leaves_joining hf hi hst hp
    · obtain ⟨x, hx, h⟩ := settles_draining hf hi todo w (fun y hy => hst y (by omega)) hd
      exact ⟨x, by omega, h⟩
    · exact ⟨w, hw, .inr hd⟩
  | returned ids => exact ⟨t, Nat.le_refl _, .inl ⟨ids, hp⟩⟩
  | panicked => exact ⟨t, Nat.le_refl _, .inr hp⟩

theorem settled_none {s : Thread.State} (drain : List Nat → List Nat) (h : Settled s) : next drain s = none := by
  rcases h with ⟨ids, h⟩ | h <;> simp only [next, h]

theorem dead_later {t u : Nat} (h : t ≤ u) {x : Crash.Thread} (hx : x ∈ (run p ls t).proc.dead) : x ∈ (run p ls u).proc.dead := by
  rw [run_proc] at hx ⊢; exact Crash.dead_stable h hx

theorem aborted_later {t u : Nat} (h : t ≤ u) (ha : (run p ls t).proc.aborted = true) : (run p ls u).proc.aborted = true := by
  rw [run_proc] at ha ⊢; rw [Crash.aborted_stable h ha]; exact ha

theorem ended_later {t u : Nat} (h : t ≤ u) {i : Nat} (hx : i ∈ (run p ls t).proc.net.ended) : i ∈ (run p ls u).proc.net.ended := by
  rw [run_proc, Crash.run_net] at hx ⊢
  exact Net.stable (P := fun t => i ∈ (Net.run p.proc _ t).ended) (fun t h => Net.ended_stable _ h) hx h

theorem told_stable {q : Net.Setup F} {s : Net.State F} (l : Net.Label F) {i : Nat} (h : i ∈ s.told) : i ∈ (Net.step q s l).told := by
  by_cases hl : l = .main
  · subst hl
    show i ∈ (s.mainStep q).told
    simp only [Net.State.mainStep]
    (repeat' split) <;> first | exact h | exact List.mem_cons_of_mem _ h
  · rw [Net.step_told q s l hl]; exact h

theorem told_later {t u : Nat} (h : t ≤ u) {i : Nat} (hx : i ∈ (run p ls t).proc.net.told) : i ∈ (run p ls u).proc.net.told := by
  rw [run_proc, Crash.run_net] at hx ⊢
  exact Net.stable (P := fun t => i ∈ (Net.run p.proc _ t).told) (fun t h => told_stable _ h) hx h

/-- A turn of a source whose pool has panicked. -/
theorem turn_dead {t i : Nat} (hi : i < p.proc.wiring.sources.length) (hl : ls t = .proc (.net (.stop i))) (hs : stopping (run p ls t).proc i = true)
    (hp : ((run p ls t).pools i).phase = .panicked) : .source i ∈ (run p ls (t + 1)).proc.dead := by
  rw [run, hl]
  simp only [step, hs, if_true, next, hp]
  simp only [stopping, Bool.and_eq_true, Bool.not_eq_true'] at hs
  obtain ⟨⟨⟨h1, -⟩, h3⟩, -⟩ := hs
  simp only [Crash.step, h1, Bool.false_eq_true, if_false, Crash.running, h3, Bool.not_false, Bool.and_true, decide_eq_true_eq, hi, if_true]
  simp

/-- The rest of the process is treated fairly. -/
theorem shadow_fair (hdr : Drains p) (hf : Fair p ls) : Crash.Fair p.proc (shadow p ls) := by
  refine ⟨fun n hn t => ?_, fun i hi t => ?_, fun t => ?_⟩
  · obtain ⟨u, h1, now, h2⟩ := hf.nodes n hn t
    exact ⟨u, h1, now, by simp only [shadow, h2]⟩
  · apply Classical.byContradiction
    intro hno
    have hno : ∀ u ≥ t, shadow p ls u ≠ .net (.stop i) := fun u hu h => hno ⟨u, hu, h⟩
    have turn : ∀ u ≥ t, ls u = .proc (.net (.stop i)) → stopping (run p ls u).proc i = true := by
      intro u hu hl
      apply Classical.byContradiction
      intro hs
      exact hno u hu (by simp only [shadow, hl, hs, Bool.false_eq_true, if_false])
    obtain ⟨t1, ht1, hl1⟩ := hf.sources i hi t
    have hs1 := turn t1 ht1 hl1
    have hst : ∀ u ≥ t1, stopping (run p ls u).proc i = true := by
      intro u hu
      obtain ⟨v, hv, hlv⟩ := hf.sources i hi u
      have hsv := turn v (by omega) hlv
      simp only [stopping, Bool.and_eq_true, Bool.not_eq_true', List.contains_iff_mem] at hs1 hsv ⊢
      obtain ⟨⟨⟨a1, a2⟩, a3⟩, a4⟩ := hsv
      refine ⟨⟨⟨?_, told_later hu hs1.1.1.2⟩, ?_⟩, ?_⟩
      · cases h : (run p ls u).proc.aborted with
        | false => rfl
        | true => rw [aborted_later hv h] at a1; cases a1
      · have : i ∉ (run p ls u).proc.net.ended := fun h => by simp [ended_later hv h] at a3
        simpa using this
      · have : .source i ∉ (run p ls u).proc.dead := fun h => by simp [dead_later hv h] at a4
        simpa using this
    obtain ⟨u, hu, hset⟩ := settles hdr hf hi t1 hst
    obtain ⟨v, hv, hlv, hpv⟩ := next_turn hf hi u
    have hsv := hst v (by omega)
    rcases hset with ⟨ids, h⟩ | h
    · rw [h] at hpv
      exact hno v (by omega) (by simp only [shadow, hlv, hsv, if_true, next, hpv])
    · rw [h] at hpv
      have hd := turn_dead hi hlv hsv hpv
      have := hst (v + 1) (by omega)
      simp [stopping, hd] at this
  · obtain ⟨u, h1, h2⟩ := hf.main t
    exact ⟨u, h1, by simp only [shadow, h2]⟩

end
end Handlers
end Verif
