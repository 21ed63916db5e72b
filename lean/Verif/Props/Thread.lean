import Verif.Lemmas.Thread
/-!
# C60, C61: the thread pool

Theorems range over every schedule: every list of spawns, endings and crashes of handlers, joins of
ready threads and one shutdown, with its steps interleaved with endings and crashes.

* C60 — ids are fresh; joining ready threads succeeds at any time and removes exactly the handlers
  that have ended; shutting down signals and joins all the others.
* C61 — false: once a handler has crashed, shutting the pool down never succeeds, and handlers that
  come after the crashed one are neither signalled nor waited for.
-/
namespace Verif
open Thread

/-! ## C60 -/

/-- **C60.**  The ids handed out are 0, 1, 2 and so on. -/
theorem C60_fresh (ls : List Label) (s : State) (h : run {} ls = some s) :
    s.spawned = List.range (ls.filter (fun l => decide (l = .spawn))).length := by
  have key : ∀ (ls : List Label) (s s' : State), run s ls = some s' →
      s'.pool.threadId = s.pool.threadId + (ls.filter (fun l => decide (l = .spawn))).length := by
    intro ls
    induction ls with
    | nil => intro s s' hr; simp only [run, Option.some.injEq] at hr; subst hr; simp
    | cons l ls ih =>
      intro s s' hr
      simp only [run] at hr
      cases hs : step s l with
      | none => simp [hs] at hr
      | some s1 =>
        rw [hs] at hr
        rw [ih s1 s' hr]
        cases l <;> simp only [step] at hs <;> (repeat' split at hs) <;>
          first
            | (simp at hs; done)
            | (simp only [Option.some.injEq] at hs; subst hs; simp [Pool.spawn]; done)
            | (simp only [Option.some.injEq] at hs; subst hs; simp [Pool.spawn]; omega)
  rw [(Inv.init.run ls h).spawned, key ls {} s h]
  simp

/-- **C60.**  Whenever the owner asks, joining the ready threads neither blocks nor panics, whatever
handlers have crashed; it returns exactly the handlers that have ended normally and were not
returned before, once each; and exactly the handlers still running, and the crashed ones, stay in
the pool. -/
theorem C60_join_ready (ls : List Label) (s : State) (h : run {} ls = some s)
    (hp : s.phase = .serving) :
    ∃ s' joined, step s .joinReady = some s' ∧ s'.reported = s.reported ++ joined ∧ joined.Nodup ∧
      (∀ i, i ∈ joined ↔ i ∈ s.spawned ∧ i ∉ s.running ∧ i ∉ s.crashed ∧ i ∉ s.reported) ∧
      s'.pool.threads.Nodup ∧ (∀ i, i ∈ s'.pool.threads ↔ i ∈ s.running ∨ i ∈ s.crashed) ∧
      s'.running = s.running ∧ s'.crashed = s.crashed ∧ s'.spawned = s.spawned ∧
      s'.signalled = s.signalled ∧ s'.phase = .serving := by
  have hi := Inv.init.run ls h
  obtain ⟨h1, h2, h3⟩ := hi.serving hp
  refine ⟨{ s with pool := { s.pool with threads := s.pool.threads.filter (fun i => decide (i ∉ s.pool.joinable)), joinable := [] }, reported := s.reported ++ s.pool.joinable },
    s.pool.joinable, by simp only [step, if_pos hp, joinReady_inv hi], rfl,
    hi.join_nodup, ?_, h1.sublist List.filter_sublist, ?_, rfl, rfl, rfl, rfl, hp⟩
  · intro i
    obtain ⟨a1, a2, a3, a4, a5, a6, a7, a8, a9, a10, a11, a12, -⟩ := hi
    rw [a1]
    grind
  · intro i
    obtain ⟨a1, a2, a3, a4, a5, a6, a7, a8, a9, a10, a11, a12, -⟩ := hi
    simp only [List.mem_filter, decide_eq_true_eq]
    grind

/-- **C60.**  When shutting down the pool returns, every handler that was in it has been signalled,
once each; none is running any more, none has crashed; and every handler ever spawned has been
returned as joined exactly once. -/
theorem C60_shutdown (ls more : List Label) (order ids : List Nat) (s s1 s2 : State)
    (h : run {} ls = some s) (h1 : step s (.shutdown order) = some s1) (h2 : run s1 more = some s2)
    (hp : s2.phase = .returned ids) :
    s2.signalled.Perm s.pool.threads ∧ s2.running = [] ∧ s2.crashed = [] ∧
    s2.reported.Nodup ∧ (∀ i, i ∈ s2.reported ↔ i ∈ s2.spawned) := by
  have hi := Inv.init.run ls h
  have hi2 := (hi.step _ h1).run more h2
  obtain ⟨hr, hc, hj⟩ := hi2.returned ids hp
  have h1' := h1
  simp only [step] at h1'
  by_cases hs : s.phase = .serving ∧ order.Perm s.pool.threads
  · rw [if_pos hs] at h1'
    simp only [Option.some.injEq] at h1'
    have hd : Drained order s1 := by
      subst h1'
      simp [Drained, (hi.serving hs.1).2.1]
    have hd2 := hd.run more h2
    simp only [Drained, hp] at hd2
    refine ⟨hd2 ▸ hs.2, hr, hc, hi2.rep_nodup, fun i => ?_⟩
    rw [hi2.spawned, List.mem_range, hi2.all, hr, hc, hj]
    simp
  · simp [hs] at h1'

/-- How much shutting down has still to do. -/
private def work (s : State) : Nat :=
  match s.phase with
  | .draining todo => 2 * todo.length + 1
  | .joining _ todo => 2 * todo.length + 2
  | _ => 0

/-- **C60.**  Unless a handler has crashed, shutting down gets on: at every point it has returned, or
waits for a handler it has signalled and that is still running, or can do a step that leaves less
to do.  Endings of handlers do not give it more to do. -/
theorem C60_progress (ls more : List Label) (order : List Nat) (s s1 s2 : State)
    (h : run {} ls = some s) (h1 : step s (.shutdown order) = some s1) (h2 : run s1 more = some s2)
    (hc : s2.crashed = []) :
    ((∃ ids, s2.phase = .returned ids) ∨
      (∃ id todo, s2.phase = .joining id todo ∧ id ∈ s2.running ∧ id ∈ s2.signalled) ∨
      ∃ l s3, (l = .signal ∨ l = .join) ∧ step s2 l = some s3 ∧ s3.phase ≠ .panicked ∧
        work s3 < work s2) ∧
    ∀ i s3, step s2 (.finish i) = some s3 → work s3 = work s2 := by
  have hi := Inv.init.run ls h
  have hi2 := (hi.step _ h1).run more h2
  have h1' := h1
  simp only [step] at h1'
  by_cases hs : s.phase = .serving ∧ order.Perm s.pool.threads
  · rw [if_pos hs] at h1'
    simp only [Option.some.injEq] at h1'
    have hd : Drained order s1 := by
      subst h1'
      simp [Drained, (hi.serving hs.1).2.1]
    have hd2 := hd.run more h2
    refine ⟨?_, ?_⟩
    · cases hp : s2.phase with
      | serving => simp [Drained, hp] at hd2
      | draining todo =>
        cases todo with
        | nil =>
          refine Or.inr (Or.inr ⟨.join, _, Or.inr rfl, by simp only [step, hp, joinReady_inv hi2]; rfl, ?_, ?_⟩)
          · simp
          · simp [work, hp]
        | cons id todo =>
          refine Or.inr (Or.inr ⟨.signal, _, Or.inl rfl, by simp only [step, hp]; rfl, ?_, ?_⟩)
          · simp
          · simp only [work, hp, List.length_cons]; omega
      | joining id todo =>
        by_cases hr : id ∈ s2.running
        · simp only [Drained, hp] at hd2
          obtain ⟨before, hb, -⟩ := hd2
          exact Or.inr (Or.inl ⟨id, todo, rfl, hr, by rw [hb]; simp⟩)
        · refine Or.inr (Or.inr ⟨.join, { s2 with phase := .draining todo }, Or.inr rfl, ?_, ?_, ?_⟩)
          · simp [step, hp, joinHandle, hr, hc]
          · simp
          · simp only [work, hp]; omega
      | returned ids => exact Or.inl ⟨ids, rfl⟩
      | panicked => exact absurd hc (hi2.panicked hp)
    · intro i s3 hf
      simp only [step] at hf
      by_cases hr : i ∈ s2.running
      · rw [if_pos hr] at hf
        simp only [Option.some.injEq] at hf
        subst hf
        rfl
      · simp [hr] at hf
  · simp [hs] at h1'

/-- Three handlers: the first ends and is joined, the others are shut down, in any order, one of them
ending by itself meanwhile. -/
example : ∃ s s1 s2, run {} [.spawn, .spawn, .spawn, .finish 0, .joinReady] = some s ∧
    s.phase = .serving ∧ s.pool.threads = [1, 2] ∧ s.reported = [0] ∧
    step s (.shutdown [2, 1]) = some s1 ∧
    run s1 [.signal, .finish 1, .finish 2, .join, .signal, .join, .join] = some s2 ∧
    s2.phase = .returned [2, 1] ∧ s2.reported = [0, 2, 1] :=
  ⟨_, _, _, rfl, rfl, rfl, rfl, rfl, rfl, rfl, rfl⟩

/-! ## C61 -/

/-- C61 does not hold: once any handler has crashed, shutting down the pool never returns, whatever
happens before and after. -/
theorem C61_crash_false (ls more : List Label) (s s' : State) (ids : List Nat)
    (h : run {} ls = some s) (hc : s.crashed ≠ []) (h' : run s more = some s') :
    s'.phase ≠ .returned ids := by
  intro hp
  have hi := (Inv.init.run ls h).run more h'
  cases hcs : s.crashed with
  | nil => exact hc hcs
  | cons i is =>
    have := crashed_run more h' i (by rw [hcs]; simp)
    rw [(hi.returned ids hp).2.1] at this
    simp at this

/-- It panics instead, and leaves behind handlers that run on without having been signalled. -/
theorem C61_left_running_false : ∃ (ls : List Label) (s : State), run {} ls = some s ∧
    s.phase = .panicked ∧ s.running = [1] ∧ s.signalled = [0] :=
  ⟨[.spawn, .spawn, .crash 0, .shutdown [0, 1], .signal, .join], _, rfl, rfl, rfl, rfl⟩

/-- **C61, partial.**  Only a crashed handler makes the owner of the pool panic; and until it shuts down,
crashes do not keep it from joining the handlers that have ended (`C60_join_ready`).  Missing: the shutdown itself. -/
theorem C61_partial (ls : List Label) (s : State) (h : run {} ls = some s) :
    (s.phase = .panicked → s.crashed ≠ []) ∧
    (s.phase = .serving → ∃ s', step s .joinReady = some s') := by
  have hi := Inv.init.run ls h
  refine ⟨hi.panicked, fun hp => ?_⟩
  obtain ⟨s', -, h1, -⟩ := C60_join_ready ls s h hp
  exact ⟨s', h1⟩

end Verif
