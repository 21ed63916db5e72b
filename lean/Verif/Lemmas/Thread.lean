import Verif.Model.Thread
/-! # Lemmas about the thread pool -/
namespace Verif.Thread

/-- Where every thread is. -/
structure Inv (s : State) : Prop where
  spawned : s.spawned = List.range s.pool.threadId
  run_nodup : s.running.Nodup
  crash_nodup : s.crashed.Nodup
  join_nodup : s.pool.joinable.Nodup
  rep_nodup : s.reported.Nodup
  run_crash : ∀ i, i ∈ s.running → i ∉ s.crashed
  run_join : ∀ i, i ∈ s.running → i ∉ s.pool.joinable
  run_rep : ∀ i, i ∈ s.running → i ∉ s.reported
  crash_join : ∀ i, i ∈ s.crashed → i ∉ s.pool.joinable
  crash_rep : ∀ i, i ∈ s.crashed → i ∉ s.reported
  join_rep : ∀ i, i ∈ s.pool.joinable → i ∉ s.reported
  all : ∀ i, i < s.pool.threadId ↔
    i ∈ s.running ∨ i ∈ s.crashed ∨ i ∈ s.pool.joinable ∨ i ∈ s.reported
  serving : s.phase = .serving → s.pool.threads.Nodup ∧ s.signalled = [] ∧
    ∀ i, i ∈ s.pool.threads ↔ i ∈ s.running ∨ i ∈ s.crashed ∨ i ∈ s.pool.joinable
  draining : ∀ todo, s.phase = .draining todo → s.pool.threads = [] ∧
    ∀ i, i ∈ s.running ∨ i ∈ s.crashed → i ∈ todo
  joining : ∀ id todo, s.phase = .joining id todo → s.pool.threads = [] ∧
    ∀ i, i ∈ s.running ∨ i ∈ s.crashed → i = id ∨ i ∈ todo
  returned : ∀ ids, s.phase = .returned ids → s.running = [] ∧ s.crashed = [] ∧ s.pool.joinable = []
  panicked : s.phase = .panicked → s.crashed ≠ []

theorem Inv.init : Inv {} := by
  constructor <;> simp

/-- Joining threads that have all ended normally. -/
theorem joinReady_ok (s : State) (joinable : List Nat) : ∀ (threads joined : List Nat),
    (∀ i ∈ joinable, i ∉ s.running ∧ i ∉ s.crashed) →
    joinReady s threads joined joinable =
      some (threads.filter (fun i => decide (i ∉ joinable)), joined ++ joinable) := by
  induction joinable with
  | nil => intro threads joined _; simp [joinReady, List.filter_eq_self.2]
  | cons id js ih =>
    intro threads joined h
    have hid := h id (by simp)
    have hjs : ∀ i ∈ js, i ∉ s.running ∧ i ∉ s.crashed := fun i hi => h i (List.mem_cons_of_mem _ hi)
    simp only [joinReady]
    by_cases ht : id ∈ threads
    · rw [if_pos ht]
      simp only [joinHandle, if_neg hid.1, hid.2, not_false_eq_true, decide_true]
      rw [ih _ _ hjs]
      simp only [List.filter_filter, List.append_assoc, List.singleton_append, Option.some.injEq,
        Prod.mk.injEq, and_true]
      apply List.filter_congr
      intro x _
      simp only [List.mem_cons, not_or, Bool.decide_and, ne_eq]
      exact Bool.and_comm _ _
    · rw [if_neg ht, ih _ _ hjs]
      simp only [List.append_assoc, List.singleton_append, Option.some.injEq, Prod.mk.injEq, and_true]
      apply List.filter_congr
      intro x hx
      have hne : x ≠ id := fun e => ht (e ▸ hx)
      simp [hne]

theorem joinReady_inv {s : State} (h : Inv s) (threads : List Nat) :
    joinReady s threads [] s.pool.joinable =
      some (threads.filter (fun i => decide (i ∉ s.pool.joinable)), s.pool.joinable) := by
  rw [joinReady_ok]
  · simp
  · intro i hi
    exact ⟨fun hr => h.run_join i hr hi, fun hc => h.crash_join i hc hi⟩

theorem Inv.step {s s' : State} (h : Inv s) (l : Label) (hs : step s l = some s') : Inv s' := by
  cases l with
  | spawn =>
    simp only [Thread.step] at hs
    by_cases hp : s.phase = .serving
    · rw [if_pos hp] at hs
      simp only [Pool.spawn, Option.some.injEq] at hs
      subst hs
      obtain ⟨h1, h2, h3⟩ := h.serving hp
      have hnew : ∀ i, i ∈ s.running ∨ i ∈ s.crashed ∨ i ∈ s.pool.joinable ∨ i ∈ s.reported →
          i ≠ s.pool.threadId := fun i hi e => by
        have := (h.all i).2 hi
        omega
      have hall := h.all
      refine ⟨?_, ?_, h.crash_nodup, h.join_nodup, h.rep_nodup, ?_, ?_, ?_, h.crash_join, h.crash_rep,
        h.join_rep, ?_, ?_, ?_, ?_, ?_, ?_⟩ <;> simp only [hp]
      · simp [h.spawned, List.range_succ]
      · rw [List.nodup_append]
        refine ⟨h.run_nodup, by simp, ?_⟩
        intro a ha b hb
        simp only [List.mem_singleton] at hb
        subst hb
        exact hnew a (Or.inl ha)
      · intro i hi hc
        rcases List.mem_append.1 hi with hi | hi
        · exact h.run_crash i hi hc
        · simp only [List.mem_singleton] at hi
          exact hnew i (Or.inr (Or.inl hc)) hi
      · intro i hi hc
        rcases List.mem_append.1 hi with hi | hi
        · exact h.run_join i hi hc
        · simp only [List.mem_singleton] at hi
          exact hnew i (Or.inr (Or.inr (Or.inl hc))) hi
      · intro i hi hc
        rcases List.mem_append.1 hi with hi | hi
        · exact h.run_rep i hi hc
        · simp only [List.mem_singleton] at hi
          exact hnew i (Or.inr (Or.inr (Or.inr hc))) hi
      · intro i
        have := h.all i
        simp only [List.mem_append, List.mem_singleton]
        rw [Nat.lt_succ_iff_lt_or_eq, this]
        constructor
        · rintro ((h | h | h | h) | h)
          · exact Or.inl (Or.inl h)
          · exact Or.inr (Or.inl h)
          · exact Or.inr (Or.inr (Or.inl h))
          · exact Or.inr (Or.inr (Or.inr h))
          · exact Or.inl (Or.inr h)
        · rintro ((h | h) | h | h | h)
          · exact Or.inl (Or.inl h)
          · exact Or.inr h
          · exact Or.inl (Or.inr (Or.inl h))
          · exact Or.inl (Or.inr (Or.inr (Or.inl h)))
          · exact Or.inl (Or.inr (Or.inr (Or.inr h)))
      · intro _
        refine ⟨?_, h2, ?_⟩
        · rw [List.nodup_append]
          refine ⟨h1, by simp, ?_⟩
          intro a ha b hb
          simp only [List.mem_singleton] at hb
          subst hb
          refine hnew a ?_
          rcases (h3 a).1 ha with h | h | h
          · exact Or.inl h
          · exact Or.inr (Or.inl h)
          · exact Or.inr (Or.inr (Or.inl h))
        · intro i
          simp only [List.mem_append, h3 i, List.mem_singleton]
          constructor
          · rintro ((h | h | h) | h)
            · exact Or.inl (Or.inl h)
            · exact Or.inr (Or.inl h)
            · exact Or.inr (Or.inr h)
            · exact Or.inl (Or.inr h)
          · rintro ((h | h) | h | h)
            · exact Or.inl (Or.inl h)
            · exact Or.inr h
            · exact Or.inl (Or.inr (Or.inl h))
            · exact Or.inl (Or.inr (Or.inr h))
      all_goals simp
    · rw [if_neg hp] at hs; simp at hs
  | joinReady =>
    simp only [Thread.step] at hs
    by_cases hp : s.phase = .serving
    · rw [if_pos hp, joinReady_inv h] at hs
      simp only [Option.some.injEq] at hs
      subst hs
      obtain ⟨h1, h2, h3⟩ := h.serving hp
      obtain ⟨a1, a2, a3, a4, a5, a6, a7, a8, a9, a10, a11, a12, -⟩ := h
      constructor <;> simp only [hp] <;> grind [List.nodup_append]
    · rw [if_neg hp] at hs; simp at hs
  | shutdown order =>
    simp only [Thread.step] at hs
    by_cases hp : s.phase = .serving ∧ order.Perm s.pool.threads
    · rw [if_pos hp] at hs
      simp only [Option.some.injEq] at hs
      subst hs
      obtain ⟨h1, h2, h3⟩ := h.serving hp.1
      have hm := fun i => hp.2.mem_iff (a := i)
      obtain ⟨a1, a2, a3, a4, a5, a6, a7, a8, a9, a10, a11, a12, -⟩ := h
      constructor <;> simp only [] <;> grind
    · rw [if_neg hp] at hs; simp at hs
  | signal =>
    simp only [Thread.step] at hs
    split at hs
    · next id todo hp =>
      simp only [Option.some.injEq] at hs
      subst hs
      have := h.draining _ hp
      obtain ⟨a1, a2, a3, a4, a5, a6, a7, a8, a9, a10, a11, a12, -⟩ := h
      constructor <;> simp only [] <;> grind
    · simp at hs
  | join =>
    simp only [Thread.step] at hs
    split at hs
    · next id todo hp =>
      have hj := h.joining id todo hp
      simp only [joinHandle] at hs
      by_cases hr : id ∈ s.running
      · simp [hr] at hs
      · rw [if_neg hr] at hs
        obtain ⟨a1, a2, a3, a4, a5, a6, a7, a8, a9, a10, a11, a12, -⟩ := h
        by_cases hc : id ∈ s.crashed
        · simp only [hc, not_true_eq_false, decide_false, Option.some.injEq] at hs
          subst hs
          constructor <;> simp only [] <;> grind
        · simp only [hc, not_false_eq_true, decide_true, Option.some.injEq] at hs
          subst hs
          constructor <;> simp only [] <;> grind
    · next hp =>
      have hd := h.draining [] hp
      rw [joinReady_inv h] at hs
      simp only [Option.some.injEq] at hs
      subst hs
      have hr : s.running = [] := List.eq_nil_iff_forall_not_mem.2 fun i hi => by
        simpa using hd.2 i (Or.inl hi)
      have hc : s.crashed = [] := List.eq_nil_iff_forall_not_mem.2 fun i hi => by
        simpa using hd.2 i (Or.inr hi)
      obtain ⟨a1, a2, a3, a4, a5, a6, a7, a8, a9, a10, a11, a12, -⟩ := h
      constructor <;> simp only [] <;> grind [List.nodup_append]
    · simp at hs
  | finish id =>
    simp only [Thread.step] at hs
    by_cases hr : id ∈ s.running
    · rw [if_pos hr] at hs
      simp only [Option.some.injEq] at hs
      subst hs
      have hf : ∀ i, i ∈ s.running.filter (· ≠ id) ↔ i ∈ s.running ∧ i ≠ id := by
        intro i; simp
      have hn : (s.running.filter (· ≠ id)).Nodup := h.run_nodup.sublist List.filter_sublist
      obtain ⟨a1, a2, a3, a4, a5, a6, a7, a8, a9, a10, a11, a12, a13, a14, a15, a16, a17⟩ := h
      constructor <;> simp only [] <;> grind
    · rw [if_neg hr] at hs; simp at hs
  | crash id =>
    simp only [Thread.step] at hs
    by_cases hr : id ∈ s.running
    · rw [if_pos hr] at hs
      simp only [Option.some.injEq] at hs
      subst hs
      have hf : ∀ i, i ∈ s.running.filter (· ≠ id) ↔ i ∈ s.running ∧ i ≠ id := by
        intro i; simp
      have hn : (s.running.filter (· ≠ id)).Nodup := h.run_nodup.sublist List.filter_sublist
      obtain ⟨a1, a2, a3, a4, a5, a6, a7, a8, a9, a10, a11, a12, a13, a14, a15, a16, a17⟩ := h
      constructor <;> simp only [] <;> grind
    · rw [if_neg hr] at hs; simp at hs

theorem Inv.run (ls : List Label) : ∀ {s s' : State}, Inv s → run s ls = some s' → Inv s' := by
  induction ls with
  | nil => intro s s' h hr; simp only [Thread.run, Option.some.injEq] at hr; exact hr ▸ h
  | cons l ls ih =>
    intro s s' h hr
    simp only [Thread.run] at hr
    cases hs : Thread.step s l with
    | none => simp [hs] at hr
    | some s1 => rw [hs] at hr; exact ih (h.step l hs) hr

/-- What shutting down has done, given the order in which the handles are drained. -/
def Drained (order : List Nat) (s : State) : Prop :=
  match s.phase with
  | .serving => False
  | .draining todo => s.signalled ++ todo = order
  | .joining id todo => ∃ before, s.signalled = before ++ [id] ∧ s.signalled ++ todo = order
  | .returned _ => s.signalled = order
  | .panicked => ∃ todo, s.signalled ++ todo = order

theorem Drained.step {order : List Nat} {s s' : State} (h : Drained order s) (l : Label)
    (hs : step s l = some s') : Drained order s' := by
  cases l with
  | spawn =>
    simp only [Thread.step] at hs
    by_cases hp : s.phase = .serving
    · simp [Drained, hp] at h
    · simp [hp] at hs
  | joinReady =>
    simp only [Thread.step] at hs
    by_cases hp : s.phase = .serving
    · simp [Drained, hp] at h
    · simp [hp] at hs
  | shutdown order =>
    simp only [Thread.step] at hs
    by_cases hp : s.phase = .serving
    · simp [Drained, hp] at h
    · simp [hp] at hs
  | signal =>
    simp only [Thread.step] at hs
    split at hs
    · next id todo hp =>
      simp only [Option.some.injEq] at hs
      subst hs
      simp only [Drained, hp] at h
      simp only [Drained]
      exact ⟨s.signalled, rfl, by simpa using h⟩
    · simp at hs
  | join =>
    simp only [Thread.step] at hs
    split at hs
    · next id todo hp =>
      simp only [Drained, hp] at h
      obtain ⟨before, h1, h2⟩ := h
      split at hs
      · simp at hs
      · simp only [Option.some.injEq] at hs; subst hs; exact h2
      · simp only [Option.some.injEq] at hs; subst hs; exact ⟨todo, h2⟩
    · next hp =>
      simp only [Drained, hp, List.append_nil] at h
      split at hs
      · simp only [Option.some.injEq] at hs; subst hs; exact h
      · simp at hs
    · simp at hs
  | finish id =>
    simp only [Thread.step] at hs
    by_cases hr : id ∈ s.running
    · rw [if_pos hr] at hs
      simp only [Option.some.injEq] at hs
      subst hs
      exact h
    · simp [hr] at hs
  | crash id =>
    simp only [Thread.step] at hs
    by_cases hr : id ∈ s.running
    · rw [if_pos hr] at hs
      simp only [Option.some.injEq] at hs
      subst hs
      exact h
    · simp [hr] at hs

theorem Drained.run {order : List Nat} (ls : List Label) : ∀ {s s' : State}, Drained order s →
    run s ls = some s' → Drained order s' := by
  induction ls with
  | nil => intro s s' h hr; simp only [Thread.run, Option.some.injEq] at hr; exact hr ▸ h
  | cons l ls ih =>
    intro s s' h hr
    simp only [Thread.run] at hr
    cases hs : Thread.step s l with
    | none => simp [hs] at hr
    | some s1 => rw [hs] at hr; exact ih (h.step l hs) hr

/-- Crashed threads stay so. -/
theorem crashed_step {s s' : State} (l : Label) (hs : step s l = some s') (i : Nat)
    (hi : i ∈ s.crashed) : i ∈ s'.crashed := by
  cases l <;> simp only [Thread.step] at hs <;> (repeat' split at hs) <;>
    first
      | (simp at hs; done)
      | (simp only [Option.some.injEq] at hs; subst hs; first | exact hi | exact List.mem_cons_of_mem _ hi)

theorem crashed_run (ls : List Label) : ∀ {s s' : State}, run s ls = some s' → ∀ i, i ∈ s.crashed →
    i ∈ s'.crashed := by
  induction ls with
  | nil => intro s s' hr; simp only [Thread.run, Option.some.injEq] at hr; subst hr; exact fun _ h => h
  | cons l ls ih =>
    intro s s' hr i hi
    simp only [Thread.run] at hr
    cases hs : Thread.step s l with
    | none => simp [hs] at hr
    | some s1 => rw [hs] at hr; exact ih hr i (crashed_step l hs i hi)

end Verif.Thread
