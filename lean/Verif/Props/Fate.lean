import Verif.Spec.Fate
import Verif.Props.SinkPanic
/-!
# C150: how a process ends

Theorems range over every configuration and every schedule, with panics of any threads at any times.
-/
namespace Verif
open Topology
open Net (SetUp Setup Fed)
open Crash (Thread Over Finished SinksFirst Served waitOrder FirstStuck)
variable {F : Type} [F64 F]

/-- How far `main` has got, and what has returned by then. -/
private theorem got_to {p : Setup F} {ls : Nat → Net.Label F} (hsome : ∀ n ∈ p.joinOrder, ∀ t, ((Net.run p ls t).nodes n).isSome) (t : Nat) :
    (∀ todo, (Net.run p ls t).main = .stopping todo → ∃ pre, p.stopOrder = pre ++ todo ∧ ∀ i ∈ pre, i ∈ (Net.run p ls t).ended) ∧
    (∀ todo, (Net.run p ls t).main = .joining todo → (∀ i ∈ p.stopOrder, i ∈ (Net.run p ls t).ended) ∧
      ∃ pre, p.joinOrder = pre ++ todo ∧ ∀ n ∈ pre, Net.gone (Net.run p ls t) n) := by
  induction t with
  | zero => exact ⟨fun todo h => (by cases h), fun todo h => (by cases h)⟩
  | succ t ih =>
    obtain ⟨ih1, ih2⟩ := ih
    have he : ∀ i, i ∈ (Net.run p ls t).ended → i ∈ (Net.run p ls (t + 1)).ended := fun i h => Net.ended_stable _ h
    have hgn : ∀ n, Net.gone (Net.run p ls t) n → Net.gone (Net.run p ls (t + 1)) n := fun n h => Net.gone_stable _ h
    by_cases hl : ls t = .main
    · have hm : (Net.run p ls (t + 1)).main = ((Net.run p ls t).mainStep p).main := by rw [Net.run, hl]; rfl
      rw [hm]
      cases h : (Net.run p ls t).main with
      | waiting =>
        by_cases hs : (Net.run p ls t).signalled = true
        · simp only [Net.State.mainStep, h, hs, if_true]
          exact ⟨fun todo e => (by cases e; exact ⟨[], rfl, by simp⟩), fun todo e => (by cases e)⟩
        · have h' : ((Net.run p ls t).mainStep p).main = .waiting := by simp [Net.State.mainStep, h, hs]
          rw [h']
          exact ⟨fun todo e => (by cases e), fun todo e => (by cases e)⟩
      | stopping todo =>
        obtain ⟨pre, h1, h2⟩ := ih1 todo h
        cases todo with
        | nil =>
          simp only [Net.State.mainStep, h]
          refine ⟨fun todo e => (by cases e), fun todo e => ?_⟩
          cases e
          exact ⟨fun i hi => he i (h2 i (by rw [h1] at hi; simpa using hi)), [], rfl, by simp⟩
        | cons i is =>
          by_cases ht : i ∈ (Net.run p ls t).told
          · by_cases hen : i ∈ (Net.run p ls t).ended
            · simp only [Net.State.mainStep, h, ht, hen, if_true]
              refine ⟨fun todo e => ?_, fun todo e => (by cases e)⟩
              cases e
              refine ⟨pre ++ [i], by simp [h1], fun j hj => ?_⟩
              rcases List.mem_append.1 hj with hj | hj
              · exact he j (h2 j hj)
              · rw [List.mem_singleton.1 hj]; exact he i hen
            · simp only [Net.State.mainStep, h, ht, hen, if_true, if_false]
              refine ⟨fun todo e => ?_, fun todo e => (by cases e)⟩
              cases e
              exact ⟨pre, h1, fun j hj => he j (h2 j hj)⟩
          · simp only [Net.State.mainStep, h, ht, if_false]
            refine ⟨fun todo e => ?_, fun todo e => (by cases e)⟩
            cases e
            exact ⟨pre, h1, fun j hj => he j (h2 j hj)⟩
      | joining todo =>
        obtain ⟨h0, pre, h1, h2⟩ := ih2 todo h
        cases todo with
        | nil =>
          simp only [Net.State.mainStep, h]
          exact ⟨fun todo e => (by cases e), fun todo e => (by cases e)⟩
        | cons n ns =>
          obtain ⟨nd, hnd⟩ := Option.isSome_iff_exists.1 (hsome n (by rw [h1]; simp) t)
          by_cases hr : nd.returned = true
          · simp only [Net.State.mainStep, h, hnd, hr, if_true]
            refine ⟨fun todo e => (by cases e), fun todo e => ?_⟩
            cases e
            refine ⟨fun i hi => he i (h0 i hi), pre ++ [n], by simp [h1], fun m hm => ?_⟩
            rcases List.mem_append.1 hm with hm | hm
            · exact hgn m (h2 m hm)
            · rw [List.mem_singleton.1 hm]; exact hgn n ⟨nd, hnd, hr⟩
          · have h' : ((Net.run p ls t).mainStep p).main = .joining (n :: ns) := by simp [Net.State.mainStep, h, hnd, hr]
            rw [h']
            refine ⟨fun todo e => (by cases e), fun todo e => ?_⟩
            cases e
            exact ⟨fun i hi => he i (h0 i hi), pre, h1, fun m hm => hgn m (h2 m hm)⟩
      | exited =>
        simp only [Net.State.mainStep, h]
        exact ⟨fun todo e => (by cases e), fun todo e => (by cases e)⟩
    · have hm : (Net.run p ls (t + 1)).main = (Net.run p ls t).main := Net.step_main p _ _ hl
      rw [hm]
      refine ⟨fun todo e => ?_, fun todo e => ?_⟩
      · obtain ⟨pre, h1, h2⟩ := ih1 todo e
        exact ⟨pre, h1, fun i hi => he i (h2 i hi)⟩
      · obtain ⟨h0, pre, h1, h2⟩ := ih2 todo e
        exact ⟨fun i hi => he i (h0 i hi), pre, h1, fun m hm => hgn m (h2 m hm)⟩

section
variable {c : Config} (hd : Distinct c) {p : Setup F} (hp : SetUp c p) {ls : Nat → Crash.Label F}
include hd hp

private theorem somewhere : ∀ n ∈ p.joinOrder, ∀ t, ((Net.run p (Crash.shadow p ls) t).nodes n).isSome := by
  intro n hn
  obtain ⟨w1, w2, -⟩ := C57_mutual c hd _ hp.wired
  refine Net.present (Net.some_of_channel hd hp.wired ?_)
  rcases List.mem_append.1 (hp.joinOrder.mem_iff.1 hn) with h | h
  · exact .inl (w1 ▸ h)
  · rw [w2] at h
    obtain ⟨fs, h⟩ := Net.mem_fst h
    exact .inr ⟨fs, h⟩

private theorem stops : ∀ i, i ∈ p.stopOrder ↔ i < p.wiring.sources.length := by
  intro i
  rw [hp.stopOrder.mem_iff, Net.handles_all (Net.names hd hp.wired).2.2.1, List.mem_range]

omit hd hp in
/-- `main` gets past what returns. -/
private theorem passes (hmain : ∀ t, ∃ t', t ≤ t' ∧ Crash.shadow p ls t' = .main) (a rest : List Str)
    (hgone : ∀ m ∈ a, ∃ t, Net.gone (Net.run p (Crash.shadow p ls) t) m) :
    ∀ t, (Net.run p (Crash.shadow p ls) t).main = .joining (a ++ rest) → ∃ t', (Net.run p (Crash.shadow p ls) t').main = .joining rest := by
  induction a with
  | nil => intro t ht; exact ⟨t, ht⟩
  | cons m a ih =>
    intro t ht
    obtain ⟨tg, hg⟩ := hgone m List.mem_cons_self
    obtain ⟨v, -, hv⟩ := Net.ensures (help := fun u => Crash.shadow p ls u = .main ∧ tg ≤ u)
      (P := fun u => (Net.run p (Crash.shadow p ls) u).main = .joining (m :: a ++ rest))
      (Q := fun u => (Net.run p (Crash.shadow p ls) u).main = .joining (a ++ rest)) (by
        intro u
        obtain ⟨v, h1, h2⟩ := hmain (max u tg)
        exact ⟨v, by omega, h2, by omega⟩) (by
        intro u hu
        by_cases hl : Crash.shadow p ls u = .main
        · simp only [List.cons_append] at hu ⊢
          rw [Net.run, hl]
          cases hnd : (Net.run p (Crash.shadow p ls) u).nodes m with
          | none => right; simp [Net.step, Net.State.mainStep, hu, hnd]
          | some nd =>
            by_cases hr : nd.returned = true
            · right; simp [Net.step, Net.State.mainStep, hu, hnd, hr]
            · left; simp [Net.step, Net.State.mainStep, hu, hnd, hr]
        · left; rw [Net.run, Net.step_main p _ _ hl]; exact hu) (by
        rintro u ⟨hl, htg⟩ hu
        obtain ⟨nd, hnd, hr⟩ := Net.stable (P := fun t => Net.gone (Net.run p (Crash.shadow p ls) t) m) (fun t h => Net.gone_stable _ h) hg htg
        simp only [List.cons_append] at hu
        rw [Net.run, hl]
        simp [Net.step, Net.State.mainStep, hu, hnd, hr]) t ht
    exact ih (fun k hk => hgone k (List.mem_cons_of_mem _ hk)) v hv

omit hd hp in
private theorem fin_node {n : Str} : (∃ t, Finished (Crash.run p ls t) (.node n)) ↔ ∃ t, Net.gone (Net.run p (Crash.shadow p ls) t) n := by
  simp only [Finished, Crash.run_net]; rfl

omit hd hp in
private theorem never_dead {x : Thread} {t0 : Nat} (h : x ∈ (Crash.run p ls t0).dead) (t : Nat) : ¬ Finished (Crash.run p ls t) x := by
  intro hg
  refine Crash.dead_unfinished _ _ (Crash.dead_stable (Nat.le_max_right t t0) h) ?_
  cases x with
  | source i =>
    simp only [Finished, Crash.run_net] at hg ⊢
    exact Net.stable (P := fun t => i ∈ (Net.run p (Crash.shadow p ls) t).ended) (fun t h => Net.ended_stable _ h) hg (Nat.le_max_left _ _)
  | node n =>
    simp only [Finished, Crash.run_net] at hg ⊢
    exact Net.stable (P := fun t => Net.gone (Net.run p (Crash.shadow p ls) t) n) (fun t h => Net.gone_stable _ h) hg (Nat.le_max_left _ _)

/-- A panic of `main` is due to a thread that panicked, all before it having returned. -/
private theorem aborted_stuck (t : Nat) (h : (Crash.run p ls t).aborted = true) :
    ∃ before x after, waitOrder p = before ++ x :: after ∧ (∀ y ∈ before, Finished (Crash.run p ls t) y) ∧ x ∈ (Crash.run p ls t).dead := by
  obtain ⟨x, hx, ha⟩ := Crash.aborted_awaited t h
  obtain ⟨g1, g2⟩ := got_to (ls := Crash.shadow p ls) (somewhere hd hp) t
  rw [Crash.run_net] at ha
  unfold Crash.awaited at ha
  split at ha
  · rename_i i is hm
    split at ha
    · cases ha
      obtain ⟨pre, h1, h2⟩ := g1 _ hm
      refine ⟨pre.map .source, .source i, is.map .source ++ p.joinOrder.map .node, by simp [waitOrder, h1], ?_, hx⟩
      intro y hy
      obtain ⟨j, hj, rfl⟩ := List.mem_map.1 hy
      simp only [Finished, Crash.run_net]
      exact h2 j hj
    · cases ha
  · rename_i n ns hm
    cases ha
    obtain ⟨h0, pre, h1, h2⟩ := g2 _ hm
    refine ⟨p.stopOrder.map .source ++ pre.map .node, .node n, ns.map .node, by simp [waitOrder, h1], ?_, hx⟩
    intro y hy
    rcases List.mem_append.1 hy with hy | hy
    · obtain ⟨j, hj, rfl⟩ := List.mem_map.1 hy
      simp only [Finished, Crash.run_net]
      exact h0 j hj
    · obtain ⟨m, hm, rfl⟩ := List.mem_map.1 hy
      simp only [Finished, Crash.run_net]
      exact h2 m hm
  · cases ha

/-- A process that goes on for ever waits for a sink or filter that has not panicked. -/
private theorem hangs_stuck (hf : Crash.Fair p ls) (hsig : ∃ t, ls t = .net .signal) (hno : ∀ t, ¬ Over (Crash.run p ls t)) :
    ∃ n, FirstStuck p ls (.node n) ∧ ∀ t, .node n ∉ (Crash.run p ls t).dead := by
  have hna : ∀ t, (Crash.run p ls t).aborted = false := by
    intro t
    cases h : (Crash.run p ls t).aborted with
    | false => rfl
    | true => exact absurd (.inr h) (hno t)
  have hst := stops hd hp
  have hsrcs : ∀ t i, .source i ∉ (Crash.run p ls t).dead := by
    intro t i h
    obtain ⟨u, hu⟩ := Crash.source_aborts hf (fun i hi => (hst i).1 hi) hsig ((hst i).2 (Crash.dead_exists t _ h)) h
    rw [hna] at hu; cases hu
  obtain ⟨t, ht, hend⟩ := Crash.joins hd hp hf hna hsig hsrcs
  have hmain := Crash.main_turn hf hna
  -- the first that is never gone
  have first : ∀ l : List Str, (∀ m ∈ l, ∃ t, Net.gone (Net.run p (Crash.shadow p ls) t) m) ∨
      ∃ a n b, l = a ++ n :: b ∧ (∀ m ∈ a, ∃ t, Net.gone (Net.run p (Crash.shadow p ls) t) m) ∧ ∀ t, ¬ Net.gone (Net.run p (Crash.shadow p ls) t) n := by
    intro l
    induction l with
    | nil => exact .inl (by simp)
    | cons m l ih =>
      by_cases hm : ∃ t, Net.gone (Net.run p (Crash.shadow p ls) t) m
      · rcases ih with ih | ⟨a, n, b, h1, h2, h3⟩
        · refine .inl fun k hk => ?_
          rcases List.mem_cons.1 hk with rfl | hk
          · exact hm
          · exact ih k hk
        · refine .inr ⟨m :: a, n, b, by simp [h1], fun k hk => ?_, h3⟩
          rcases List.mem_cons.1 hk with rfl | hk
          · exact hm
          · exact h2 k hk
      · exact .inr ⟨[], m, l, rfl, by simp, fun t h => hm ⟨t, h⟩⟩
  rcases first p.joinOrder with hall | ⟨a, n, b, h1, h2, h3⟩
  · obtain ⟨u, hu⟩ := passes hmain p.joinOrder [] hall t (by rw [List.append_nil]; exact ht)
    obtain ⟨v, -, hv⟩ := Net.main_exits hmain [] u (by simp) hu
    exact absurd (.inl (by rw [Crash.run_net]; exact hv)) (hno v)
  · refine ⟨n, ⟨p.stopOrder.map .source ++ a.map .node, b.map .node, by simp [waitOrder, h1], ?_, ?_⟩, ?_⟩
    · intro y hy
      rcases List.mem_append.1 hy with hy | hy
      · obtain ⟨j, hj, rfl⟩ := List.mem_map.1 hy
        exact ⟨t, by simp only [Finished, Crash.run_net]; exact hend j ((hst j).1 hj)⟩
      · obtain ⟨m, hm, rfl⟩ := List.mem_map.1 hy
        exact fin_node.2 (h2 m hm)
    · intro u hu
      obtain ⟨v, hv⟩ := fin_node.1 ⟨u, hu⟩
      exact h3 v hv
    · intro td hdead
      obtain ⟨u, hu⟩ := passes hmain a (n :: b) h2 t (by rw [← h1]; exact ht)
      obtain ⟨v, hv, hl⟩ := hf.main (max u td)
      have hm : (Net.run p (Crash.shadow p ls) v).main = .joining (n :: b) := by
        refine Net.stable (P := fun v => (Net.run p (Crash.shadow p ls) v).main = .joining (n :: b)) (fun v h => ?_) hu (show u ≤ v by omega)
        by_cases hl : Crash.shadow p ls v = .main
        · obtain ⟨nd, hnd⟩ := Option.isSome_iff_exists.1 (somewhere hd hp (ls := ls) n (by rw [h1]; simp) v)
          have hr : nd.returned ≠ true := fun hr => h3 v ⟨nd, hnd, hr⟩
          rw [Net.run, hl]
          simp [Net.step, Net.State.mainStep, h, hnd, hr]
        · rw [Net.run, Net.step_main p _ _ hl]; exact h
      have : (Crash.run p ls (v + 1)).aborted = true := by
        rw [Crash.run, hl]
        have hx := Crash.dead_stable (show td ≤ v by omega) hdead
        simp [Crash.step, hna v, Crash.awaited, Crash.run_net, hm, hx]
      rw [hna] at this; cases this

omit hd hp in
private theorem stuck_unique {x y : Thread} (hx : FirstStuck p ls x) (hy : FirstStuck p ls y) : x = y := by
  obtain ⟨a, b, h1, h2, h3⟩ := hx
  obtain ⟨a', b', h1', h2', h3'⟩ := hy
  rw [h1] at h1'
  rcases List.append_eq_append_iff.1 h1' with ⟨k, hk, hr⟩ | ⟨k, hk, hr⟩
  · cases k with
    | nil => simp only [List.nil_append, List.cons.injEq] at hr; exact hr.1
    | cons z k =>
      simp only [List.cons_append, List.cons.injEq] at hr
      obtain ⟨t, ht⟩ := h2' z (by rw [hk]; simp)
      exact absurd (hr.1 ▸ ht) (h3 t)
  · cases k with
    | nil => simp only [List.nil_append, List.cons.injEq] at hr; exact hr.1.symm
    | cons z k =>
      simp only [List.cons_append, List.cons.injEq] at hr
      obtain ⟨t, ht⟩ := h2 z (by rw [hk]; simp)
      exact absurd (hr.1 ▸ ht) (h3' t)

end

/-- **C150.**  Whatever panics, and however queues and valves behave: if every thread that has not panicked gets its turn and a signal comes, then the first thread in the order of
`main` that never returns decides.  If there is none the process exits, if that thread has panicked `main` panics, and otherwise the process never ends.  A source that has not
panicked always returns. -/
theorem C150_fate (c : Config) (hd : Distinct c) (p : Setup F) (hp : SetUp c p) (ls : Nat → Crash.Label F) (hf : Crash.Fair p ls) (hsig : ∃ t, ls t = .net .signal) :
    ((∃ t, (Crash.run p ls t).net.main = .exited) ↔ ¬ ∃ x, FirstStuck p ls x) ∧
    ((∃ t, (Crash.run p ls t).aborted = true) ↔ ∃ x, FirstStuck p ls x ∧ ∃ t, x ∈ (Crash.run p ls t).dead) ∧
    ((∀ t, ¬ Over (Crash.run p ls t)) ↔ ∃ n, FirstStuck p ls (.node n) ∧ ∀ t, .node n ∉ (Crash.run p ls t).dead) := by
  have exits : (∃ t, (Crash.run p ls t).net.main = .exited) → ¬ ∃ x, FirstStuck p ls x := by
    rintro ⟨t, ht⟩ ⟨x, b, a, h1, -, h3⟩
    obtain ⟨-, g1, g2⟩ := C117_clean_exit c hd p hp ls t ht
    have hx : x ∈ waitOrder p := by rw [h1]; simp
    rcases List.mem_append.1 hx with hx | hx
    · obtain ⟨i, hi, rfl⟩ := List.mem_map.1 hx
      exact h3 t (g1 i ((stops hd hp i).1 hi))
    · obtain ⟨n, hn, rfl⟩ := List.mem_map.1 hx
      obtain ⟨w1, w2, -⟩ := C57_mutual c hd _ hp.wired
      refine h3 t (g2 n ?_)
      rcases List.mem_append.1 (hp.joinOrder.mem_iff.1 hn) with h | h
      · exact .inl (w1 ▸ h)
      · rw [w2] at h
        obtain ⟨fs, h⟩ := Net.mem_fst h
        exact .inr ⟨fs, h⟩
  have aborts : (∃ t, (Crash.run p ls t).aborted = true) → ∃ x, FirstStuck p ls x ∧ ∃ t, x ∈ (Crash.run p ls t).dead := by
    rintro ⟨t, ht⟩
    obtain ⟨b, x, a, h1, h2, h3⟩ := aborted_stuck hd hp t ht
    exact ⟨x, ⟨b, a, h1, fun y hy => ⟨t, h2 y hy⟩, never_dead h3⟩, t, h3⟩
  have hangs : (∀ t, ¬ Over (Crash.run p ls t)) → ∃ n, FirstStuck p ls (.node n) ∧ ∀ t, .node n ∉ (Crash.run p ls t).dead := hangs_stuck hd hp hf hsig
  have cases3 : (∃ t, (Crash.run p ls t).net.main = .exited) ∨ (∃ t, (Crash.run p ls t).aborted = true) ∨ ∀ t, ¬ Over (Crash.run p ls t) := by
    by_cases h1 : ∃ t, (Crash.run p ls t).net.main = .exited
    · exact .inl h1
    · by_cases h2 : ∃ t, (Crash.run p ls t).aborted = true
      · exact .inr (.inl h2)
      · refine .inr (.inr fun t h => ?_)
        rcases h with h | h
        · exact h1 ⟨t, h⟩
        · exact h2 ⟨t, h⟩
  refine ⟨⟨exits, fun h => ?_⟩, ⟨aborts, fun ⟨x, hx, t, ht⟩ => ?_⟩, ⟨hangs, fun ⟨n, hn, hlive⟩ => ?_⟩⟩
  · rcases cases3 with h1 | h1 | h1
    · exact h1
    · obtain ⟨x, hx, -⟩ := aborts h1
      exact absurd ⟨x, hx⟩ h
    · obtain ⟨n, hn, -⟩ := hangs h1
      exact absurd ⟨_, hn⟩ h
  · rcases cases3 with h1 | h1 | h1
    · exact absurd ⟨x, hx⟩ (exits h1)
    · exact h1
    · obtain ⟨n, hn, hlive⟩ := hangs h1
      obtain rfl := stuck_unique hx hn
      exact absurd ht (hlive t)
  · rcases cases3 with h1 | h1 | h1
    · exact absurd ⟨_, hn⟩ (exits h1)
    · obtain ⟨x, hx, t, ht⟩ := aborts h1
      obtain rfl := stuck_unique hn hx
      exact absurd ht (hlive t)
    · exact h1

/-- **C150 (the sinks).**  As long as `main` does not panic, and if also no `Shutdown` is lost and valves reopen: whatever filters and sinks panic, a sink returns iff it does not
panic and some way leads to it from a source through no filter that panics before it has sent a `Shutdown`. -/
theorem C150_sinks (c : Config) (hd : Distinct c) (p : Setup F) (hp : SetUp c p) (ls : Nat → Crash.Label F) (hf : Crash.Fair p ls) (hsig : ∃ t, ls t = .net .signal)
    (hk : ∀ t n x, (x, .shutdown) ∉ (Crash.run p ls t).net.lost n) (hre : Crash.ValvesReopen p ls) (hna : ∀ t, (Crash.run p ls t).aborted = false)
    (n : Str) (hn : n ∈ c.sinks) :
    (∃ t, Finished (Crash.run p ls t) (.node n)) ↔ (∀ t, .node n ∉ (Crash.run p ls t).dead) ∧ Served c (Crash.DiesMute p ls) n := by
  have hst := stops hd hp
  obtain ⟨w1, -⟩ := C57_mutual c hd _ hp.wired
  obtain ⟨ups, hsink⟩ := Net.mem_fst (w1 ▸ hn)
  have hsrcs : ∀ t i, .source i ∉ (Crash.run p ls t).dead := by
    intro t i h
    obtain ⟨u, hu⟩ := Crash.source_aborts hf (fun i hi => (hst i).1 hi) hsig ((hst i).2 (Crash.dead_exists t _ h)) h
    rw [hna] at hu; cases hu
  constructor
  · rintro ⟨t, ht⟩
    refine ⟨fun u hu => never_dead hu t ht, ?_⟩
    apply Classical.byContradiction
    intro hcut
    have hq := Crash.cut_quiet c hd p hp ls (Crash.DiesMute p ls) (fun f hf hdf t => Crash.mute_stays hd hp hf hdf t) t n hcut (.inl hn)
    simp only [Finished, Crash.run_net] at ht
    exact Net.unended (Net.linked hd hp.wired) (.inl ⟨ups, hsink⟩) t hq ht
  · rintro ⟨hlive, hserved⟩
    refine fin_node.2 (Net.sink_gone (Net.linked hd hp.wired) hsink (Crash.node_turn hf hna (List.mem_append_left _ (List.mem_map.2 ⟨_, hsink, rfl⟩)) hlive) ?_
      (Crash.served_reached hd hp hf hna hk hsig hsrcs hserved))
    intro t k r h
    rw [← Crash.run_net] at h
    exact hre n t k r h

/-! ### A case for each end, and a source that panics -/

/-- Nothing panics, and no thread is stuck. -/
example : ¬ ∃ x, FirstStuck forkedSetup (fun t => .net (rota t)) x :=
  (C150_fate forked (by decide) forkedSetup forked_setUp _ (forked_fair _ 0 fun _ _ => rfl) ⟨5, rfl⟩).1.1 ⟨100, by decide +kernel⟩

/-- A filter panics before it has sent a `Shutdown`: the process waits for a sink that has not panicked. -/
example : ∃ n, FirstStuck forkedSetup filterDies (.node n) ∧ ∀ t, .node n ∉ (Crash.run forkedSetup filterDies t).dead :=
  (C150_fate forked (by decide) forkedSetup forked_setUp _ (forked_fair _ 1 fun t ht => by simp [filterDies, show t ≠ 0 by omega]) ⟨5, rfl⟩).2.2.1 filterDies_hangs

/-- The hypotheses of `C150_sinks` are met by that process; the sink does not return, though it does not panic. -/
example : ¬ ((∀ t, .node ['k'] ∉ (Crash.run forkedSetup filterDies t).dead) ∧ Served forked (Crash.DiesMute forkedSetup filterDies) ['k']) := by
  have key := C150_sinks forked (by decide) forkedSetup forked_setUp filterDies (forked_fair _ 1 fun t ht => by simp [filterDies, show t ≠ 0 by omega]) ⟨5, rfl⟩
    (by intro t n x; rw [Crash.run_net]; exact Net.shutdowns_kept 0 (fun _ => .inl fun _ => rfl) t n x) (fun _ _ _ _ _ => ⟨0, rfl⟩)
    (fun t => by
      cases h : (Crash.run forkedSetup filterDies t).aborted with
      | false => rfl
      | true => exact absurd (.inr h) (filterDies_hangs t)) ['k'] (by decide)
  intro h
  obtain ⟨t, ht⟩ := key.2 h
  refine (C117_filter_false forked (by decide) forkedSetup forked_setUp forked_sinksFirst filterDies (Crash.DiesMute forkedSetup filterDies) ['k'] (by decide) ?_
    (fun f _ h => h) ?_ t).2 ht
  · intro hs
    have only : ∀ u, Forwards forked u ['k'] → u = ['f'] := by
      rintro u ⟨fs, h1, h2⟩
      simp only [forked, List.nil_append, List.cons_append, List.append_nil, List.mem_cons, List.not_mem_nil, or_false, Prod.mk.injEq] at h1
      rcases h1 with ⟨rfl, rfl⟩ | ⟨rfl, rfl⟩
      · rfl
      · exact absurd h2 (by decide)
    cases hs with
    | source s _ h1 h2 => obtain rfl := only s h2; exact absurd h1 (by decide)
    | filter f _ _ h1 h2 =>
      obtain rfl := only f h2
      refine h1 ⟨1, by decide +kernel, ?_⟩
      intro nd hnd
      have : ((Crash.run forkedSetup filterDies 1).net.nodes ['f']).all (fun nd => nd.sent.isEmpty) = true := by decide +kernel
      rw [hnd] at this
      simp only [Option.all_some, List.isEmpty_iff] at this
      rw [this]; simp
  · intro t x hx
    obtain ⟨t0, -, h1, -⟩ := FilterPanic.dead_crash t hx
    refine ⟨['f'], by decide, ?_⟩
    unfold filterDies at h1
    split at h1
    · cases h1; rfl
    · cases h1

/-- A source panics: it is the one. -/
example : ∃ x, FirstStuck forkedSetup (sourceDies anEvent) x ∧ ∃ t, x ∈ (Crash.run forkedSetup (sourceDies anEvent) t).dead :=
  (C150_fate forked (by decide) forkedSetup forked_setUp _ (forked_fair _ 7 fun t ht => by
    match t with
    | 0 | 1 | 2 | 3 | 4 | 5 | 6 => omega
    | t + 7 => rfl) ⟨3, rfl⟩).2.1.1 ⟨20, by decide +kernel⟩

end Verif
