import Verif.Lemmas.Crash
import Verif.Props.NetLog
/-!
# C117: when a thread panics

Theorems range over every configuration and every schedule of the threads, in which any thread may panic at any time.
-/
namespace Verif
open Topology
open Net (SetUp Setup Fed)
open Crash (Thread Over Finished SinksFirst)
variable {F : Type} [F64 F]

/-- **C117 (isolation).**  A panic ends its thread and nothing else: whatever threads panic, the rest of the process does what it would do in a
process without panics, under a schedule that differs only in that the actions of threads that have panicked, and everything after a panic of `main`,
change nothing. -/
theorem C117_isolated (p : Setup F) (ls : Nat → Crash.Label F) : ∃ ls' : Nat → Net.Label F,
    (∀ t, (Crash.run p ls t).net = Net.run p ls' t) ∧
    (∀ t, ls t = .net (ls' t) ∨ ∀ s, Net.step p s (ls' t) = s) ∧
    (∀ t l, ls t = .net l → (Crash.run p ls t).aborted = false → (∀ x ∈ (Crash.run p ls t).dead, Crash.actor l ≠ some x) →
      (l = .main → ∀ x ∈ (Crash.run p ls t).dead, Crash.awaited (Crash.run p ls t).net ≠ some x) → ls' t = l) ∧
    ∀ t, ∀ x ∈ (Crash.run p ls t).dead, Crash.actor (ls' t) = some x → ∀ s, Net.step p s (ls' t) = s := by
  refine ⟨Crash.shadow p ls, Crash.run_net, ?_, fun t l => Crash.shadow_live, ?_⟩
  · intro t
    unfold Crash.shadow
    split
    · exact .inr Crash.step_noop
    · rename_i l h
      split
      · exact .inl h
      · exact .inr Crash.step_noop
  · intro t x hx ha s
    rw [Crash.shadow_dead hx ha, Crash.step_noop]

/-- **C117 (no panic).**  If no thread panics the process is that of C92 and C93. -/
theorem C117_no_panic (p : Setup F) (ls : Nat → Net.Label F) (t : Nat) :
    Crash.run p (fun t => .net (ls t)) t = { net := Net.run p ls t } := by
  induction t with
  | zero => rfl
  | succ t ih =>
    rw [Crash.run, ih, Net.run]
    cases h : ls t with
    | act n now => rfl
    | emit i e => rfl
    | pulse i => rfl
    | stop i => rfl
    | signal => rfl
    | main =>
      unfold Crash.step
      cases hw : Crash.awaited (Net.run p ls t) <;> simp [hw]

/-- **C117 (sinks go on).**  Whatever threads panic, a sink has at any time been given the payloads among what its queue accepted first, in order and once
each. -/
theorem C117_sinks (c : Config) (hd : Distinct c) (p : Setup F) (hp : SetUp c p) (ls : Nat → Crash.Label F) (t : Nat) (n : Str)
    (hn : n ∈ c.sinks) (iv : Option Nat) (hiv : ∀ s, (p.sink n).impl.flushInterval s = iv) :
    ∃ nd read waiting, (Crash.run p ls t).net.nodes n = some nd ∧
      ((Crash.run p ls t).net.log n).map (·.2) = read ++ waiting ∧ (∀ e ∈ read, e.isShutdown = false) ∧
      nd.delivered = read.filter Event.isPayload ∧
      (nd.returned = true → ∃ more, waiting = .shutdown :: more) := by
  rw [Crash.run_net]
  exact C93_sinks c hd p hp _ t n hn iv hiv

/-- **C117 (a clean exit).**  If `main` returns, no thread has panicked, and every source, filter and sink has returned. -/
theorem C117_clean_exit (c : Config) (hd : Distinct c) (p : Setup F) (hp : SetUp c p) (ls : Nat → Crash.Label F) (t : Nat)
    (h : (Crash.run p ls t).net.main = .exited) : (Crash.run p ls t).dead = [] ∧
    (∀ i < p.wiring.sources.length, Finished (Crash.run p ls t) (.source i)) ∧
    ∀ n, HasChannel c n → Finished (Crash.run p ls t) (.node n) := by
  have h' := h
  rw [Crash.run_net] at h'
  obtain ⟨-, h1, h2⟩ := C92_orderly c hd p hp _ t h'
  rw [← Crash.run_net] at h1 h2
  refine ⟨?_, h1, h2⟩
  apply List.eq_nil_iff_forall_not_mem.2
  intro x hx
  have hu := Crash.dead_unfinished t x hx
  have he := Crash.dead_exists t x hx
  cases x with
  | source i => exact hu (h1 i he)
  | node n =>
    have hn : ((Crash.run p ls t).net.nodes n).isSome := by rw [Crash.run_net, Crash.nodes_isSome]; exact he
    obtain ⟨nd, hnd⟩ := Option.isSome_iff_exists.1 hn
    rw [Crash.run_net] at hnd
    refine hu (h2 n ((Net.node_iff hd hp.wired n).1 ?_))
    rcases Net.node_of t hnd with ⟨ups, ch, _, _, g, -⟩ | ⟨ups, _, g, -⟩
    · exact List.mem_append_right _ (List.mem_map.2 ⟨_, g, rfl⟩)
    · exact List.mem_append_left _ (List.mem_map.2 ⟨_, g, rfl⟩)

/-- Such an exit happens: the example of C92, in which no thread panics. -/
example : (Crash.run forkedSetup (fun t => .net (rota t)) 100).net.main = .exited := by
  rw [C117_no_panic]; decide +kernel

/-- **C117, in full: false, see below.**  A process that gets a signal comes to an end although threads have panicked, and sinks that have not panicked have done
their work by then. -/
def C117Statement (F : Type) [F64 F] : Prop :=
  ∀ (c : Config) (p : Setup F) (ls : Nat → Crash.Label F), Distinct c → SetUp c p → Net.SinksReopen c p → SinksFirst p → (∀ n k, p.full n k = false) →
    (∀ n, HasChannel c n → Fed c n) → Crash.Fair p ls → (∃ t, ls t = .net .signal) →
    ∃ t, Over (Crash.run p ls t) ∧ ∀ n ∈ c.sinks, .node n ∉ (Crash.run p ls t).dead → Finished (Crash.run p ls t) (.node n)

/-- **C117 is false** of sources: if one has panicked, the next signal has `main` panic when it comes to shut that source down; `main` waits for no sink, whatever
the sinks have still to do. -/
theorem C117_source_false (c : Config) (hd : Distinct c) (p : Setup F) (hp : SetUp c p) (ls : Nat → Crash.Label F) (hf : Crash.Fair p ls)
    (hsig : ∃ t, ls t = .net .signal) (i : Nat) (hi : ∃ t, .source i ∈ (Crash.run p ls t).dead) :
    (∃ t, (Crash.run p ls t).aborted = true) ∧
    ∀ t todo, (Crash.run p ls t).net.main ≠ .joining todo ∧ (Crash.run p ls t).net.main ≠ .exited := by
  have hstop : ∀ i, i ∈ p.stopOrder ↔ i < p.wiring.sources.length := by
    intro i
    rw [hp.stopOrder.mem_iff, Net.handles_all (Net.names hd hp.wired).2.2.1, List.mem_range]
  obtain ⟨t0, hi⟩ := hi
  have hs := (hstop i).2 (Crash.dead_exists t0 _ hi)
  refine ⟨Crash.source_aborts hf (fun i hi => (hstop i).1 hi) hsig hs hi, ?_⟩
  intro t todo
  have key : ∀ t, i ∉ (Net.run p (Crash.shadow p ls) t).ended := by
    intro t h
    have h1 : i ∈ (Net.run p (Crash.shadow p ls) (max t t0)).ended :=
      Net.stable (P := fun t => i ∈ (Net.run p (Crash.shadow p ls) t).ended) (fun t h => Net.ended_stable _ h) h (Nat.le_max_left _ _)
    rw [← Crash.run_net] at h1
    exact Crash.dead_unfinished _ _ (Crash.dead_stable (Nat.le_max_right _ _) hi) h1
  rw [Crash.run_net]
  exact ⟨fun h => key t ((Net.stopped hs t).2.1 todo h), fun h => key t ((Net.stopped hs t).2.2 h)⟩

/-- No `Shutdown` reaches what no source serves but through filters that do not send one. -/
theorem Crash.cut_quiet (c : Config) (hd : Distinct c) (p : Setup F) (hp : SetUp c p) (ls : Nat → Crash.Label F) (dead : Str → Prop)
    (hsent : ∀ f ∈ c.filters.map (·.1), dead f → ∀ t, ∃ u, t ≤ u ∧ ∀ nd, (Crash.run p ls u).net.nodes f = some nd → .shutdown ∉ nd.sent) (t : Nat) :
    ∀ n, ¬ Served c dead n → HasChannel c n → ∀ x ∈ (Net.run p (Crash.shadow p ls) t).log n, x.2.isShutdown = false := by
  have hw := hp.wired
  have hL := Net.linked hd hw
  obtain ⟨w1, w2, w3, -, w5, w6, -, w7⟩ := C57_mutual c hd _ hw
  obtain ⟨n1, n2, n3, n4, n5, n6⟩ := Net.names hd hw
  induction t with
  | zero => intro n _ _ x hx; simp [Net.run, Net.initial] at hx
  | succ t ih =>
    intro n hcut hchan x hx
    have h0 := Net.some_of_channel hd hw hchan
    have hsend := Net.log_senders h0 _ x hx
    obtain ⟨xs, xe⟩ := x
    cases xs with
    | source j =>
      obtain ⟨u, ch, g1, g2⟩ := hsend
      have hm := List.mem_of_getElem? g1
      exact absurd (.source u n (w3 ▸ List.mem_map.2 ⟨_, hm, rfl⟩) (((w6 u ch hm).2 n).1 g2)) hcut
    | timer => obtain ⟨-, h⟩ := hsend; cases xe <;> first | rfl | cases h
    | filter f =>
      obtain ⟨ups, ch, g1, g2⟩ := hsend
      have hfw := ((w5 f ups ch g1).2.2 n).1 g2
      have hf : f ∈ c.filters.map (·.1) := w2 ▸ List.mem_map.2 ⟨_, g1, rfl⟩
      obtain ⟨fs, hfc⟩ := Net.mem_fst hf
      by_cases hdd : dead f
      · obtain ⟨u, hu, hno⟩ := hsent f hf hdd (t + 1)
        have hx := (Net.log_stable h0 hu).subset hx
        obtain ⟨-, q2, -⟩ := C93_queues c hd p hp (Crash.shadow p ls) u n hchan
        obtain ⟨nd, e1, e2, -⟩ := q2 _ hf
        have e3 := hno nd (by rw [Crash.run_net]; exact e1)
        have hacc : xe ∈ Net.acceptedFrom (.filter f) ((Net.run p (Crash.shadow p ls) u).log n) := by
          rw [Net.acceptedFrom]
          exact List.mem_map.2 ⟨_, List.mem_filter.2 ⟨hx, by simp⟩, rfl⟩
        have := (e2 hfw).sublist.1.subset hacc
        cases xe with
        | shutdown => exact absurd this e3
        | _ => rfl
      · have hq := ih f (fun h => hcut (.filter f n h hdd hfw)) (.inr ⟨fs, hfc⟩)
        rw [Net.log_succ h0] at hx
        rcases List.mem_append.1 hx with hx | hx
        · exact ih n hcut hchan _ hx
        · obtain ⟨e, he, heq⟩ := List.mem_map.1 hx
          obtain ⟨hs, rfl⟩ := Prod.mk.inj heq
          have he := Net.arrive_mem he
          cases hl : Crash.shadow p ls t with
          | act m now =>
            rw [hl] at hs he
            simp only [Net.sender, Net.Sender.filter.injEq] at hs
            subst hs
            obtain ⟨ins, q, h2, h3⟩ := Net.filter_log (ls := Crash.shadow p ls) hL g1 t
            simp only [Net.offered, h2] at he
            obtain ⟨y, hy, he⟩ := List.mem_flatMap.1 he
            rw [(List.mem_replicate.1 he).2]
            have hall : ∀ e ∈ ins.map (·.2) ++ q, e.isShutdown = false := by
              intro e he
              rw [← h3] at he
              obtain ⟨z, hz, rfl⟩ := List.mem_map.1 he
              exact hq z hz
            cases q with
            | nil => simp [Net.Node.act] at hy
            | cons e0 q0 =>
              simp only [Net.Node.act] at hy
              split at hy
              · simp at hy
              · exact Net.calm_sends (hp.filters _ hf) _ ins now e0
                  (fun i hi => hall _ (List.mem_append_left _ (List.mem_map.2 ⟨i, hi, rfl⟩))) (hall e0 (by simp)) y hy
          | emit i e => rw [hl] at hs; cases hs
          | stop i => rw [hl] at hs; cases hs
          | pulse i => rw [hl] at hs; cases hs
          | signal => rw [hl] at hs; cases hs
          | main => rw [hl] at hs; cases hs

/-- When `main` waits for a filter every sink has returned. -/
theorem Crash.sinks_gone (c : Config) (hd : Distinct c) (p : Setup F) (hp : SetUp c p) (hsf : SinksFirst p) (ls : Nat → Net.Label F)
    (n : Str) (hn : n ∈ c.sinks) (t : Nat) (g : Str) (hg : g ∈ c.filters.map (·.1)) (ha : awaited (Net.run p ls t) = some (.node g)) :
    Net.gone (Net.run p ls t) n := by
  have hw := hp.wired
  have hL := Net.linked hd hw
  obtain ⟨w1, w2, -⟩ := C57_mutual c hd _ hw
  obtain ⟨n1, n2, n3, n4, n5, n6⟩ := Net.names hd hw
  obtain ⟨ups, hsink⟩ := Net.mem_fst (w1 ▸ hn)
  have h0 : ((Net.initial p).nodes n).isSome := by rw [hL.sinkNode n ups hsink]; rfl
  have hj : n ∈ p.joinOrder := hp.joinOrder.mem_iff.2 (List.mem_append_left _ (List.mem_map.2 ⟨_, hsink, rfl⟩))
  unfold Crash.awaited at ha
  split at ha
  · split at ha <;> cases ha
  · rename_i m ns hm
    simp only [Option.some.injEq, Thread.node.injEq] at ha
    subst ha
    obtain ⟨pre, hpre⟩ := Crash.joining_suffix t _ hm
    refine ((Net.joined (Net.present h0) hj t).1 _ hm).resolve_left ?_
    obtain ⟨a, b, hab, ha, hb⟩ := hsf
    -- the sinks come before the filter
    have hfa : m ∉ a := fun h => n4 m (ha.mem_iff.1 h) (w2 ▸ hg)
    have hnb : n ∉ b := fun h => n4 n (w1 ▸ hn) (hb.mem_iff.1 h)
    rw [hab] at hpre
    intro hmem
    rcases List.append_eq_append_iff.1 hpre with ⟨as, -, rfl⟩ | ⟨bs, rfl, h⟩
    · exact hnb (List.mem_append_right _ hmem)
    · cases bs with
      | nil => exact hnb (by rw [List.nil_append] at h; exact h ▸ hmem)
      | cons y bs =>
        simp only [List.cons_append, List.cons.injEq] at h
        exact hfa (by rw [h.1]; simp)
  · cases ha

/-- A sink that is cut off by filters that do not send `Shutdown`. -/
theorem Crash.starves (c : Config) (hd : Distinct c) (p : Setup F) (hp : SetUp c p) (hsf : SinksFirst p) (ls : Nat → Crash.Label F)
    (dead : Str → Prop) (n : Str) (hn : n ∈ c.sinks) (hcut : ¬ Served c dead n)
    (hsent : ∀ f ∈ c.filters.map (·.1), dead f → ∀ t, ∃ u, t ≤ u ∧ ∀ nd, (Crash.run p ls u).net.nodes f = some nd → .shutdown ∉ nd.sent)
    (halone : ∀ t, ∀ x ∈ (Crash.run p ls t).dead, ∃ g ∈ c.filters.map (·.1), x = .node g) (t : Nat) :
    ¬ Over (Crash.run p ls t) ∧ ¬ Finished (Crash.run p ls t) (.node n) := by
  have hw := hp.wired
  have hL := Net.linked hd hw
  obtain ⟨w1, w2, w3, -, w5, w6, -, w7⟩ := C57_mutual c hd _ hw
  obtain ⟨n1, n2, n3, n4, n5, n6⟩ := Net.names hd hw
  obtain ⟨ups, hsink⟩ := Net.mem_fst (w1 ▸ hn)
  have h0 : ((Net.initial p).nodes n).isSome := by rw [hL.sinkNode n ups hsink]; rfl
  have quiet := fun t => Crash.cut_quiet c hd p hp ls dead hsent t n hcut (.inl hn)
  have hgone : ∀ t, ¬ Net.gone (Net.run p (Crash.shadow p ls) t) n := fun t => Net.unended hL (.inl ⟨ups, hsink⟩) t (quiet t)
  have hj : n ∈ p.joinOrder := hp.joinOrder.mem_iff.2 (List.mem_append_left _ (List.mem_map.2 ⟨_, hsink, rfl⟩))
  have hjoined := Net.joined (ls := Crash.shadow p ls) (Net.present h0) hj
  refine ⟨?_, by simp only [Finished]; rw [Crash.run_net]; exact hgone t⟩
  rintro (h | h)
  · rw [Crash.run_net] at h
    exact hgone t ((hjoined t).2 h)
  · obtain ⟨x, hx, ha⟩ := Crash.aborted_awaited t h
    obtain ⟨g, hg, rfl⟩ := halone t x hx
    rw [Crash.run_net] at ha
    exact hgone t (Crash.sinks_gone c hd p hp hsf _ n hn t g hg ha)

/-- What a filter that has panicked has sent does not change any more. -/
theorem Crash.mute_stays {c : Config} (hd : Distinct c) {p : Setup F} (hp : SetUp c p) {ls : Nat → Crash.Label F} {f : Str} (hf : f ∈ c.filters.map (·.1))
    (hdf : Crash.DiesMute p ls f) (t : Nat) : ∃ u, t ≤ u ∧ ∀ nd, (Crash.run p ls u).net.nodes f = some nd → .shutdown ∉ nd.sent := by
  obtain ⟨t0, hdead, hearly⟩ := hdf
  have hL := Net.linked hd hp.wired
  obtain ⟨⟨fups, fch⟩, hfil⟩ := Net.mem_fst ((C57_mutual c hd _ hp.wired).2.1 ▸ hf)
  -- what the filter has sent does not change any more
  have sent : ∀ u, t0 ≤ u → ∃ q r, (Net.run p (Crash.shadow p ls) u).nodes f = some (.filter (p.filter f) fups.length fch q r) ∧
      Event.shutdown ∉ r.sent := by
    intro u hu
    refine Net.stable (P := fun u => t0 ≤ u ∧ ∃ q r, (Net.run p (Crash.shadow p ls) u).nodes f = some (.filter (p.filter f) fups.length fch q r) ∧
      Event.shutdown ∉ r.sent) ?_ ⟨Nat.le_refl _, ?_⟩ hu |>.2
    · rintro u ⟨hu, q, r, h1, h2⟩
      refine ⟨by omega, ?_⟩
      rcases Net.filter_step p _ (Crash.shadow p ls u) h1 with ⟨g, -⟩ | ⟨e, q0, now, g, -⟩
      · exact ⟨_, r, g, h2⟩
      · have := Crash.shadow_dead (Crash.dead_stable hu hdead) (by rw [g]; rfl)
        rw [g] at this; cases this
    · obtain ⟨ins, q, h1, -⟩ := Net.filter_log (ls := Crash.shadow p ls) hL hfil t0
      refine ⟨q, _, h1, ?_⟩
      exact hearly _ (by rw [Crash.run_net]; exact h1)
  refine ⟨max t t0, Nat.le_max_left _ _, fun nd hnd => ?_⟩
  obtain ⟨q, r, e1, e2⟩ := sent (max t t0) (Nat.le_max_right _ _)
  rw [Crash.run_net, e1] at hnd
  cases hnd
  exact e2

/-- **C117 is false** of filters: if some panic before they have sent a `Shutdown`, a sink that can be reached only through them never returns; and as `main` joins sinks before filters,
the process neither exits nor learns of the panics, whatever the schedule and whatever other filters panic. -/
theorem C117_filter_false (c : Config) (hd : Distinct c) (p : Setup F) (hp : SetUp c p) (hsf : SinksFirst p) (ls : Nat → Crash.Label F)
    (dead : Str → Prop) (n : Str) (hn : n ∈ c.sinks) (hcut : ¬ Crash.Served c dead n) (hdead : ∀ f ∈ c.filters.map (·.1), dead f → Crash.DiesMute p ls f)
    (halone : ∀ t, ∀ x ∈ (Crash.run p ls t).dead, ∃ g ∈ c.filters.map (·.1), x = .node g) (t : Nat) :
    ¬ Over (Crash.run p ls t) ∧ ¬ Finished (Crash.run p ls t) (.node n) := by
  exact Crash.starves c hd p hp hsf ls dead n hn hcut (fun f hf hdf t => Crash.mute_stays hd hp hf (hdead f hf hdf) t) halone t

theorem Crash.after_total {σ : Type} (p : Process F σ) (n : Nat) (ins : List (Int × Event F)) (r : FilterRun F σ) :
    (Pipeline.after p n r ins).totalShutdowns = r.totalShutdowns + ins.countP (fun i => i.2.isShutdown) := by
  induction ins generalizing r with
  | nil => rfl
  | cons i ins ih =>
    show (Pipeline.after p n (r.step p n (some i)) ins).totalShutdowns = _
    rw [ih, Net.step_total, List.countP_cons]
    omega

section
variable {c : Config} (hd : Distinct c) {p : Setup F} (hp : SetUp c p) {ls : Nat → Crash.Label F} (hf : Crash.Fair p ls)
  (hna : ∀ t, (Crash.run p ls t).aborted = false)

include hf hna in
/-- While `main` does not panic it gets its turn. -/
theorem Crash.main_turn (t : Nat) : ∃ t', t ≤ t' ∧ Crash.shadow p ls t' = .main := by
  obtain ⟨t', h1, h2⟩ := hf.main t
  refine ⟨t', h1, Crash.shadow_live h2 (hna t') (fun x _ h => by cases h) fun _ x hx he => ?_⟩
  have : (Crash.run p ls (t' + 1)).aborted = true := by
    rw [Crash.run, h2]
    simp [Crash.step, hna t', he, hx]
  rw [hna] at this; cases this

include hf hna in
/-- A sink or filter that does not panic gets its turn. -/
theorem Crash.node_turn {m : Str} (hm : m ∈ p.wiring.sinks.map (·.1) ++ p.wiring.filters.map (·.1)) (hlive : ∀ t, .node m ∉ (Crash.run p ls t).dead) (t : Nat) :
    ∃ t', t ≤ t' ∧ ∃ now, Crash.shadow p ls t' = .act m now := by
  obtain ⟨t', h1, now, h2⟩ := hf.nodes m hm t
  refine ⟨t', h1, now, Crash.shadow_live h2 (hna t') (fun x hx h => ?_) fun h => by cases h⟩
  simp only [Crash.actor, Option.some.injEq] at h
  exact hlive t' (h ▸ hx)

include hd hp hf hna in
/-- If no source panics `main` comes to join sinks and filters. -/
theorem Crash.joins (hsig : ∃ t, ls t = .net .signal) (hsrcs : ∀ t i, .source i ∉ (Crash.run p ls t).dead) :
    ∃ t, (Net.run p (Crash.shadow p ls) t).main = .joining p.joinOrder ∧ ∀ i < p.wiring.sources.length, i ∈ (Net.run p (Crash.shadow p ls) t).ended := by
  have hstop : ∀ i, i ∈ p.stopOrder ↔ i < p.wiring.sources.length := by
    intro i
    rw [hp.stopOrder.mem_iff, Net.handles_all (Net.names hd hp.wired).2.2.1, List.mem_range]
  have hsig' : ∃ t, Crash.shadow p ls t = .signal := by
    obtain ⟨t, ht⟩ := hsig
    exact ⟨t, Crash.shadow_live ht (hna t) (fun x _ h => by cases h) fun h => by cases h⟩
  have hsrc : ∀ i, i < p.wiring.sources.length → ∀ t, ∃ t', t ≤ t' ∧ Crash.shadow p ls t' = .stop i := by
    intro i hi t
    obtain ⟨t', h1, h2⟩ := hf.sources i hi t
    refine ⟨t', h1, Crash.shadow_live h2 (hna t') (fun x hx h => ?_) fun h => by cases h⟩
    simp only [Crash.actor, Option.some.injEq] at h
    exact hsrcs t' i (h ▸ hx)
  obtain ⟨t0, h0⟩ := Net.main_stops (p := p) (Crash.main_turn hf hna) hsig'
  obtain ⟨t1, -, h1, h2⟩ := Net.main_joins (Crash.main_turn hf hna) hsrc p.stopOrder (fun i hi => (hstop i).1 hi) t0 h0
  exact ⟨t1, h1, fun i hi => h2 i ((hstop i).2 hi)⟩

include hd hp hf hna in
/-- A `Shutdown` reaches every node to which some way leads from a source through no filter that panics before it has sent one. -/
theorem Crash.served_reached (hk : ∀ t n x, (x, .shutdown) ∉ (Crash.run p ls t).net.lost n) (hsig : ∃ t, ls t = .net .signal)
    (hsrcs : ∀ t i, .source i ∉ (Crash.run p ls t).dead) {n : Str} (hserved : Crash.Served c (Crash.DiesMute p ls) n) :
    ∃ t, Net.reached (Net.run p (Crash.shadow p ls) t) n := by
  have hw := hp.wired
  have hL := Net.linked hd hw
  obtain ⟨w1, w2, w3, -, w5, w6, -, w7⟩ := C57_mutual c hd _ hw
  obtain ⟨n1, n2, n3, n4, n5, n6⟩ := Net.names hd hw
  have hk' : Net.ShutdownsKept p (Crash.shadow p ls) := by
    intro t m x
    rw [← Crash.run_net]; exact hk t m x
  obtain ⟨t1, -, h2⟩ := Crash.joins hd hp hf hna hsig hsrcs
  have hchan : ∀ u m, Forwards c u m → (∃ ups downs, (m, ups, downs) ∈ p.wiring.filters) ∨ ∃ ups, (m, ups) ∈ p.wiring.sinks := by
    intro u m hfw
    rcases ((C58_starts_partial c hd).1 ⟨_, hw⟩).1 u m hfw with h | ⟨fs, h⟩
    · exact .inr (Net.mem_fst (w1 ▸ h))
    · obtain ⟨⟨ups, ch⟩, h⟩ := Net.mem_fst (w2 ▸ List.mem_map.2 ⟨_, h, rfl⟩ : m ∈ p.wiring.filters.map (·.1))
      exact .inl ⟨ups, ch, h⟩
  induction hserved with
  | source s n g1 g2 =>
    rw [← w3] at g1
    obtain ⟨ch, hm⟩ := Net.mem_fst g1
    obtain ⟨i, hi⟩ := List.mem_iff_getElem?.1 hm
    exact Net.source_reaches hL hk' (hchan s n g2) ⟨t1, h2 i (List.getElem?_eq_some_iff.1 hi).1⟩ hi (((w6 s ch hm).2 n).2 g2)
  | filter f n g1 g2 g3 ih =>
    rcases Net.forwards_node hd hw g3 with hm | hm
    · obtain ⟨⟨ups, ch⟩, hm'⟩ := Net.mem_fst hm
      have hch := ((w5 f ups ch hm').2.2 n).2 g3
      by_cases hdead : ∃ t, .node f ∈ (Crash.run p ls t).dead
      · -- it panics, but not before it has sent a `Shutdown`
        obtain ⟨t, ht⟩ := hdead
        obtain ⟨ins, q, e1, -⟩ := Net.filter_log (ls := Crash.shadow p ls) hL hm' t
        refine Net.total_reaches hL hk' (hchan f n g3) hm' (t' := t) ?_ hch
        simp only [Net.total, e1]
        apply Classical.byContradiction
        intro hno
        refine g2 ⟨t, ht, fun nd hnd hmem => ?_⟩
        rw [Crash.run_net, e1] at hnd
        cases hnd
        simp only [Net.Node.sent] at hmem
        rw [Pipeline.after_sent (hp.filters _ (w2 ▸ hm)).tidy _ _ _ rfl, List.nil_append] at hmem
        have := (hp.filters _ (w2 ▸ hm)).keeps ins (fun i hi => ?_) _ hmem
        · cases this
        · cases hs : i.2.isShutdown with
          | false => rfl
          | true =>
            refine absurd ?_ hno
            rw [Crash.after_total]
            exact Nat.le_add_left_of_le (List.countP_pos_iff.2 ⟨i, hi, hs⟩)
      · exact Net.filter_reaches hL hk' (hchan f n g3) hm' (Crash.node_turn hf hna (List.mem_append_right _ hm) fun t h => hdead ⟨t, h⟩) ih hch
    · -- a source is not forwarded to
      exfalso
      have hcf : (∃ ups downs, (f, ups, downs) ∈ p.wiring.filters) ∨ ∃ ups, (f, ups) ∈ p.wiring.sinks := by
        cases g1 with
        | source s _ _ h => exact hchan s f h
        | filter g _ _ _ h => exact hchan g f h
      rcases hcf with ⟨ups, ch, h⟩ | ⟨ups, h⟩
      · exact n5 f hm (List.mem_map.2 ⟨_, h, rfl⟩)
      · exact n6 f hm (List.mem_map.2 ⟨_, h, rfl⟩)
end

/-- **C117, the part that holds.**  If only filters panic, every other thread gets its turn, a signal comes, no `Shutdown` is lost and valves reopen, every sink
to which some way leads from a source through no filter that panics before it has sent a `Shutdown` returns. -/
theorem C117_served_partial (c : Config) (hd : Distinct c) (p : Setup F) (hp : SetUp c p) (hsf : SinksFirst p) (ls : Nat → Crash.Label F)
    (hf : Crash.Fair p ls) (hk : ∀ t n x, (x, .shutdown) ∉ (Crash.run p ls t).net.lost n) (hre : Crash.ValvesReopen p ls) (hsig : ∃ t, ls t = .net .signal)
    (halone : ∀ t, ∀ x ∈ (Crash.run p ls t).dead, ∃ g ∈ c.filters.map (·.1), x = .node g) (n : Str) (hn : n ∈ c.sinks)
    (hserved : Crash.Served c (Crash.DiesMute p ls) n) : ∃ t, Finished (Crash.run p ls t) (.node n) := by
  have hw := hp.wired
  have hL := Net.linked hd hw
  obtain ⟨w1, w2, w3, -, w5, w6, -, w7⟩ := C57_mutual c hd _ hw
  obtain ⟨n1, n2, n3, n4, n5, n6⟩ := Net.names hd hw
  suffices h : ∃ t, Net.gone (Net.run p (Crash.shadow p ls) t) n by
    obtain ⟨t, ht⟩ := h
    exact ⟨t, by simp only [Finished]; rw [Crash.run_net]; exact ht⟩
  by_cases hab : ∃ t, (Crash.run p ls t).aborted = true
  · obtain ⟨t, ht⟩ := hab
    obtain ⟨x, hx, ha⟩ := Crash.aborted_awaited t ht
    obtain ⟨g, hg, rfl⟩ := halone t x hx
    rw [Crash.run_net] at ha
    exact ⟨t, Crash.sinks_gone c hd p hp hsf _ n hn t g hg ha⟩
  have hna : ∀ t, (Crash.run p ls t).aborted = false := by
    intro t
    cases h : (Crash.run p ls t).aborted with
    | false => rfl
    | true => exact absurd ⟨t, h⟩ hab
  have hreach := Crash.served_reached hd hp hf hna hk hsig (fun t i h => by obtain ⟨g, -, h⟩ := halone t _ h; cases h) hserved
  obtain ⟨ups, hsink⟩ := Net.mem_fst (w1 ▸ hn)
  refine Net.sink_gone hL hsink (Crash.node_turn hf hna (List.mem_append_left _ (List.mem_map.2 ⟨_, hsink, rfl⟩)) fun t h => ?_) ?_ hreach
  · obtain ⟨g, hg, h⟩ := halone t _ h
    cases h
    exact n4 n (List.mem_map.2 ⟨_, hsink, rfl⟩) (w2 ▸ hg)
  · intro t m r h
    rw [← Crash.run_net] at h
    exact hre n t m r h

/-- **C117, exactly which sinks return.**  If only filters panic, and all else is as in `C117_served_partial`, a sink returns iff some way leads to it from a source
through no filter that panics before it has sent a `Shutdown`. -/
theorem C117_returns_iff_partial (c : Config) (hd : Distinct c) (p : Setup F) (hp : SetUp c p) (hsf : SinksFirst p) (ls : Nat → Crash.Label F)
    (hf : Crash.Fair p ls) (hk : ∀ t n x, (x, .shutdown) ∉ (Crash.run p ls t).net.lost n) (hre : Crash.ValvesReopen p ls) (hsig : ∃ t, ls t = .net .signal)
    (halone : ∀ t, ∀ x ∈ (Crash.run p ls t).dead, ∃ g ∈ c.filters.map (·.1), x = .node g)
    (n : Str) (hn : n ∈ c.sinks) : (∃ t, Finished (Crash.run p ls t) (.node n)) ↔ Crash.Served c (Crash.DiesMute p ls) n := by
  refine ⟨fun ⟨t, ht⟩ => ?_, C117_served_partial c hd p hp hsf ls hf hk hre hsig halone n hn⟩
  apply Classical.byContradiction
  intro hcut
  exact (C117_filter_false c hd p hp hsf ls _ n hn hcut (fun f _ h => h) halone t).2 ht

/-- The example of C92 with a filter that panics at the start. -/
def filterDies (t : Nat) : Crash.Label Int := if t = 0 then .crash (.node ['f']) else .net (rota t)

/-- With a source that panics after it has sent an event. -/
def sourceDies (e : Event Int) (t : Nat) : Crash.Label Int := match t with
  | 0 => .net (.emit 0 e)
  | 1 => .net (.act ['f'] 0)
  | 2 => .crash (.source 0)
  | 3 => .net .signal
  | 4 | 5 | 6 => .net .main
  | t => .net (rota t)

/-- With a sink that panics after an event has been sent. -/
def sinkDies (e : Event Int) (t : Nat) : Crash.Label Int := match t with
  | 0 => .net (.emit 0 e)
  | 1 => .net (.act ['f'] 0)
  | 2 => .crash (.node ['k'])
  | 3 => .net .signal
  | 6 => .net (.stop 0)
  | _ => .net .main

private theorem rota_fair (p : Setup Int) (hp : p.wiring.sinks.map (·.1) ++ p.wiring.filters.map (·.1) = [['k'], ['l'], ['f']])
    (hs : p.wiring.sources.length = 1) (ls : Nat → Crash.Label Int) (N : Nat) (h : ∀ t, N ≤ t → ls t = .net (rota t)) : Crash.Fair p ls := by
  have again : ∀ r t : Nat, r < 6 → ∃ t' ≥ t, N ≤ t' ∧ t' % 6 = r := fun r t hr => ⟨6 * (t + N) + r, by omega, by omega, by omega⟩
  refine ⟨?_, ?_, ?_⟩
  · intro n hn t
    have : n = ['k'] ∨ n = ['l'] ∨ n = ['f'] := by rw [hp] at hn; simpa using hn
    rcases this with rfl | rfl | rfl
    · obtain ⟨t', h1, h2, h3⟩ := again 0 t (by omega)
      exact ⟨t', h1, 0, by rw [h t' h2]; simp [rota, h3]⟩
    · obtain ⟨t', h1, h2, h3⟩ := again 1 t (by omega)
      exact ⟨t', h1, 0, by rw [h t' h2]; simp [rota, h3]⟩
    · obtain ⟨t', h1, h2, h3⟩ := again 2 t (by omega)
      exact ⟨t', h1, 0, by rw [h t' h2]; simp [rota, h3]⟩
  · intro i hi t
    obtain rfl : i = 0 := by omega
    obtain ⟨t', h1, h2, h3⟩ := again 3 t (by omega)
    exact ⟨t', h1, by rw [h t' h2]; simp [rota, h3]⟩
  · intro t
    obtain ⟨t', h1, h2, h3⟩ := again 4 t (by omega)
    exact ⟨t', h1, by rw [h t' h2]; simp [rota, h3]⟩

theorem forked_fair (ls : Nat → Crash.Label Int) (N : Nat) (h : ∀ t, N ≤ t → ls t = .net (rota t)) : Crash.Fair forkedSetup ls :=
  rota_fair _ rfl rfl ls N h

theorem forked_sinksFirst : SinksFirst forkedSetup := ⟨[['k'], ['l']], [['f']], rfl, by decide, by decide⟩

private theorem forked_only (u : Str) (h : Forwards forked u ['k']) : u = ['f'] := by
  obtain ⟨fs, h1, h2⟩ := h
  simp only [forked, List.map_cons, List.map_nil, List.append_nil, List.nil_append, List.cons_append, List.mem_cons, List.not_mem_nil, or_false, Prod.mk.injEq] at h1
  rcases h1 with ⟨rfl, rfl⟩ | ⟨rfl, rfl⟩
  · rfl
  · revert h2; decide

private theorem forked_unserved : ¬ Crash.Served forked (· = ['f']) ['k'] := by
  intro h
  cases h with
  | source s _ h1 h2 => obtain rfl := forked_only s h2; revert h1; decide
  | filter f _ _ h1 h2 => exact h1 (forked_only f h2)

/-- Only the filter panics. -/
private theorem filterDies_alone (p : Setup Int) (t : Nat) : ∀ x ∈ (Crash.run p filterDies t).dead, x = .node ['f'] := by
  induction t with
  | zero => intro x hx; cases hx
  | succ t ih =>
    intro x hx
    rw [Crash.run] at hx
    unfold Crash.step at hx
    split at hx
    · exact ih x hx
    · split at hx
      · rename_i y hy
        split at hx
        · rcases List.mem_cons.1 hx with rfl | hx
          · unfold filterDies at hy
            split at hy
            · cases hy; rfl
            · cases hy
          · exact ih x hx
        · exact ih x hx
      · split at hx <;> exact ih x hx
      · split at hx <;> exact ih x hx

/-- The hypotheses of `C117_filter_false` are met: the filter of the example panics at the start, and sink `k` is fed by it alone. -/
theorem filterDies_hangs (t : Nat) : ¬ Over (Crash.run forkedSetup filterDies t) :=
  (C117_filter_false forked (by decide) forkedSetup forked_setUp forked_sinksFirst filterDies (· = ['f']) ['k'] (by decide)
    forked_unserved (by
      rintro _ - rfl
      refine ⟨1, by decide +kernel, fun nd h => ?_⟩
      have : ((Crash.run forkedSetup filterDies 1).net.nodes ['f']).all (fun nd => nd.sent.isEmpty) = true := by decide +kernel
      rw [h] at this
      simp only [Option.all_some, List.isEmpty_iff] at this
      rw [this]; simp) (fun t x hx => ⟨['f'], by decide, filterDies_alone _ t x hx⟩) t).1

/-- A source that forwards to a sink `k` and to a filter, which forwards to a sink `l`. -/
private def half : Config := ⟨[['k'], ['l']], [(['f'], [['l']])], [], [(['s'], [['f'], ['k']])]⟩

private def halfSetup : Setup Int where
  wiring := ⟨[(['k'], [['s']]), (['l'], [['f']])], [(['f'], [['s']], [['l']])], [(['s'], [['f'], ['k']])], [['f'], ['k']]⟩
  filter _ := ⟨_, delayProcess, 10⟩
  sink _ := ⟨Unit, nullImpl, ()⟩
  stopOrder := [0]
  joinOrder := [['k'], ['l'], ['f']]

private theorem half_setUp : SetUp half halfSetup := by
  refine ⟨rfl, by decide, by decide, ?_⟩
  intro n _; exact (C63_filters_proper 10 0 ⟨fun _ => none, fun _ => [], fun _ => []⟩ ⟨false, [], id, 0⟩
      (L := Unit) (fun _ _ q => ((), .ok q)) (fun _ => .timerFlush 0) (fun _ => rfl) (fun _ q => ⟨q, rfl⟩) ⟨(), 0, []⟩).1

/-- The hypotheses of `C117_returns_iff_partial` are met, by a run in which one sink returns and one does not: the filter panics at the start, the sink that the source
forwards to returns, and the one behind the filter never does. -/
example : (∃ t, Finished (Crash.run halfSetup filterDies t) (.node ['k'])) ∧ ¬ ∃ t, Finished (Crash.run halfSetup filterDies t) (.node ['l']) := by
  have key := C117_returns_iff_partial half (by decide) halfSetup half_setUp ⟨[['k'], ['l']], [['f']], rfl, by decide, by decide⟩ filterDies
    (rota_fair _ rfl rfl _ 1 fun t ht => by simp [filterDies, show t ≠ 0 by omega])
    (by
      intro t n x
      rw [Crash.run_net]
      exact Net.shutdowns_kept 0 (fun _ => .inl fun _ => rfl) t n x)
    (fun _ _ _ _ _ => ⟨0, rfl⟩) ⟨5, rfl⟩ (fun t x hx => ⟨['f'], by decide, filterDies_alone _ t x hx⟩)
  refine ⟨(key _ (by decide)).2 (.source ['s'] _ (by decide) ⟨[['f'], ['k']], by decide, by decide⟩), fun h => ?_⟩
  have only : ∀ u, Forwards half u ['l'] → u = ['f'] := by
    rintro u ⟨fs, h1, h2⟩
    simp only [half, List.nil_append, List.cons_append, List.append_nil, List.mem_cons, List.not_mem_nil, or_false, Prod.mk.injEq] at h1
    rcases h1 with ⟨rfl, rfl⟩ | ⟨rfl, rfl⟩
    · rfl
    · exact absurd h2 (by decide)
  cases (key _ (by decide)).1 h with
  | source s _ h1 h2 => obtain rfl := only s h2; exact absurd h1 (by decide)
  | filter f _ _ h1 h2 =>
    obtain rfl := only f h2
    refine h1 ⟨1, by decide +kernel, fun nd h => ?_⟩
    have : ((Crash.run halfSetup filterDies 1).net.nodes ['f']).all (fun nd => nd.sent.isEmpty) = true := by decide +kernel
    rw [h] at this
    simp only [Option.all_some, List.isEmpty_iff] at this
    rw [this]; simp

/-- A sink can be cut off by a filter it is not next to: the source `s` forwards to `f`, `f` to `g`, and `g` to the sink `k`. -/
example : ¬ Crash.Served ⟨[['k']], [(['f'], [['g']]), (['g'], [['k']])], [], [(['s'], [['f']])]⟩ (· = ['f']) ['k'] := by
  have only : ∀ u n, Forwards ⟨[['k']], [(['f'], [['g']]), (['g'], [['k']])], [], [(['s'], [['f']])]⟩ u n →
      (u = ['f'] ∧ n = ['g']) ∨ (u = ['g'] ∧ n = ['k']) ∨ (u = ['s'] ∧ n = ['f']) := by
    rintro u n ⟨fs, h1, h2⟩
    simp only [List.nil_append, List.cons_append, List.append_nil, List.mem_cons, List.not_mem_nil, or_false, Prod.mk.injEq] at h1
    rcases h1 with ⟨rfl, rfl⟩ | ⟨rfl, rfl⟩ | ⟨rfl, rfl⟩ <;> simp only [List.mem_singleton] at h2 <;> subst h2 <;> decide
  have key : ∀ n, Crash.Served ⟨[['k']], [(['f'], [['g']]), (['g'], [['k']])], [], [(['s'], [['f']])]⟩ (· = ['f']) n → n = ['f'] := by
    intro n h
    induction h with
    | source s n h1 h2 =>
      rcases only s n h2 with ⟨rfl, -⟩ | ⟨rfl, -⟩ | ⟨-, h⟩
      · exact absurd h1 (by decide)
      · exact absurd h1 (by decide)
      · exact h
    | filter f n _ h1 h2 ih => exact absurd ih h1
  intro h
  exact absurd (key _ h) (by decide)

/-- **C117 is false** as stated in full. -/
theorem C117_false : ¬ C117Statement Int := by
  intro h
  have hfed : ∀ n, HasChannel forked n → Fed forked n := by
    have hf : Fed forked ['f'] := .source ['s'] ['f'] (by decide) ⟨[['f']], by decide, by decide⟩
    rintro n (h | ⟨fs, h⟩)
    · refine .filter ['f'] n hf ⟨[['k'], ['l']], by decide, h⟩
    · simp only [forked, List.mem_singleton, Prod.mk.injEq] at h
      obtain ⟨rfl, -⟩ := h
      exact hf
  obtain ⟨t, ht, -⟩ := h forked forkedSetup filterDies (by decide) forked_setUp (fun _ _ s _ => ⟨0, rfl⟩) forked_sinksFirst (fun _ _ => rfl) hfed
    (forked_fair _ 1 fun t ht => by simp [filterDies, show t ≠ 0 by omega]) ⟨5, rfl⟩
  exact filterDies_hangs t ht

/-- An event for the examples. -/
def anEvent : Event Int := .log { time := 0, path := [], value := ['x'], fields := [], tags := none }

/-- The hypotheses of `C117_source_false` are met. -/
example : (∃ t, (Crash.run forkedSetup (sourceDies anEvent) t).aborted = true) ∧
    ∀ t todo, (Crash.run forkedSetup (sourceDies anEvent) t).net.main ≠ .joining todo ∧
      (Crash.run forkedSetup (sourceDies anEvent) t).net.main ≠ .exited :=
  C117_source_false forked (by decide) forkedSetup forked_setUp _
    (forked_fair _ 7 fun t ht => by
      match t with
      | 0 | 1 | 2 | 3 | 4 | 5 | 6 => omega
      | t + 7 => rfl) ⟨3, rfl⟩ 0 ⟨3, by decide +kernel⟩

/-- **C117 is false** of events on their way: a source, or another sink, that panics has `main` panic at the next signal, and then events that the queue of a sink has
accepted, and that the filter has passed on, are never delivered to it, although nothing is wrong with that sink. -/
theorem C117_undelivered_false : ∀ ls ∈ [sourceDies anEvent, sinkDies anEvent], ∃ t, (Crash.run forkedSetup ls t).aborted = true ∧
    .node ['l'] ∉ (Crash.run forkedSetup ls t).dead ∧
    (∃ x ∈ (Crash.run forkedSetup ls t).net.log ['l'], x.2.isPayload = true) ∧
    ∀ u ≥ t, ∃ nd, (Crash.run forkedSetup ls u).net.nodes ['l'] = some nd ∧ nd.delivered = [] := by
  have key : ∀ ls : Nat → Crash.Label Int, ∀ t, (Crash.run forkedSetup ls t).aborted = true →
      ((Crash.run forkedSetup ls t).net.nodes ['l']).any (fun nd => nd.delivered.isEmpty) = true →
      ∀ u ≥ t, ∃ nd, (Crash.run forkedSetup ls u).net.nodes ['l'] = some nd ∧ nd.delivered = [] := by
    intro ls t ha hd u hu
    rw [Crash.aborted_stable hu ha]
    cases h : (Crash.run forkedSetup ls t).net.nodes ['l'] with
    | none => rw [h] at hd; cases hd
    | some nd => rw [h] at hd; exact ⟨nd, rfl, by simpa using hd⟩
  intro ls hls
  simp only [List.mem_cons, List.not_mem_nil, or_false] at hls
  rcases hls with rfl | rfl
  · exact ⟨7, by decide +kernel, by decide +kernel, ⟨(.filter ['f'], anEvent), by decide +kernel, rfl⟩, key _ _ (by decide +kernel) (by decide +kernel)⟩
  · exact ⟨10, by decide +kernel, by decide +kernel, ⟨(.filter ['f'], anEvent), by decide +kernel, rfl⟩, key _ _ (by decide +kernel) (by decide +kernel)⟩

end Verif
