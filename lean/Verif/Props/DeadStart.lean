import Verif.Spec.DeadStart
import Verif.Props.Crash
import Verif.Props.Startup
/-!
# C144: how a process ends whose start was not complete
-/
namespace Verif
open DeadStart Net Crash Topology
open Verif.Config (Args Prog)
open Startup (Host Started start)
section
variable {F : Type} [F64 F]

/-- The thread is there. -/
private def Exists (p : Setup F) : Crash.Thread → Prop
  | .source i => i < p.wiring.sources.length
  | .node n => ((Net.initial p).nodes n).isSome

private theorem idle_unfinished {p : Setup F} {ls : Nat → Crash.Label F} {x : Crash.Thread} (t : Nat)
    (h : ∀ u < t, ∀ l, ls u = .net l → actor l ≠ some x) : ¬ Finished (Crash.run p ls t) x := by
  induction t with
  | zero =>
    cases x with
    | source i => simp [Finished, Crash.run, Net.initial]
    | node n =>
      rintro ⟨nd, h1, h2⟩
      simp only [Crash.run, Net.initial] at h1
      split at h1
      · simp only [Option.some.injEq] at h1; subst h1; simp [Node.returned] at h2
      · split at h1
        · simp only [Option.some.injEq] at h1; subst h1; simp [Node.returned] at h2
        · cases h1
  | succ t ih =>
    have ih := ih fun u hu => h u (by omega)
    have hsh : actor (shadow p ls t) = some x → shadow p ls t = noop := by
      unfold shadow
      split
      · intro _; rfl
      · next l hl =>
        split
        · intro ha; exact absurd ha (h t (by omega) l hl)
        · intro _; rfl
    have hn1 : (Crash.run p ls (t + 1)).net = Net.step p (Crash.run p ls t).net (shadow p ls t) := by
      rw [run_net, Net.run, ← run_net]
    cases x with
    | source i =>
      simp only [Finished] at ih ⊢
      rw [hn1]
      rcases Net.step_ended p (Crash.run p ls t).net (shadow p ls t) with g | ⟨j, sc, g1, -, -, -, g⟩
      · rw [g]; exact ih
      · rw [g]
        intro h
        rcases List.mem_cons.1 h with rfl | h
        · have := hsh (by rw [g1]; rfl)
          rw [g1] at this; cases this
        · exact ih h
    | node n =>
      simp only [Finished] at ih ⊢
      rw [hn1, Net.step_nodes]
      rintro ⟨nd, h1, h2⟩
      simp only [Option.map_eq_some_iff] at h1
      obtain ⟨nd0, h1, h3⟩ := h1
      refine ih ⟨nd0, h1, ?_⟩
      have hb : Net.base (shadow p ls t) n nd0 = nd0 := by
        cases hs : shadow p ls t with
        | act m now =>
          by_cases hm : m = n
          · have := hsh (by rw [hs, hm]; rfl)
            rw [hs] at this; cases this
          · simp [Net.base, Ne.symm hm]
        | _ => rfl
      rw [hb] at h3
      cases nd0 with
      | filter f k ch q r => rw [← h3, Net.pushAll_filter] at h2; exact h2
      | sink k m r => rw [← h3, Net.pushAll_sink] at h2; exact h2

/-- A thread that exists and dies first is dead, unless `main` has panicked by then. -/
private theorem dies {p : Setup F} {ls : Nat → Crash.Label F} {x : Crash.Thread} {t0 : Nat} (h0 : ls t0 = .crash x)
    (h1 : ∀ t < t0, ∀ l, ls t = .net l → actor l ≠ some x) (hx : Exists p x) :
    (Crash.run p ls t0).aborted = true ∨ x ∈ (Crash.run p ls (t0 + 1)).dead := by
  by_cases ha : (Crash.run p ls t0).aborted = true
  · exact .inl ha
  · refine .inr ?_
    have hun := idle_unfinished (p := p) t0 h1
    have hr : running p (Crash.run p ls t0).net x = true := by
      cases x with
      | source i =>
        simp only [Finished] at hun
        simp only [running, Bool.and_eq_true, decide_eq_true_eq, Bool.not_eq_true', List.contains_eq_mem, decide_eq_false_iff_not]
        exact ⟨hx, hun⟩
      | node n =>
        simp only [Finished] at hun
        have : ((Crash.run p ls t0).net.nodes n).isSome = true := by rw [run_net, nodes_isSome]; exact hx
        obtain ⟨nd, hnd⟩ := Option.isSome_iff_exists.1 this
        simp only [running, hnd, Bool.not_eq_true']
        cases hret : nd.returned with
        | false => rfl
        | true => exact absurd ⟨nd, hnd, hret⟩ hun
    rw [Crash.run, h0]
    simp only [Crash.step]
    rw [if_neg ha, if_pos hr]
    exact List.mem_cons_self

private theorem not_exited {p : Setup F} {ls : Nat → Crash.Label F} {t0 : Nat} (ha : (Crash.run p ls t0).aborted = true) (t : Nat) :
    (Crash.run p ls t).net.main = .exited → t < t0 ∧ (Crash.run p ls t0).net.main ≠ .exited := by
  intro hx
  have hne : (Crash.run p ls t0).net.main ≠ .exited := by
    intro h
    obtain ⟨x, -, hw⟩ := aborted_awaited t0 ha
    simp [awaited, h] at hw
  refine ⟨?_, hne⟩
  apply Classical.byContradiction
  intro hlt
  rw [aborted_stable (by omega) ha] at hx
  exact hne hx

/-- The threads of dead names exist. -/
private theorem exists_thread {c : Topology.Config} (hd : Distinct c) {p : Setup F} (hp : SetUp c p) {n : Str} {x : Crash.Thread}
    (h : IsThread p.wiring n x) : Exists p x := by
  cases x with
  | source i =>
    simp only [IsThread, List.getElem?_map, Option.map_eq_some_iff] at h
    obtain ⟨y, hy, -⟩ := h
    exact (List.getElem?_eq_some_iff.1 hy).1
  | node m =>
    obtain ⟨rfl, h2⟩ := h
    simp only [Exists]
    obtain ⟨⟨ups, ch⟩, hm⟩ := Net.mem_fst h2
    rw [(Net.linked hd hp.wired).filterNode m ups ch hm]
    rfl

private theorem wiring_eq {h : Host} {a : Args F} {s : Started} (hs : start h a = .ok s) {p : Setup F} (hp : SetUp a.topology p) :
    p.wiring = s.wiring := by
  have h1 := (C121_started h a s hs).1
  rw [hp.wired] at h1
  simpa using h1

/-- Dead names have threads. -/
private theorem dead_thread {h : Host} {a : Args F} {s : Started} (hs : start h a = .ok s) (hd : Distinct a.topology) {n : Str} (hn : n ∈ s.dead) :
    (∃ f ∈ a.programmables, f.path = n ∧ h.script f.scriptsDirectory f.script = false) ∧ IsThread s.wiring n (.node n) ∨
    (∃ f ∈ a.files, f.path = n ∧ h.pattern f.file = false) ∧ ∃ i, IsThread s.wiring n (.source i) := by
  obtain ⟨hw, -, -, h4, -⟩ := C121_started h a s hs
  obtain ⟨-, w2, w3, -⟩ := C57_mutual a.topology hd _ hw
  rcases (h4 n).1 hn with ⟨f, f1, f2, f3⟩ | ⟨f, f1, f2, f3⟩
  · refine .inl ⟨⟨f, f1, f2, f3⟩, rfl, ?_⟩
    rw [w2]
    simp only [Args.topology, Args.filterNodes, List.map_append, List.map_map, List.mem_append, List.mem_map]
    exact .inl (.inl (.inl ⟨f, f1, f2⟩))
  · refine .inr ⟨⟨f, f1, f2, f3⟩, ?_⟩
    have : n ∈ s.wiring.sources.map (·.1) := by
      rw [w3]
      simp only [Args.topology, Args.sourceNodes, List.map_append, List.map_cons, List.map_map, List.mem_append, List.mem_cons, List.mem_map]
      exact .inr (.inr (.inr ⟨f, f1, f2⟩))
    obtain ⟨i, hi⟩ := List.getElem?_of_mem this
    exact ⟨i, hi⟩

private theorem never_clean {c : Topology.Config} (hd : Distinct c) {p : Setup F} (hp : SetUp c p) {ls : Nat → Crash.Label F} {n : Str} {x : Crash.Thread}
    (hx : IsThread p.wiring n x) (hdies : DiesFirst ls x) (t : Nat) : (Crash.run p ls t).net.main ≠ .exited := by
  intro he
  obtain ⟨h1, h2, h3⟩ := C117_clean_exit c hd p hp ls t he
  obtain ⟨t0, d1, d2⟩ := hdies
  have hex := exists_thread hd hp hx
  have hfin : Finished (Crash.run p ls t) x := by
    cases x with
    | source i => exact h2 i hex
    | node m =>
      refine h3 m ((Net.node_iff hd hp.wired m).1 ?_)
      obtain ⟨rfl, hm⟩ := hx
      exact List.mem_append_right _ hm
  by_cases ht : t ≤ t0
  · exact idle_unfinished t (fun u hu => d2 u (by omega)) hfin
  · rcases dies d1 d2 hex with ha | hdead
    · have := (not_exited ha t he).1; omega
    · have := dead_stable (show t0 + 1 ≤ t by omega) hdead
      rw [h1] at this
      cases this

/-- **C144** A process has come up; no thread panics but those whose script or pattern is at fault; every thread gets its turn, a signal comes, and
no `Shutdown` is lost.  If every node is fed by some source and flushing opens the sinks' valves (as C92 asks), the process exits iff every script
loads and every file pattern is well formed. -/
theorem C144_exits_iff (h : Host) (a : Args F) (s : Started) (hs : start h a = .ok s) (hd : Distinct a.topology) (p : Setup F)
    (hp : SetUp a.topology p) (ls : Nat → Crash.Label F) (hre : ValvesReopen p ls) (haft : After s ls) (hf : Crash.Fair p ls)
    (hk : ∀ t n x, (x, .shutdown) ∉ (Crash.run p ls t).net.lost n) (hsig : ∃ t, ls t = .net .signal)
    (hfed : ∀ n, HasChannel a.topology n → Fed a.topology n) :
    (∃ t, (Crash.run p ls t).net.main = .exited) ↔
      (∀ f ∈ a.programmables, h.script f.scriptsDirectory f.script = true) ∧ ∀ f ∈ a.files, h.pattern f.file = true := by
  have hwe := wiring_eq hs hp
  obtain ⟨-, -, -, h4, -⟩ := C121_started h a s hs
  constructor
  · rintro ⟨t, ht⟩
    have hnone : ∀ n, n ∉ s.dead := by
      intro n hn
      rcases dead_thread hs hd hn with ⟨-, hx⟩ | ⟨-, i, hx⟩
      · exact never_clean hd hp (hwe ▸ hx) (haft.dead n hn _ hx) t ht
      · exact never_clean hd hp (hwe ▸ hx) (haft.dead n hn _ hx) t ht
    constructor
    · intro f hf
      cases hb : h.script f.scriptsDirectory f.script with
      | true => rfl
      | false => exact absurd ((h4 f.path).2 (.inl ⟨f, hf, rfl, hb⟩)) (hnone _)
    · intro f hf
      cases hb : h.pattern f.file with
      | true => rfl
      | false => exact absurd ((h4 f.path).2 (.inr ⟨f, hf, rfl, hb⟩)) (hnone _)
  · rintro ⟨g1, g2⟩
    have hno : ∀ t x, ls t ≠ .crash x := by
      intro t x hx
      obtain ⟨n, hn, -⟩ := haft.only t x hx
      rcases (h4 n).1 hn with ⟨f, f1, -, f2⟩ | ⟨f, f1, -, f2⟩
      · rw [g1 f f1] at f2; cases f2
      · rw [g2 f f1] at f2; cases f2
    have hls : ls = fun t => .net (match ls t with | .net l => l | .crash _ => .signal) := by
      funext t
      cases hl : ls t with
      | net l => rfl
      | crash x => exact absurd hl (hno t x)
    obtain ⟨ls', hls⟩ : ∃ ls' : Nat → Net.Label F, ls = fun t => .net (ls' t) := ⟨_, hls⟩
    subst hls
    simp only [ValvesReopen, C117_no_panic] at hk hre ⊢
    refine (C92_exits_run_partial a.topology hd p hp ls' (fun n _ => hre n) ⟨?_, ?_, ?_⟩ hk ?_).2 hfed
    · intro n hn t; simpa using hf.nodes n hn t
    · intro i hi t; simpa using hf.sources i hi t
    · intro t; simpa using hf.main t
    · simpa using hsig

private theorem only_dead {s : Started} {p : Setup F} (hwe : p.wiring = s.wiring) {ls : Nat → Crash.Label F} (haft : After s ls) (t : Nat) :
    ∀ x ∈ (Crash.run p ls t).dead, ∃ n ∈ s.dead, IsThread s.wiring n x := by
  induction t with
  | zero => intro x hx; cases hx
  | succ t ih =>
    intro x hx
    rw [Crash.run] at hx
    unfold Crash.step at hx
    split at hx
    · exact ih x hx
    · split at hx
      · next y hy =>
        split at hx
        · rcases List.mem_cons.1 hx with rfl | hx
          · exact haft.only t _ hy
          · exact ih x hx
        · exact ih x hx
      · split at hx <;> exact ih x hx
      · split at hx <;> exact ih x hx

/-- **C144** (a pattern) If the pattern of a file source is malformed, the process comes up, and at a signal `main` panics before it waits for any sink. -/
theorem C144_pattern (h : Host) (a : Args F) (s : Started) (hs : start h a = .ok s) (hd : Distinct a.topology) (p : Setup F)
    (hp : SetUp a.topology p) (ls : Nat → Crash.Label F) (haft : After s ls) (hf : Crash.Fair p ls) (hsig : ∃ t, ls t = .net .signal)
    (hbad : ∃ f ∈ a.files, h.pattern f.file = false) :
    (∃ t, (Crash.run p ls t).aborted = true) ∧
    ∀ t todo, (Crash.run p ls t).net.main ≠ .joining todo ∧ (Crash.run p ls t).net.main ≠ .exited := by
  have hwe := wiring_eq hs hp
  obtain ⟨f, f1, f2⟩ := hbad
  have hn : f.path ∈ s.dead := ((C121_started h a s hs).2.2.2.1 _).2 (.inr ⟨f, f1, rfl, f2⟩)
  obtain ⟨i, hi⟩ : ∃ i, IsThread s.wiring f.path (.source i) := by
    obtain ⟨-, -, w3, -⟩ := C57_mutual a.topology hd _ (C121_started h a s hs).1
    have : f.path ∈ s.wiring.sources.map (·.1) := by
      rw [w3]
      simp only [Args.topology, Args.sourceNodes, List.map_append, List.map_cons, List.map_map, List.mem_append, List.mem_cons, List.mem_map]
      exact .inr (.inr (.inr ⟨f, f1, rfl⟩))
    obtain ⟨i, hi⟩ := List.getElem?_of_mem this
    exact ⟨i, hi⟩
  obtain ⟨t0, d1, d2⟩ := haft.dead _ hn _ hi
  rcases dies (p := p) d1 d2 (exists_thread hd hp (hwe ▸ hi)) with ha | hdead
  · refine ⟨⟨t0, ha⟩, fun t todo => ?_⟩
    have hlt : i < p.wiring.sources.length := exists_thread hd hp (hwe ▸ hi : IsThread p.wiring f.path (.source i))
    have hstop : i ∈ p.stopOrder := by
      rw [hp.stopOrder.mem_iff, Net.handles_all (Net.names hd hp.wired).2.2.1, List.mem_range]
      exact hlt
    have key : ∀ t, i ∉ (Crash.run p ls t).net.ended := by
      intro t
      by_cases ht : t ≤ t0
      · exact idle_unfinished (x := .source i) t fun u hu => d2 u (by omega)
      · rw [aborted_stable (by omega) ha]
        exact idle_unfinished (x := .source i) t0 d2
    have key := key t
    rw [run_net] at key ⊢
    exact ⟨fun h => key ((Net.stopped hstop t).2.1 todo h), fun h => key ((Net.stopped hstop t).2.2 h)⟩
  · exact C117_source_false a.topology hd p hp ls hf hsig i ⟨_, hdead⟩

/-- Only filters panic, if no pattern is malformed. -/
private theorem filters_dead {h : Host} {a : Args F} {s : Started} (hs : start h a = .ok s) (hd : Distinct a.topology) {p : Setup F}
    (hp : SetUp a.topology p) {ls : Nat → Crash.Label F} (haft : After s ls) (hpat : ∀ f ∈ a.files, h.pattern f.file = true) :
    ∀ t, ∀ x ∈ (Crash.run p ls t).dead, ∃ g ∈ a.topology.filters.map (·.1), x = .node g := by
  have hwe := wiring_eq hs hp
  obtain ⟨hw, -, -, h4, -⟩ := C121_started h a s hs
  have w2 := (C57_mutual a.topology hd _ hw).2.1
  intro t x hx
  obtain ⟨m, hm, hxm⟩ := only_dead hwe haft t x hx
  rcases (h4 m).1 hm with ⟨g, g1, g2, -⟩ | ⟨g, g1, -, g2⟩
  · cases x with
    | node k => exact ⟨k, by rw [← w2]; exact hxm.1 ▸ hxm.2, rfl⟩
    | source i =>
      exfalso
      have h1 : m ∈ p.wiring.sources.map (·.1) := by rw [hwe]; exact List.mem_of_getElem? hxm
      refine (Net.names hd hp.wired).2.2.2.2.1 m h1 ?_
      rw [hwe, w2]
      simp only [Args.topology, Args.filterNodes, List.map_append, List.map_map, List.mem_append, List.mem_map]
      exact .inl (.inl (.inl ⟨g, g1, g2⟩))
  · rw [hpat g g1] at g2; cases g2

/-- **C144** (a script) If no pattern is malformed, and some sink can be reached only through filters whose scripts do not load, that sink never
returns and the process hangs for ever, whatever the schedule and the other scripts. -/
theorem C144_script (h : Host) (a : Args F) (s : Started) (hs : start h a = .ok s) (hd : Distinct a.topology) (p : Setup F)
    (hp : SetUp a.topology p) (hsf : SinksFirst p) (ls : Nat → Crash.Label F) (haft : After s ls)
    (hpat : ∀ f ∈ a.files, h.pattern f.file = true) (n : Str) (hn : n ∈ a.sinkNames)
    (hcut : ¬ Crash.Served a.topology (fun m => ∃ f ∈ a.programmables, f.path = m ∧ h.script f.scriptsDirectory f.script = false) n) (t : Nat) :
    ¬ Over (Crash.run p ls t) ∧ ¬ Finished (Crash.run p ls t) (.node n) := by
  have hwe := wiring_eq hs hp
  obtain ⟨hw, -, -, h4, -⟩ := C121_started h a s hs
  have w2 := (C57_mutual a.topology hd _ hw).2.1
  refine Crash.starves a.topology hd p hp hsf ls _ n hn hcut ?_ (filters_dead hs hd hp haft hpat) t
  rintro _ - ⟨f, hfm, rfl, hbad⟩
  have hfn : f.path ∈ a.topology.filters.map (·.1) := by
    simp only [Args.topology, Args.filterNodes, List.map_append, List.map_map, List.mem_append, List.mem_map]
    exact .inl (.inl (.inl ⟨f, hfm, rfl⟩))
  have hdead : f.path ∈ s.dead := (h4 _).2 (.inl ⟨f, hfm, rfl, hbad⟩)
  have hx : IsThread s.wiring f.path (.node f.path) := ⟨rfl, w2 ▸ hfn⟩
  obtain ⟨t0, d1, d2⟩ := haft.dead _ hdead _ hx
  have hL := Net.linked hd hp.wired
  obtain ⟨⟨fups, fch⟩, hfil⟩ := Net.mem_fst (hwe ▸ hx.2)
  -- it has sent nothing until it dies
  have idle : ∀ u ≤ t0, ∃ q r, (Crash.run p ls u).net.nodes f.path = some (.filter (p.filter f.path) fups.length fch q r) ∧ r.sent = [] := by
    intro u
    induction u with
    | zero => intro _; exact ⟨_, _, hL.filterNode _ _ _ hfil, rfl⟩
    | succ u ih =>
      intro hu
      obtain ⟨q, r, e1, e2⟩ := ih (by omega)
      rw [run_net] at e1
      rw [run_net, Net.run]
      rcases Net.filter_step p _ (shadow p ls u) e1 with ⟨g, -⟩ | ⟨e, q0, now, g, -⟩
      · exact ⟨_, r, g, e2⟩
      · unfold shadow at g
        split at g
        · cases g
        · next l hl =>
          split at g
          · exact absurd (by rw [g]; rfl) (d2 u (by omega) l hl)
          · cases g
  · rcases dies (p := p) d1 d2 (exists_thread hd hp (hwe ▸ hx)) with ha | hdead
    · intro t
      refine ⟨max t t0, Nat.le_max_left _ _, fun nd hnd => ?_⟩
      rw [aborted_stable (Nat.le_max_right _ _) ha] at hnd
      obtain ⟨q, r, e1, e2⟩ := idle t0 (Nat.le_refl _)
      rw [e1] at hnd
      cases hnd
      simp [Node.sent, e2]
    · intro t
      refine ⟨max t t0, Nat.le_max_left _ _, fun nd hnd => ?_⟩
      have later : ∀ u, t0 ≤ u → ∃ q r, (Net.run p (shadow p ls) u).nodes f.path = some (.filter (p.filter f.path) fups.length fch q r) ∧ r.sent = [] := by
        intro u hu
        refine Net.stable (P := fun u => t0 ≤ u ∧ ∃ q r, (Net.run p (shadow p ls) u).nodes f.path =
          some (.filter (p.filter f.path) fups.length fch q r) ∧ r.sent = []) ?_ ⟨Nat.le_refl _, by rw [← run_net]; exact idle t0 (Nat.le_refl _)⟩ hu |>.2
        rintro u ⟨hu, q, r, e1, e2⟩
        refine ⟨by omega, ?_⟩
        rcases Net.filter_step p _ (shadow p ls u) e1 with ⟨g, -⟩ | ⟨e, q0, now, g, -⟩
        · exact ⟨_, r, g, e2⟩
        · exfalso
          by_cases h0 : u = t0
          · subst h0
            simp [shadow, d1, noop] at g
          · have := shadow_dead (p := p) (dead_stable (show t0 + 1 ≤ u by omega) hdead) (by rw [g]; rfl)
            rw [g] at this; cases this
      obtain ⟨q, r, e1, e2⟩ := later _ (Nat.le_max_right t t0)
      rw [run_net, e1] at hnd
      cases hnd
      simp [Node.sent, e2]

/-- **C144** (which sinks return) If no pattern is malformed, and all else is as in `C144_exits_iff`, a sink returns iff some way leads to it from a source
through no filter whose script does not load. -/
theorem C144_returns_iff (h : Host) (a : Args F) (s : Started) (hs : start h a = .ok s) (hd : Distinct a.topology) (p : Setup F)
    (hp : SetUp a.topology p) (hsf : SinksFirst p) (ls : Nat → Crash.Label F) (hre : ValvesReopen p ls) (haft : After s ls) (hf : Crash.Fair p ls)
    (hk : ∀ t n x, (x, .shutdown) ∉ (Crash.run p ls t).net.lost n) (hsig : ∃ t, ls t = .net .signal)
    (hpat : ∀ f ∈ a.files, h.pattern f.file = true) (n : Str) (hn : n ∈ a.sinkNames) :
    (∃ t, Finished (Crash.run p ls t) (.node n)) ↔
      Crash.Served a.topology (fun m => ∃ f ∈ a.programmables, f.path = m ∧ h.script f.scriptsDirectory f.script = false) n := by
  constructor
  · rintro ⟨t, ht⟩
    apply Classical.byContradiction
    intro hcut
    exact (C144_script h a s hs hd p hp hsf ls haft hpat n hn hcut t).2 ht
  · intro hserved
    have hwe := wiring_eq hs hp
    obtain ⟨hw, -, -, h4, -⟩ := C121_started h a s hs
    have w2 := (C57_mutual a.topology hd _ hw).2.1
    refine C117_served_partial a.topology hd p hp hsf ls hf hk hre hsig ?_ n hn ?_
    · exact filters_dead hs hd hp haft hpat
    · clear hn
      induction hserved with
      | source s n h1 h2 => exact .source s n h1 h2
      | filter f n _ h1 h2 ih =>
        refine .filter f n ih ?_ h2
        rintro ⟨t, ht, -⟩
        obtain ⟨m, hm, hxm⟩ := only_dead hwe haft t _ ht
        obtain ⟨rfl, -⟩ := hxm
        rcases (h4 _).1 hm with ⟨g, g1, g2, g3⟩ | ⟨g, g1, -, g2⟩
        · exact h1 ⟨g, g1, g2, g3⟩
        · rw [hpat g g1] at g2; cases g2

end

/-! ### A case: a file source, a programmable filter and a null sink -/
private def deadArgs : Args Int :=
  { null := true, programmables := [⟨['f'], ['d'], ['s'], [Config.named "sinks.null" []], []⟩], files := [⟨['t'], ['*'], [['f']], 2048⟩] }

private def deadHost (script pattern : Bool) : Host :=
  { channel := fun _ => true, resolve := fun h p => some [⟨h, p⟩], tcpBind := fun _ _ => true, udpBind := fun _ _ => true,
    influxUrl := fun _ => true, producer := fun _ _ => true, http := fun _ _ => true, script := fun _ _ => script, pattern := fun _ => pattern }

private def nullName : Str := Config.named "sinks.null" []
private def internalName : Str := Config.named "sources.internal" []

private def deadSetup : Setup Int where
  wiring := ⟨[(nullName, [['f']])], [(['f'], [['t']], [nullName])], [(internalName, []), (['t'], [['f']])], [['f']]⟩
  filter _ := ⟨_, delayProcess, 10⟩
  sink _ := ⟨Unit, nullImpl, ()⟩
  stopOrder := [0, 1]
  joinOrder := [nullName, ['f']]

/-- Everyone in turn. -/
private def deadRota (t : Nat) : Net.Label Int :=
  match t % 6 with
  | 0 => .act nullName 0
  | 1 => .act ['f'] 0
  | 2 => .stop 0
  | 3 => .stop 1
  | 4 => .main
  | _ => .signal

/-- The thread panics at once, if one is given. -/
private def deadRun (x : Option Crash.Thread) (t : Nat) : Crash.Label Int :=
  match t, x with
  | 0, some x => .crash x
  | t, _ => .net (deadRota t)

private theorem dead_start (script pattern : Bool) : start (deadHost script pattern) deadArgs =
    .ok { wiring := deadSetup.wiring, dead := (if script then [] else [['f']]) ++ if pattern then [] else [['t']] } := by
  cases script <;> cases pattern <;> rfl

private theorem dead_setUp : SetUp deadArgs.topology deadSetup := by
  refine ⟨by decide +kernel, by decide +kernel, by decide, ?_⟩
  intro n _; exact (C63_filters_proper 10 0 ⟨fun _ => none, fun _ => [], fun _ => []⟩ ⟨false, [], id, 0⟩
      (L := Unit) (fun _ _ q => ((), .ok q)) (fun _ => .timerFlush 0) (fun _ => rfl) (fun _ q => ⟨q, rfl⟩) ⟨(), 0, []⟩).1

private theorem dead_fair (x : Option Crash.Thread) : Crash.Fair deadSetup (deadRun x) := by
  have h : ∀ t, 1 ≤ t → deadRun x t = .net (deadRota t) := by
    intro t ht
    match t with
    | t + 1 => rfl
  have again : ∀ r t : Nat, r < 6 → ∃ t' ≥ t, 1 ≤ t' ∧ t' % 6 = r := fun r t hr => ⟨6 * (t + 1) + r, by omega, by omega, by omega⟩
  refine ⟨?_, ?_, ?_⟩
  · intro n hn t
    have : n = nullName ∨ n = ['f'] := by simpa [deadSetup] using hn
    rcases this with rfl | rfl
    · obtain ⟨t', h1, h2, h3⟩ := again 0 t (by omega)
      exact ⟨t', h1, 0, by rw [h t' h2]; simp [deadRota, h3]⟩
    · obtain ⟨t', h1, h2, h3⟩ := again 1 t (by omega)
      exact ⟨t', h1, 0, by rw [h t' h2]; simp [deadRota, h3]⟩
  · intro i hi t
    have : i = 0 ∨ i = 1 := by simp only [deadSetup, List.length_cons, List.length_nil] at hi; omega
    rcases this with rfl | rfl
    · obtain ⟨t', h1, h2, h3⟩ := again 2 t (by omega)
      exact ⟨t', h1, by rw [h t' h2]; simp [deadRota, h3]⟩
    · obtain ⟨t', h1, h2, h3⟩ := again 3 t (by omega)
      exact ⟨t', h1, by rw [h t' h2]; simp [deadRota, h3]⟩
  · intro t
    obtain ⟨t', h1, h2, h3⟩ := again 4 t (by omega)
    exact ⟨t', h1, by rw [h t' h2]; simp [deadRota, h3]⟩

private theorem dead_only (u : Str) (h : Forwards deadArgs.topology u nullName) : u = ['f'] := by
  obtain ⟨fs, h1, h2⟩ := h
  have hc : deadArgs.topology = ⟨[nullName], [(['f'], [nullName])], [], [(internalName, []), (['t'], [['f']])]⟩ := rfl
  rw [hc] at h1
  simp only [List.map_cons, List.map_nil, List.append_nil, List.nil_append, List.cons_append, List.mem_cons, List.not_mem_nil, or_false, Prod.mk.injEq] at h1
  rcases h1 with ⟨rfl, rfl⟩ | ⟨rfl, rfl⟩ | ⟨rfl, rfl⟩
  · rfl
  · cases h2
  · revert h2; decide

private theorem dead_unserved : ¬ Crash.Served deadArgs.topology
    (fun m => ∃ f ∈ deadArgs.programmables, f.path = m ∧ (deadHost false true).script f.scriptsDirectory f.script = false) nullName := by
  intro h
  cases h with
  | source s _ h1 h2 => obtain rfl := dead_only s h2; exact absurd h1 (by decide +kernel)
  | filter f _ _ h1 h2 => exact h1 ⟨_, List.mem_singleton_self _, (dead_only f h2).symm, rfl⟩

private theorem dead_after : After (F := Int) { wiring := deadSetup.wiring, dead := [['f']] } (deadRun (some (.node ['f']))) := by
  refine ⟨?_, ?_⟩
  · intro n hn x hx
    obtain rfl : n = ['f'] := by simpa using hn
    cases x with
    | node m =>
      obtain ⟨rfl, -⟩ := hx
      exact ⟨0, rfl, fun t ht => absurd ht (Nat.not_lt_zero _)⟩
    | source i =>
      exfalso
      have : ∀ i : Nat, (deadSetup.wiring.sources.map (·.1))[i]? ≠ some ['f'] := by
        intro i
        match i with
        | 0 => decide +kernel
        | 1 => decide +kernel
        | i + 2 => simp [deadSetup]
      exact this i hx
  · intro t x hx
    cases t with
    | zero => simp only [deadRun, Crash.Label.crash.injEq] at hx; subst hx; exact ⟨['f'], by simp, rfl, by decide⟩
    | succ t => simp [deadRun] at hx

/-- Non-vacuity of `C144_script`: the script does not load. -/
example (t : Nat) : ¬ Over (Crash.run deadSetup (deadRun (some (.node ['f']))) t) :=
  (C144_script (deadHost false true) deadArgs _ (dead_start false true) (by decide +kernel) deadSetup dead_setUp
    ⟨[nullName], [['f']], rfl, by decide, by decide⟩ _ dead_after (fun _ _ => rfl) nullName (by decide +kernel) dead_unserved t).1

/-- Non-vacuity of `C144_returns_iff`: the sink returns if the script loads, and does not if it does not. -/
example : (∃ t, Finished (Crash.run deadSetup (deadRun none) t) (.node nullName)) ∧
    ¬ ∃ t, Finished (Crash.run deadSetup (deadRun (some (.node ['f']))) t) (.node nullName) := by
  have hkept : ∀ x t n y, (y, .shutdown) ∉ (Crash.run deadSetup (deadRun x) t).net.lost n := by
    intro x t n y
    rw [run_net]
    exact shutdowns_kept 0 (fun _ => .inl fun _ => rfl) t n y
  constructor
  · refine (C144_returns_iff (deadHost true true) deadArgs _ (dead_start true true) (by decide +kernel) deadSetup dead_setUp
      ⟨[nullName], [['f']], rfl, by decide, by decide⟩ _ (fun _ _ _ _ _ => ⟨0, rfl⟩) ⟨?_, ?_⟩ (dead_fair none) (hkept _) ⟨5, rfl⟩ (fun _ _ => rfl) nullName
      (by decide +kernel)).2 (.filter ['f'] _ (.source ['t'] ['f'] (by decide +kernel) ⟨[['f']], by decide +kernel, by decide⟩) ?_
        ⟨[nullName], by decide +kernel, by simp⟩)
    · intro n hn; simp at hn
    · intro t x hx; cases t <;> cases hx
    · rintro ⟨f, -, -, h⟩; cases h
  · intro h
    exact dead_unserved ((C144_returns_iff (deadHost false true) deadArgs _ (dead_start false true) (by decide +kernel) deadSetup dead_setUp
      ⟨[nullName], [['f']], rfl, by decide, by decide⟩ _ (fun _ _ _ _ _ => ⟨0, rfl⟩) dead_after (dead_fair _) (hkept _) ⟨5, rfl⟩ (fun _ _ => rfl) nullName
      (by decide +kernel)).1 h)

/-- Non-vacuity of `C144_pattern`: the pattern is malformed. -/
example : ∃ t, (Crash.run deadSetup (deadRun (some (.source 1))) t).aborted = true := by
  refine (C144_pattern (deadHost true false) deadArgs _ (dead_start true false) (by decide +kernel) deadSetup dead_setUp _ ⟨?_, ?_⟩ (dead_fair _) ⟨5, rfl⟩
    ⟨_, List.mem_singleton_self _, rfl⟩).1
  · intro n hn x hx
    obtain rfl : n = ['t'] := by simpa using hn
    cases x with
    | node m => exact absurd hx.2 (by decide)
    | source i =>
      have : ∀ i : Nat, (deadSetup.wiring.sources.map (·.1))[i]? = some ['t'] → i = 1 := by
        intro i
        match i with
        | 0 => decide +kernel
        | 1 => intro _; rfl
        | i + 2 => simp [deadSetup]
      obtain rfl := this i hx
      exact ⟨0, rfl, fun t ht => absurd ht (Nat.not_lt_zero _)⟩
  · intro t x hx
    cases t with
    | zero => simp only [deadRun, Crash.Label.crash.injEq] at hx; subst hx; exact ⟨['t'], by simp, rfl⟩
    | succ t => simp [deadRun] at hx

/-- Non-vacuity of `C144_exits_iff`: all is well and the process exits. -/
example : ∃ t, (Crash.run deadSetup (deadRun none) t).net.main = .exited := by
  have hls : deadRun none = fun t => .net (deadRota t) := by funext t; cases t <;> rfl
  refine (C144_exits_iff (deadHost true true) deadArgs _ (dead_start true true) (by decide +kernel) deadSetup dead_setUp _ (fun _ _ _ _ _ => ⟨0, rfl⟩) ⟨?_, ?_⟩
    (dead_fair none) ?_ ⟨5, rfl⟩ ?_).2 ⟨fun _ _ => rfl, fun _ _ => rfl⟩
  · intro n hn; simp at hn
  · intro t x hx; rw [hls] at hx; cases hx
  · rw [hls]
    simp only [C117_no_panic]
    exact shutdowns_kept 0 fun _ => .inl fun _ => rfl
  · have hf : Fed deadArgs.topology ['f'] := .source ['t'] ['f'] (by decide +kernel) ⟨[['f']], by decide +kernel, by decide⟩
    rintro n (h | ⟨fs, h⟩)
    · obtain rfl : n = nullName := by
        have hc : deadArgs.topology.sinks = [nullName] := by decide +kernel
        rw [hc] at h; simpa using h
      exact .filter ['f'] _ hf ⟨[nullName], by decide +kernel, by simp⟩
    · have hc : deadArgs.topology.filters = [(['f'], [nullName])] := by decide +kernel
      rw [hc] at h
      simp only [List.mem_singleton, Prod.mk.injEq] at h
      obtain ⟨rfl, -⟩ := h
      exact hf

end Verif
