import Verif.Spec.SinkPanic
import Verif.Props.FilterPanic
import Verif.Props.NetSinks
/-!
# C149: what a sink that panics does to the shutdown

Theorems range over every configuration and every schedule.
-/
namespace Verif
open Topology
open Net (SetUp Setup Fed)
open Crash (Thread Over Finished SinksFirst Served)
open SinkPanic
variable {F : Type} [F64 F]

section
variable {c : Config} (hd : Distinct c) {p : Setup F} (hp : SetUp c p) {ls : Nat → Crash.Label F}

/-- What has panicked does not return later. -/
private theorem never_gone {m : Str} {t0 : Nat} (h : .node m ∈ (Crash.run p ls t0).dead) (t : Nat) : ¬ Net.gone (Net.run p (Crash.shadow p ls) t) m := by
  intro hg
  have h1 : Net.gone (Net.run p (Crash.shadow p ls) (max t t0)) m :=
    Net.stable (P := fun t => Net.gone (Net.run p (Crash.shadow p ls) t) m) (fun t h => Net.gone_stable _ h) hg (Nat.le_max_left _ _)
  refine Crash.dead_unfinished _ _ (Crash.dead_stable (Nat.le_max_right t t0) h) ?_
  simp only [Finished]
  rw [Crash.run_net]; exact h1

include hd hp in
/-- `main` joins sinks one after another until it comes to one that has panicked. -/
private theorem walks (hf : Crash.Fair p ls) (hna : ∀ t, (Crash.run p ls t).aborted = false) {n : Str} (hn : ∃ t, .node n ∈ (Crash.run p ls t).dead)
    (rest : List Str) (a : List Str) (ha : ∀ m ∈ a, m ∈ c.sinks)
    (hgone : ∀ m ∈ c.sinks, (∀ t, .node m ∉ (Crash.run p ls t).dead) → ∃ t, Net.gone (Net.run p (Crash.shadow p ls) t) m) (hna' : n ∈ a) :
    ∀ t, (Net.run p (Crash.shadow p ls) t).main ≠ .joining (a ++ rest) := by
  induction a with
  | nil => cases hna'
  | cons m a ih =>
    intro t ht
    have h0 : ∀ t, ((Net.run p (Crash.shadow p ls) t).nodes m).isSome :=
      Net.present (Net.some_of_channel hd hp.wired (.inl (ha m List.mem_cons_self)))
    have stay : ∀ u, (Net.run p (Crash.shadow p ls) u).main = .joining (m :: a ++ rest) →
        (Net.run p (Crash.shadow p ls) (u + 1)).main = .joining (m :: a ++ rest) ∨
        (Net.run p (Crash.shadow p ls) (u + 1)).main = .joining (a ++ rest) ∧ Net.gone (Net.run p (Crash.shadow p ls) u) m := by
      intro u hu
      by_cases hl : Crash.shadow p ls u = .main
      · obtain ⟨nd, hnd⟩ := Option.isSome_iff_exists.1 (h0 u)
        by_cases hr : nd.returned = true
        · right
          refine ⟨?_, nd, hnd, hr⟩
          rw [Net.run, hl]
          simp only [List.cons_append] at hu
          simp [Net.step, Net.State.mainStep, hu, hnd, hr]
        · left
          rw [Net.run, hl]
          simp only [List.cons_append] at hu ⊢
          simp [Net.step, Net.State.mainStep, hu, hnd, hr]
      · left; rw [Net.run, Net.step_main p _ _ hl]; exact hu
    by_cases hdead : ∃ t, .node m ∈ (Crash.run p ls t).dead
    · obtain ⟨t0, hdead⟩ := hdead
      obtain ⟨u, hu, hl⟩ := hf.main (max t t0)
      have hm : (Net.run p (Crash.shadow p ls) u).main = .joining (m :: a ++ rest) := by
        refine Net.stable (P := fun u => (Net.run p (Crash.shadow p ls) u).main = .joining (m :: a ++ rest)) (fun u h => ?_) ht (show t ≤ u by omega)
        exact (stay u h).resolve_right fun h => never_gone hdead u h.2
      have : (Crash.run p ls (u + 1)).aborted = true := by
        rw [Crash.run, hl]
        have hx := Crash.dead_stable (show t0 ≤ u by omega) hdead
        simp [Crash.step, hna u, Crash.awaited, Crash.run_net, hm, hx]
      rw [hna] at this; cases this
    · obtain ⟨tg, hg⟩ := hgone m (ha m List.mem_cons_self) fun t h => hdead ⟨t, h⟩
      have hna'' : n ∈ a := by
        rcases List.mem_cons.1 hna' with rfl | h
        · exact absurd hn hdead
        · exact h
      obtain ⟨v, -, hv⟩ := Net.ensures (help := fun u => Crash.shadow p ls u = .main ∧ tg ≤ u)
        (P := fun u => (Net.run p (Crash.shadow p ls) u).main = .joining (m :: a ++ rest))
        (Q := fun u => (Net.run p (Crash.shadow p ls) u).main = .joining (a ++ rest)) (by
          intro u
          obtain ⟨v, h1, h2⟩ := Crash.main_turn hf hna (max u tg)
          exact ⟨v, by omega, h2, by omega⟩) (fun u hu => (stay u hu).imp id (·.1)) (by
          rintro u ⟨hl, htg⟩ hu
          obtain ⟨nd, hnd, hr⟩ := Net.stable (P := fun t => Net.gone (Net.run p (Crash.shadow p ls) t) m) (fun t h => Net.gone_stable _ h) hg htg
          simp only [List.cons_append] at hu
          rw [Net.run, hl]
          simp [Net.step, Net.State.mainStep, hu, hnd, hr]) t ht
      exact ih (fun k hk => ha k (List.mem_cons_of_mem _ hk)) hna'' v hv

end

/-- **C149 (`main` learns of it).**  Sinks and filters may panic, but no source; every sink can be reached from a source through no filter that panics before it has sent a
`Shutdown`.  If every thread that has not panicked gets its turn, a signal comes, no `Shutdown` is lost and valves reopen, and a sink panics, then `main` panics. -/
theorem C149_aborts (c : Config) (hd : Distinct c) (p : Setup F) (hp : SetUp c p) (hsf : SinksFirst p) (ls : Nat → Crash.Label F)
    (hf : Crash.Fair p ls) (hk : ∀ t n x, (x, .shutdown) ∉ (Crash.run p ls t).net.lost n) (hre : Crash.ValvesReopen p ls) (hsig : ∃ t, ls t = .net .signal)
    (hsrcs : ∀ t i, .source i ∉ (Crash.run p ls t).dead) (hserved : ∀ n ∈ c.sinks, Served c (Crash.DiesMute p ls) n)
    (n : Str) (hn : n ∈ c.sinks) (hdead : ∃ t, .node n ∈ (Crash.run p ls t).dead) : ∃ t, (Crash.run p ls t).aborted = true := by
  apply Classical.byContradiction
  intro hno
  have hna : ∀ t, (Crash.run p ls t).aborted = false := by
    intro t
    cases h : (Crash.run p ls t).aborted with
    | false => rfl
    | true => exact absurd ⟨t, h⟩ hno
  obtain ⟨w1, -⟩ := C57_mutual c hd _ hp.wired
  obtain ⟨a, b, hab, ha, -⟩ := hsf
  obtain ⟨t, ht, -⟩ := Crash.joins hd hp hf hna hsig hsrcs
  rw [hab] at ht
  refine walks hd hp hf hna hdead b a (fun m hm => w1 ▸ ha.mem_iff.1 hm) (fun m hm hlive => ?_) (ha.mem_iff.2 (w1 ▸ hn)) t ht
  obtain ⟨ups, hsink⟩ := Net.mem_fst (w1 ▸ hm)
  refine Net.sink_gone (Net.linked hd hp.wired) hsink (Crash.node_turn hf hna (List.mem_append_left _ (List.mem_map.2 ⟨_, hsink, rfl⟩)) hlive) ?_
    (Crash.served_reached hd hp hf hna hk hsig hsrcs (hserved m hm))
  intro t k r h
  rw [← Crash.run_net] at h
  exact hre m t k r h

/-- **C149 (the end).**  If only sinks panic, everything is fed by some source, and all else is as in `C149_aborts`, the process comes to an end.  `main` returns iff no
sink panics, and panics iff one does. -/
theorem C149_ends (c : Config) (hd : Distinct c) (p : Setup F) (hp : SetUp c p) (hsf : SinksFirst p) (ls : Nat → Crash.Label F)
    (hf : Crash.Fair p ls) (hk : ∀ t n x, (x, .shutdown) ∉ (Crash.run p ls t).net.lost n) (hre : Crash.ValvesReopen p ls) (hsig : ∃ t, ls t = .net .signal)
    (hfed : ∀ n, HasChannel c n → Fed c n) (honly : ∀ t, ∀ x ∈ (Crash.run p ls t).dead, ∃ n ∈ c.sinks, x = .node n) :
    (∃ t, Over (Crash.run p ls t)) ∧
    ((∃ t, (Crash.run p ls t).net.main = .exited) ↔ ∀ t, (Crash.run p ls t).dead = []) ∧
    ((∃ t, (Crash.run p ls t).aborted = true) ↔ ∃ t, (Crash.run p ls t).dead ≠ []) := by
  obtain ⟨w1, w2, -⟩ := C57_mutual c hd _ hp.wired
  obtain ⟨-, -, -, n4, -⟩ := Net.names hd hp.wired
  have hserved : ∀ n, Fed c n → Served c (Crash.DiesMute p ls) n := by
    intro n h
    induction h with
    | source s n h1 h2 => exact .source s n h1 h2
    | filter f n h1 h2 ih =>
      refine .filter f n ih ?_ h2
      rintro ⟨t, ht, -⟩
      obtain ⟨k, hk, e⟩ := honly t _ ht
      cases e
      rcases Net.forwards_node hd hp.wired h2 with hm | hm
      · exact n4 f (w1 ▸ hk) hm
      · exact (Net.names hd hp.wired).2.2.2.2.2 f hm (w1 ▸ hk)
  have hab : (∃ t, (Crash.run p ls t).dead ≠ []) → ∃ t, (Crash.run p ls t).aborted = true := by
    rintro ⟨t, ht⟩
    obtain ⟨x, hx⟩ := List.exists_mem_of_ne_nil _ ht
    obtain ⟨n, hn, rfl⟩ := honly t x hx
    exact C149_aborts c hd p hp hsf ls hf hk hre hsig (fun t i h => by obtain ⟨k, -, e⟩ := honly t _ h; cases e)
      (fun m hm => hserved m (hfed m (.inl hm))) n hn ⟨t, hx⟩
  have hex : (∀ t, (Crash.run p ls t).dead = []) → ∃ t, (Crash.run p ls t).net.main = .exited := by
    intro hall
    have hna : ∀ t, (Crash.run p ls t).aborted = false := by
      intro t
      cases h : (Crash.run p ls t).aborted with
      | false => rfl
      | true =>
        obtain ⟨x, hx, -⟩ := Crash.aborted_awaited t h
        rw [hall t] at hx; cases hx
    have := (C92_exits_run_partial c hd p hp (Crash.shadow p ls) (fun n _ t m r h => hre n t m r (by rw [Crash.run_net]; exact h)) ⟨?_, ?_, ?_⟩
      (fun t n x => by rw [← Crash.run_net]; exact hk t n x) ?_).2 hfed
    · obtain ⟨t, ht⟩ := this
      exact ⟨t, by rw [Crash.run_net]; exact ht⟩
    · intro n hn t
      exact Crash.node_turn hf hna hn (fun t h => by rw [hall t] at h; cases h) t
    · intro i hi t
      obtain ⟨t', h1, h2⟩ := hf.sources i hi t
      exact ⟨t', h1, Crash.shadow_live h2 (hna t') (fun x hx => by rw [hall t'] at hx; cases hx) fun h => by cases h⟩
    · exact Crash.main_turn hf hna
    · obtain ⟨t, ht⟩ := hsig
      exact ⟨t, Crash.shadow_live ht (hna t) (fun x hx => by rw [hall t] at hx; cases hx) fun h => by cases h⟩
  -- no thread panics once `main` has returned
  have hclean : (∃ t, (Crash.run p ls t).net.main = .exited) → ∀ t, (Crash.run p ls t).dead = [] := by
    rintro ⟨t, ht⟩ u
    have later : (Crash.run p ls (max t u)).net.main = .exited := by
      rw [Crash.run_net] at ht ⊢
      refine Net.stable (P := fun t => (Net.run p (Crash.shadow p ls) t).main = .exited) (fun t h => ?_) ht (Nat.le_max_left _ _)
      by_cases hl : Crash.shadow p ls t = .main
      · rw [Net.run, hl]; simp [Net.step, Net.State.mainStep, h]
      · rw [Net.run, Net.step_main p _ _ hl]; exact h
    apply List.eq_nil_iff_forall_not_mem.2
    intro x hx
    have := Crash.dead_stable (Nat.le_max_right t u) hx
    rw [(C117_clean_exit c hd p hp ls _ later).1] at this; cases this
  refine ⟨?_, ⟨hclean, hex⟩, ⟨?_, hab⟩⟩
  · by_cases h : ∃ t, (Crash.run p ls t).dead ≠ []
    · obtain ⟨t, ht⟩ := hab h; exact ⟨t, .inr ht⟩
    · obtain ⟨t, ht⟩ := hex fun t => Classical.byContradiction fun hne => h ⟨t, hne⟩
      exact ⟨t, .inl ht⟩
  · rintro ⟨t, ht⟩
    obtain ⟨x, hx, -⟩ := Crash.aborted_awaited t ht
    exact ⟨t, fun h => by rw [h] at hx; cases hx⟩

/-- **C149 (who is waited for).**  Whatever the schedule: if `main` panics while only sinks have panicked, it waited for the sinks that come before the one that panicked in
its order, and they have returned.  (The others are not waited for, see the example of C117.) -/
theorem C149_waited (c : Config) (hd : Distinct c) (p : Setup F) (hp : SetUp c p) (ls : Nat → Crash.Label F)
    (honly : ∀ t, ∀ x ∈ (Crash.run p ls t).dead, ∃ n ∈ c.sinks, x = .node n) (t : Nat) (h : (Crash.run p ls t).aborted = true) :
    ∃ n ∈ c.sinks, ∃ before after, p.joinOrder = before ++ n :: after ∧ .node n ∈ (Crash.run p ls t).dead ∧
      ∀ m ∈ before, m ∈ c.sinks → Finished (Crash.run p ls t) (.node m) := by
  obtain ⟨x, hx, ha⟩ := Crash.aborted_awaited t h
  obtain ⟨n, hn, rfl⟩ := honly t x hx
  rw [Crash.run_net] at ha
  unfold Crash.awaited at ha
  split at ha
  · split at ha <;> cases ha
  · rename_i k ns hm
    simp only [Option.some.injEq, Thread.node.injEq] at ha
    subst ha
    obtain ⟨pre, hpre⟩ := Crash.joining_suffix t _ hm
    refine ⟨_, hn, pre, ns, hpre, hx, fun m hmb hms => ?_⟩
    have hjn : (pre ++ k :: ns).Nodup := by
      rw [← hpre, hp.joinOrder.nodup_iff]
      obtain ⟨n1, n2, n3, n4, -⟩ := Net.names hd hp.wired
      exact List.nodup_append.2 ⟨n2, n1, fun a ha b hb e => n4 a ha (e ▸ hb)⟩
    have hg := (Net.joined (ls := Crash.shadow p ls) (Net.present (Net.some_of_channel hd hp.wired (.inl hms))) (by rw [hpre]; exact List.mem_append_left _ hmb) t).1 _ hm
    simp only [Finished]
    rw [Crash.run_net]
    exact hg.resolve_left fun hm => (List.nodup_append.1 hjn).2.2 m hmb m hm rfl
  · cases ha

/-! ### Lines that have no date -/

private theorem docs_dates (showId : Nat → Str) (s : Elastic.State) (ms : List Elastic.Line) (docs) (h : Elastic.docsOf (Elastic.chrono showId) s ms = some docs) :
    ∀ m ∈ ms, JsonFilter.InCalendar m.line.time := by
  induction ms generalizing docs with
  | nil => intro m hm; cases hm
  | cons m ms ih =>
    simp only [Elastic.docsOf] at h
    split at h
    · rename_i d ds h1 h2
      intro k hk
      rcases List.mem_cons.1 hk with rfl | hk
      · simp only [Elastic.docOf] at h1
        split at h1
        · rename_i _ time _ ht
          exact (JsonFilter.format_some k.line.time).1 ⟨time, ht⟩
        · cases h1
      · exact ih ds h2 k hk
    · cases h

/-- An Elasticsearch that has returned has written the dates of all lines that came before the first `Shutdown`. -/
private theorem elastic_dates (showId : Nat → Str) (interval : Nat) (resps : Nat → Elastic.Response)
    (uuids : Nat → Nat) (limit : Nat) (pfx : Option Str) (type : Str) (tags : TagMap)
    (sources n : Nat) (recv : List (Option (Event F))) (h)
    (hret : (SinkRun.steps (elasticImpl (Elastic.chrono showId) interval resps uuids) sources n
      { state := some { state := Elastic.init limit pfx type tags }, queue := recv }).returned = true)
    (hs : (SinkRun.steps (elasticImpl (Elastic.chrono showId) interval resps uuids) sources n
      { state := some { state := Elastic.init limit pfx type tags }, queue := recv }).state = some h) :
    ∀ l ∈ linesIn (untilShutdown (arrivals recv)), JsonFilter.InCalendar l.time := by
  have hf : ∀ (s : Option (Hosted Elastic.State (List Elastic.Line × Elastic.Response))) (d : List (Event F)),
      (∀ h, s = some h → ∀ l ∈ linesIn d, (∃ m ∈ h.state.buffer, m.line = l) ∨ JsonFilter.InCalendar l.time) →
      ∀ h, (elasticImpl (F := F) (Elastic.chrono showId) interval resps uuids).flush s = some h → ∀ l ∈ linesIn d, JsonFilter.InCalendar l.time := by
    intro s d hP h he l hl
    simp only [elasticImpl, Option.bind_eq_some_iff, Option.map_eq_some_iff] at he
    obtain ⟨g, rfl, ⟨s', o⟩, h1, rfl⟩ := he
    rcases hP g rfl l hl with ⟨m, hm, rfl⟩ | hb
    · have hne : g.state.buffer ≠ [] := fun h => by rw [h] at hm; cases hm
      simp only [Elastic.flush, hne, if_false, Elastic.bulkBody] at h1
      cases hdocs : Elastic.docsOf (Elastic.chrono showId) g.state g.state.buffer with
      | none => rw [hdocs] at h1; cases h1
      | some docs => exact docs_dates showId _ _ _ hdocs m hm
    · exact hb
  have hind := SinkRun.induction (elasticImpl (F := F) (Elastic.chrono showId) interval resps uuids)
    (fun s d => ∀ h, s = some h → ∀ l ∈ linesIn d, (∃ m ∈ h.state.buffer, m.line = l) ∨ JsonFilter.InCalendar l.time)
    (fun s d => ∀ h, s = some h → ∀ l ∈ linesIn d, JsonFilter.InCalendar l.time)
    ?_ ?_ ?_ ?_ ?_ sources n (some { state := Elastic.init limit pfx type tags }) ?_ recv
  · have := hind.2 hret h hs
    rw [delivered_at_return (elasticImpl (F := F) (Elastic.chrono showId) interval resps uuids) (some interval) (fun _ => rfl)
      sources n _ recv hret, linesIn_payload] at this
    exact this
  · intro s d t hP _ h he l hl
    refine hP h he l ?_
    simpa [linesIn] using hl
  · intro s d t hP _ h he l hl
    simp only [elasticImpl, Option.map_eq_some_iff] at he
    obtain ⟨g, rfl, rfl⟩ := he
    have hl' : l ∈ linesIn d ∨ l = t := by simpa [linesIn] using hl
    rcases hl' with hl' | rfl
    · rcases hP g rfl l hl' with ⟨m, hm, e⟩ | hb
      · exact Or.inl ⟨m, List.mem_append_left _ hm, e⟩
      · exact Or.inr hb
    · exact Or.inl ⟨⟨0, uuids g.calls, l⟩, by simp [Elastic.deliverLine], rfl⟩
  · intro s d t hP _ h he l hl
    refine hP h he l ?_
    simpa [linesIn] using hl
  · intro s d hP h he l hl
    exact Or.inr (hf s d hP h he l hl)
  · intro s d hP _ h he
    exact hf s d hP h he
  · intro h he l hl; simp [linesIn] at hl

/-- A sink that writes dates and has returned has had lines with a date only. -/
private theorem dates {k : Net.SinkCode F} {P : k.κ → Prop} (hk : WritesDates k P) (sources n : Nat) (recv : List (Option (Event F)))
    (hret : (SinkRun.steps k.impl sources n { state := k.start, queue := recv }).returned = true)
    (hs : ¬ P (SinkRun.steps k.impl sources n { state := k.start, queue := recv }).state) :
    ∀ l ∈ linesIn (untilShutdown (arrivals recv)), JsonFilter.InCalendar l.time := by
  cases hk with
  | console ext interval clock stamps w tags ht =>
    intro l hl
    obtain ⟨h, hst⟩ := Option.ne_none_iff_exists'.1 hs
    obtain ⟨h1, h2⟩ := C86_console ext interval clock stamps w tags sources n recv h hret hst
    rw [← h1] at hl
    obtain ⟨b, hb, hl⟩ := List.mem_flatMap.1 hl
    obtain ⟨parts, h3, -⟩ := h2 b hb
    have : Console.printLine ext tags l ∈ parts.map some := h3 ▸ List.mem_map.2 ⟨l, hl, rfl⟩
    obtain ⟨x, -, hx⟩ := List.mem_map.1 this
    have hno : Chrono.consoleTime l.time ≠ none := by
      intro hno
      rw [Console.printLine, ht, hno] at hx
      cases hx
    have := (C130_time l.time Chrono.consoleTime _ (.inr ⟨rfl, rfl⟩)).1
    unfold JsonFilter.InCalendar
    have h4 : ¬ (l.time < -8334632851200 ∨ 8210298412799 < l.time) := fun h => hno (this.2 h)
    omega
  | elasticsearch showId interval resps uuids limit pfx type tags =>
    obtain ⟨h, hst⟩ := Option.ne_none_iff_exists'.1 hs
    exact elastic_dates showId interval resps uuids limit pfx type tags sources n recv h hret hst

section
variable {c : Config} (hd : Distinct c) {p : Setup F} (hp : SetUp c p) {ls : Nat → Crash.Label F} {panicked : ∀ n, (p.sink n).κ → Prop} (hg : Governed p ls panicked)
include hd hp hg

/-- Only sinks panic. -/
private theorem sinks_only (t : Nat) : ∀ x ∈ (Crash.run p ls t).dead, ∃ n ∈ c.sinks, x = .node n := by
  intro x hx
  obtain ⟨t0, -, h1, -⟩ := FilterPanic.dead_crash t hx
  obtain ⟨n, m, r, rfl, h2, -⟩ := hg.only t0 x h1
  refine ⟨n, ?_, rfl⟩
  rw [← (C57_mutual c hd _ hp.wired).1]
  rw [Crash.run_net] at h2
  rcases Net.node_of t0 h2 with ⟨ups, ch, _, _, g, h⟩ | ⟨ups, _, g, -⟩
  · cases h
  · exact List.mem_map.2 ⟨_, g, rfl⟩

/-- The panics are the steps that are not taken. -/
private theorem state_good {n : Str} {ups : List Str} (hn : (n, ups) ∈ p.wiring.sinks) (t : Nat) :
    ∃ r, (Net.run p (Crash.shadow p ls) t).nodes n = some (.sink (p.sink n) ups.length r) ∧ ¬ panicked n r.state := by
  induction t with
  | zero => exact ⟨_, (Net.linked hd hp.wired).sinkNode n ups hn, hg.start n⟩
  | succ t ih =>
    obtain ⟨r, h1, h2⟩ := ih
    rcases Net.sink_step p _ (Crash.shadow p ls t) h1 with ⟨g, -⟩ | ⟨⟨now, gl⟩, g⟩
    · exact ⟨_, g, h2⟩
    · refine ⟨_, g, ?_⟩
      have hdead : .node n ∉ (Crash.run p ls t).dead := by
        intro hx
        have := Crash.shadow_dead hx (by rw [gl]; rfl)
        rw [gl] at this; cases this
      have hab : (Crash.run p ls t).aborted = false := by
        cases ha : (Crash.run p ls t).aborted with
        | false => rfl
        | true =>
          exfalso
          unfold Crash.shadow at gl
          split at gl
          · cases gl
          · simp [Crash.takes, ha, Crash.noop] at gl
      have hl : ls t = .net (.act n now) := by
        unfold Crash.shadow at gl
        split at gl
        · cases gl
        · rename_i l hl
          split at gl
          · rw [hl, gl]
          · cases gl
      exact hg.always t n now _ r hl hab hdead (by rw [Crash.run_net]; exact h1)

/-- A line without a date keeps the sink from returning. -/
private theorem holds (n : Str) (hn : n ∈ c.sinks) (hk : WritesDates (p.sink n) (panicked n)) (l : LogLine) (hacc : Accepted p ls n l)
    (hl : ¬ JsonFilter.InCalendar l.time) (t : Nat) : ¬ Finished (Crash.run p ls t) (.node n) := by
  intro hfin
  obtain ⟨T, pre, x, post, hlog, hpre⟩ := hacc
  obtain ⟨w1, -⟩ := C57_mutual c hd _ hp.wired
  obtain ⟨ups, hsink⟩ := Net.mem_fst (w1 ▸ hn)
  have h0 : ((Net.initial p).nodes n).isSome := by rw [(Net.linked hd hp.wired).sinkNode n ups hsink]; rfl
  simp only [Finished] at hfin
  rw [Crash.run_net] at hfin hlog
  obtain ⟨nd, e1, e2⟩ : Net.gone (Net.run p (Crash.shadow p ls) (max t T)) n :=
    Net.stable (P := fun t => Net.gone (Net.run p (Crash.shadow p ls) t) n) (fun t h => Net.gone_stable _ h) hfin (Nat.le_max_left _ _)
  obtain ⟨more, hmore⟩ := Net.log_stable h0 (Nat.le_max_right t T) (ls := Crash.shadow p ls)
  obtain ⟨m, r, j, g1, g2⟩ := C123_alone c hd p hp (Crash.shadow p ls) (max t T) n hn
  obtain ⟨r', g3, g4⟩ := state_good hd hp hg hsink (max t T)
  rw [g1] at e1 g3
  cases e1
  simp only [Option.some.injEq] at g3
  cases g3
  simp only [Net.Node.returned] at e2
  rw [g2] at e2 g4
  refine hl (dates hk _ j _ e2 g4 l ?_)
  rw [← hmore, hlog]
  have h1 : ∀ es : List (Net.Sender × Event F), arrivals (es.map fun x => some x.2) = es.map (·.2) := by
    intro es
    simp [arrivals, List.filterMap_map, Function.comp_def]
  rw [h1, List.append_assoc, List.map_append, untilShutdown, List.takeWhile_append_of_pos (by
    intro e he
    obtain ⟨y, hy, rfl⟩ := List.mem_map.1 he
    simp [hpre y hy])]
  simp [linesIn, Event.isShutdown]

end

/-- **C149 (a line without a date).**  Threads panic as the code of the sinks has it.  If the queue of a console or of an Elasticsearch accepts a line whose time has no
date, before any `Shutdown`, then that sink never returns and the process never exits cleanly, whatever the schedule; and if every thread that has not panicked gets its turn, a
signal comes, no `Shutdown` is lost, valves reopen and every sink is fed by some source, then `main` panics. -/
theorem C149_line (c : Config) (hd : Distinct c) (p : Setup F) (hp : SetUp c p) (hsf : SinksFirst p) (ls : Nat → Crash.Label F)
    (panicked : ∀ n, (p.sink n).κ → Prop) (hg : Governed p ls panicked) (n : Str) (hn : n ∈ c.sinks) (hw : WritesDates (p.sink n) (panicked n))
    (l : LogLine) (hacc : Accepted p ls n l) (hl : ¬ JsonFilter.InCalendar l.time) :
    (∀ t, ¬ Finished (Crash.run p ls t) (.node n) ∧ (Crash.run p ls t).net.main ≠ .exited) ∧
    (Crash.Fair p ls → (∀ t n x, (x, .shutdown) ∉ (Crash.run p ls t).net.lost n) → Crash.ValvesReopen p ls → (∃ t, ls t = .net .signal) →
      (∀ n, HasChannel c n → Fed c n) → ∃ t, (Crash.run p ls t).aborted = true) := by
  have hh := holds hd hp hg n hn hw l hacc hl
  have hx : ∀ t, (Crash.run p ls t).net.main ≠ .exited := fun t h => hh t ((C117_clean_exit c hd p hp ls t h).2.2 n (.inl hn))
  refine ⟨fun t => ⟨hh t, hx t⟩, fun hf hk hre hsig hfed => ?_⟩
  obtain ⟨⟨t, ht⟩, -⟩ := C149_ends c hd p hp hsf ls hf hk hre hsig hfed (sinks_only hd hp hg)
  exact ⟨t, ht.resolve_left (hx t)⟩

/-- **C149 (a client can make `main` panic).**  There is a message such that, whenever a native source that forwards to a console or an Elasticsearch sends on what it says
before a signal has come, and the sink's queue has room, that sink never returns, the process never exits cleanly, and under the conditions of `C149_line` `main` panics. -/
theorem C149_client (bits : Native.Bits F) (now : Int) : ∃ bs l, Native.handlePayload (F := F) bits now bs = .events [.log l] ∧
    ∀ (c : Config) (p : Setup F) (ls : Nat → Crash.Label F) (panicked : ∀ n, (p.sink n).κ → Prop), Distinct c → SetUp c p → SinksFirst p → Governed p ls panicked →
    ∀ i s ch n, p.wiring.sources[i]? = some (s, ch) → n ∈ ch → n ∈ c.sinks → WritesDates (p.sink n) (panicked n) →
    ∀ t, ls t = .net (.emit i (.log l)) → (∀ t' < t, ls t' ≠ .net .signal) → (.source i, .log l) ∉ (Crash.run p ls (t + 1)).net.lost n →
    (∀ u, ¬ Finished (Crash.run p ls u) (.node n) ∧ (Crash.run p ls u).net.main ≠ .exited) ∧
    (Crash.Fair p ls → (∀ t n x, (x, .shutdown) ∉ (Crash.run p ls t).net.lost n) → Crash.ValvesReopen p ls → (∃ t, ls t = .net .signal) →
      (∀ n, HasChannel c n → Fed c n) → ∃ t, (Crash.run p ls t).aborted = true) := by
  obtain ⟨bs, l, h1, h2⟩ := C131_client_stops bits now some
  refine ⟨bs, l, h1, ?_⟩
  have hout : ¬ JsonFilter.InCalendar l.time := by
    obtain ⟨-, l', e, h⟩ := (C148_json some 0 ⟨false, [], fun _ => 0, 0⟩ [] (.log l : Event F) []).1.1 (h2 0 _)
    cases e
    exact h
  intro c p ls panicked hd hp hsf hg i s ch n hsrc hch hn hw t hl hsig hlost
  refine C149_line c hd p hp hsf ls panicked hg n hn hw l ?_ hout
  obtain ⟨a, x, b, g1, g3⟩ := FilterPanic.emitted hd hp hsrc hch (.inl hn) hl rfl hsig (fun i h => by
    obtain ⟨k, -, e⟩ := sinks_only hd hp hg t _ h
    cases e) hlost
  exact ⟨t + 1, a, x, b, g1, g3⟩

/-! ### A case: a source that forwards to a console -/

private def oneWay : Config := ⟨[['k']], [], [], [(['s'], [['k']])]⟩

private def dated : Console.Ext Int := { consoleExt with time := Chrono.consoleTime }

private def consoleCode : Net.SinkCode Int := ⟨_, consoleImpl dated 60 (fun _ => 0) (fun _ => ([], [])), some { state := Console.init 1 [] }⟩

private def oneSetup : Setup Int where
  wiring := ⟨[(['k'], [['s']])], [], [(['s'], [['k']])], [['k']]⟩
  filter _ := ⟨_, jsonProcess (.serde some fun t => (Chrono.formatTime t).getD []), ⟨false, [], fun _ => 0, 0⟩⟩
  sink _ := consoleCode
  stopOrder := [0]
  joinOrder := [['k']]

private theorem one_setUp : SetUp oneWay oneSetup := by
  refine ⟨rfl, by decide, by decide, ?_⟩
  intro n hn; cases hn

private def farLine : LogLine := ⟨9000000000000, [], [], [], none⟩

/-- A line far in the future is sent, everyone gets their turn, and the console panics when it has got the `Shutdown` and flushes. -/
private def dateless (t : Nat) : Crash.Label Int :=
  if t = 0 then .net (.emit 0 (.log farLine)) else if t = 30 then .crash (.node ['k']) else .net (rota t)

/-- The state of the console after `j` steps. -/
private def after (j : Nat) (q : List (Event Int)) : SinkRun Int consoleCode.κ :=
  SinkRun.steps consoleCode.impl 1 j { state := consoleCode.start, queue := q.map some }

private theorem one_governed : Governed oneSetup dateless (fun _ s => s = none) := by
  have h30 : (Crash.run oneSetup dateless 30).net.nodes ['k'] = some (.sink consoleCode 1 (after 3 [.log farLine, .shutdown])) := by rfl
  constructor
  · intro n h; cases h
  · intro t x hx
    unfold dateless at hx
    split at hx
    · cases hx
    · split at hx
      · next h =>
        subst h
        cases hx
        exact ⟨['k'], _, _, rfl, h30, rfl⟩
      · cases hx
  · intro t n now m r hl _ hdead hnd
    have hk : n = ['k'] := by
      rw [Crash.run_net] at hnd
      rcases Net.node_of t hnd with ⟨_, _, _, _, g, -⟩ | ⟨_, _, g, -⟩
      · cases g
      · simp only [oneSetup, List.mem_singleton, Prod.mk.injEq] at g
        exact g.1
    subst hk
    by_cases ht : 31 ≤ t
    · exact absurd (Crash.dead_stable ht (by decide +kernel)) hdead
    · have hact : dateless t = .net (.act ['k'] 0) → t = 6 ∨ t = 12 ∨ t = 18 ∨ t = 24 := by
        intro h
        unfold dateless at h
        split at h
        · cases h
        · split at h
          · cases h
          · unfold rota at h
            split at h <;> first | omega | cases h
      have h0 : now = 0 := by
        unfold dateless at hl
        split at hl
        · cases hl
        · split at hl
          · cases hl
          · unfold rota at hl
            split at hl <;> cases hl
            rfl
      subst h0
      rcases hact hl with rfl | rfl | rfl | rfl
      · cases hnd.symm.trans (show _ = some (Net.Node.sink consoleCode 1 (after 0 [.log farLine])) from rfl)
        exact fun h => by cases h
      · cases hnd.symm.trans (show _ = some (Net.Node.sink consoleCode 1 (after 1 [.log farLine])) from rfl)
        exact fun h => by cases h
      · cases hnd.symm.trans (show _ = some (Net.Node.sink consoleCode 1 (after 2 [.log farLine])) from rfl)
        exact fun h => by cases h
      · cases hnd.symm.trans (show _ = some (Net.Node.sink consoleCode 1 (after 2 [.log farLine, .shutdown])) from rfl)
        exact fun h => by cases h

/-- The hypotheses of `C149_line`, and so of `C149_ends` and `C149_aborts`, are met. -/
example : (∀ t, (Crash.run oneSetup dateless t).net.main ≠ .exited) ∧ ∃ t, (Crash.run oneSetup dateless t).aborted = true := by
  have again : ∀ r t : Nat, r < 6 → ∃ t' ≥ t, dateless t' = .net (rota t') ∧ t' % 6 = r := fun r t hr =>
    ⟨6 * (t + 6) + r, by omega, by simp only [dateless]; rw [if_neg (by omega), if_neg (by omega)], by omega⟩
  obtain ⟨h1, h2⟩ := C149_line oneWay (by decide) oneSetup one_setUp ⟨[['k']], [], rfl, by decide, by decide⟩ dateless _ one_governed ['k'] (by decide)
    (.console dated 60 _ _ 1 [] rfl) farLine ⟨1, [], .source 0, [], by rfl, by simp⟩ (by decide)
  refine ⟨fun t => (h1 t).2, h2 ?_ ?_ ?_ ⟨5, rfl⟩ ?_⟩
  · refine ⟨?_, ?_, ?_⟩
    · intro n hn t
      obtain rfl : n = ['k'] := by simpa [oneSetup] using hn
      obtain ⟨t', h1, h2, h3⟩ := again 0 t (by omega)
      exact ⟨t', h1, 0, by rw [h2]; simp [rota, h3]⟩
    · intro i hi t
      obtain rfl : i = 0 := by simp only [oneSetup, List.length_singleton] at hi; omega
      obtain ⟨t', h1, h2, h3⟩ := again 3 t (by omega)
      exact ⟨t', h1, by rw [h2]; simp [rota, h3]⟩
    · intro t
      obtain ⟨t', h1, h2, h3⟩ := again 4 t (by omega)
      exact ⟨t', h1, by rw [h2]; simp [rota, h3]⟩
  · intro t n x
    rw [Crash.run_net]
    exact Net.shutdowns_kept 0 (fun _ => .inl fun _ => rfl) t n x
  · intro n t m r h
    have hk : n = ['k'] := by
      rw [Crash.run_net] at h
      rcases Net.node_of t h with ⟨_, _, _, _, g, -⟩ | ⟨_, _, g, -⟩
      · cases g
      · simp only [oneSetup, List.mem_singleton, Prod.mk.injEq] at g
        exact g.1
    subst hk
    obtain ⟨r', g1, g2⟩ := state_good (by decide) one_setUp one_governed (n := ['k']) (ups := [['s']]) (by decide) t
    rw [Crash.run_net, g1] at h
    cases h
    refine ⟨0, ?_⟩
    cases hs : r.state with
    | none => exact absurd hs g2
    | some k => rfl
  · rintro n (hn | ⟨fs, hn⟩)
    · obtain rfl : n = ['k'] := by simpa [oneWay] using hn
      exact .source ['s'] _ (by decide) ⟨[['k']], by decide, by decide⟩
    · cases hn

end Verif
