import Verif.Lemmas.FilterPanic
import Verif.Props.JsonFilter
import Verif.Props.NetFlow
/-!
# C148: what a line that a filter cannot deal with does to the shutdown

`Spec/FilterPanic` says when threads panic.
-/
namespace Verif
open Topology
open Net (SetUp Setup Fed)
open Crash (Thread Over Finished SinksFirst Served)
open FilterPanic
variable {F : Type} [F64 F]

/-- A list that stops short of an element. -/
private theorem prefix_of {α : Type} {a b pre post : List α} {x : α} (h : a ++ b = pre ++ x :: post) (hx : x ∉ a) : ∃ c, pre = a ++ c := by
  rcases List.append_eq_append_iff.1 h with ⟨c, hc, -⟩ | ⟨c, hc, h2⟩
  · exact ⟨c, hc⟩
  · cases c with
    | nil => exact ⟨[], by simpa using hc.symm⟩
    | cons y c =>
      simp only [List.cons_append, List.cons.injEq] at h2
      exact absurd (by rw [hc, h2.1]; simp) hx

/-- What a filter has read comes before what it cannot deal with. -/
private theorem reads_before {c : Config} (hd : Distinct c) {p : Setup F} (hp : SetUp c p) {ls : Nat → Crash.Label F} {bad : Str → Event F → Prop}
    (hg : Governed p ls bad) {f : Str} {ups ch : List Str} (hf : (f, ups, ch) ∈ p.wiring.filters) {T : Nat} {pre post : List (Net.Sender × Event F)}
    {x : Net.Sender × Event F} (hlog : (Crash.run p ls T).net.log f = pre ++ x :: post) (hbad : bad f x.2) (u : Nat) (hu : T ≤ u) :
    ∃ ins q rest, (Net.run p (Crash.shadow p ls) u).nodes f = some (.filter (p.filter f) ups.length ch q
        (Pipeline.after (p.filter f).process ups.length { state := (p.filter f).start } ins)) ∧ pre.map (·.2) = ins.map (·.2) ++ rest := by
  have hL := Net.linked hd hp.wired
  have h0 : ((Net.initial p).nodes f).isSome := by rw [hL.filterNode f ups ch hf]; rfl
  obtain ⟨ins, q, h1, h2, h3⟩ := read_good hd hp hg hf u
  rw [Crash.run_net] at hlog
  obtain ⟨more, hmore⟩ := Net.log_stable h0 hu (ls := Crash.shadow p ls)
  rw [← hmore, hlog] at h2
  simp only [List.append_assoc, List.cons_append, List.map_append, List.map_cons] at h2
  obtain ⟨rest, hrest⟩ := prefix_of h2.symm (fun hx => by
    obtain ⟨i, hi, e⟩ := List.mem_map.1 hx
    exact h3 i hi (e ▸ hbad))
  exact ⟨ins, q, rest, h1, hrest⟩

/-- **C148 (the hang).**  Whatever the schedule: if no source reaches a sink but through filters whose queues accept an event they cannot deal with before any
`Shutdown`, that sink never returns, and the process neither exits nor is ended by a panic of `main`. -/
theorem C148_hangs (c : Config) (hd : Distinct c) (p : Setup F) (hp : SetUp c p) (hsf : SinksFirst p) (ls : Nat → Crash.Label F)
    (bad : Str → Event F → Prop) (hg : Governed p ls bad) (n : Str) (hn : n ∈ c.sinks) (hcut : ¬ Served c (Poisoned p ls bad) n) (t : Nat) :
    ¬ Over (Crash.run p ls t) ∧ ¬ Finished (Crash.run p ls t) (.node n) := by
  refine Crash.starves c hd p hp hsf ls _ n hn hcut (fun f hf hpo t => ?_) (filters_only hd hp hg) t
  obtain ⟨T, pre, x, post, hlog, hbad, hpre⟩ := hpo
  obtain ⟨⟨ups, ch⟩, hfil⟩ := Net.mem_fst ((C57_mutual c hd _ hp.wired).2.1 ▸ hf)
  obtain ⟨ins, q, rest, h1, h2⟩ := reads_before hd hp hg hfil hlog hbad (max t T) (Nat.le_max_right _ _)
  refine ⟨max t T, Nat.le_max_left _ _, fun nd hnd hmem => ?_⟩
  rw [Crash.run_net, h1] at hnd
  cases hnd
  simp only [Net.Node.sent] at hmem
  rw [Pipeline.after_sent (hp.filters _ hf).tidy _ _ _ rfl, List.nil_append] at hmem
  have := (hp.filters _ hf).keeps ins (fun i hi => ?_) _ hmem
  · cases this
  · have hi : i.2 ∈ pre.map (·.2) := by rw [h2]; exact List.mem_append_left _ (List.mem_map.2 ⟨i, hi, rfl⟩)
    obtain ⟨y, hy, e⟩ := List.mem_map.1 hi
    rw [← e]; exact hpre y hy

/-- What a filter that is about to panic has read. -/
private theorem next_log {c : Config} (hd : Distinct c) {p : Setup F} (hp : SetUp c p) {ls : Nat → Crash.Label F} {f : Str} {e : Event F} {t : Nat}
    (h : next (Crash.run p ls t) f = some e) : ∃ ups ch ins q pre x post, (f, ups, ch) ∈ p.wiring.filters ∧
      (Net.run p (Crash.shadow p ls) t).nodes f = some (.filter (p.filter f) ups.length ch q
        (Pipeline.after (p.filter f).process ups.length { state := (p.filter f).start } ins)) ∧
      (Pipeline.after (p.filter f).process ups.length { state := (p.filter f).start } ins).finished = false ∧
      (Crash.run p ls t).net.log f = pre ++ x :: post ∧ x.2 = e ∧ pre.map (·.2) = ins.map (·.2) := by
  have hL := Net.linked hd hp.wired
  unfold next at h
  split at h
  · rename_i _ _ _ e' q r heq
    split at h
    · cases h
    · rename_i hfin
      cases h
      rw [Crash.run_net] at heq ⊢
      rcases Net.node_of t heq with ⟨ups, ch, _, _, g, -⟩ | ⟨ups, _, g, h⟩
      · obtain ⟨ins, q', h1, h2⟩ := Net.filter_log (ls := Crash.shadow p ls) hL g t
        have h1' := h1
        rw [heq] at h1
        simp only [Option.some.injEq] at h1
        cases h1
        obtain ⟨pre, more, e1, e2, e3⟩ := List.map_eq_append_iff.1 h2
        obtain ⟨x, post, rfl, e4, e5⟩ := List.map_eq_cons_iff.1 e3
        exact ⟨ups, _, ins, _, pre, x, post, g, h1', by simpa using hfin, e1, e4, e2⟩
      · cases h
  · cases h

/-- **C148 (which sinks return).**  If every thread that has not panicked gets its turn, a signal comes, no `Shutdown` is lost and valves reopen, a sink returns iff
some way leads to it from a source through no filter whose queue accepts an event it cannot deal with before any `Shutdown`. -/
theorem C148_returns_iff (c : Config) (hd : Distinct c) (p : Setup F) (hp : SetUp c p) (hsf : SinksFirst p) (ls : Nat → Crash.Label F)
    (hf : Crash.Fair p ls) (hk : ∀ t n x, (x, .shutdown) ∉ (Crash.run p ls t).net.lost n) (hre : Crash.ValvesReopen p ls) (hsig : ∃ t, ls t = .net .signal)
    (bad : Str → Event F → Prop) (hg : Governed p ls bad) (n : Str) (hn : n ∈ c.sinks) :
    (∃ t, Finished (Crash.run p ls t) (.node n)) ↔ Served c (Poisoned p ls bad) n := by
  constructor
  · rintro ⟨t, ht⟩
    apply Classical.byContradiction
    intro hcut
    exact (C148_hangs c hd p hp hsf ls bad hg n hn hcut t).2 ht
  · intro hserved
    refine C117_served_partial c hd p hp hsf ls hf hk hre hsig (filters_only hd hp hg) n hn ?_
    clear hn
    induction hserved with
    | source s n h1 h2 => exact .source s n h1 h2
    | filter f n _ h1 h2 ih =>
      refine .filter f n ih ?_ h2
      rintro ⟨t, hdead, hmute⟩
      refine h1 ?_
      obtain ⟨t0, hlt, hcr, hnet, hdead0⟩ := dead_crash t hdead
      obtain ⟨f', e, hx, hnext, hbad⟩ := hg.only t0 _ hcr
      cases hx
      obtain ⟨ups, ch, ins, q, pre, x, post, g1, g2, g3, g4, g5, g6⟩ := next_log hd hp hnext
      refine ⟨t0, pre, x, post, g4, g5 ▸ hbad, ?_⟩
      apply Classical.byContradiction
      intro hno
      have hsh : ∃ i ∈ ins, i.2.isShutdown = true := by
        apply Classical.byContradiction
        intro hall
        refine hno fun y hy => ?_
        have hy : y.2 ∈ ins.map (·.2) := by rw [← g6]; exact List.mem_map.2 ⟨y, hy, rfl⟩
        obtain ⟨i, hi, e⟩ := List.mem_map.1 hy
        rw [← e]
        cases hs : i.2.isShutdown with
        | false => rfl
        | true => exact absurd ⟨i, hi, hs⟩ hall
      have hfm : f ∈ c.filters.map (·.1) := (C57_mutual c hd _ hp.wired).2.1 ▸ List.mem_map.2 ⟨_, g1, rfl⟩
      -- it has sent a `Shutdown` then, and has the same later
      have hsent : Event.shutdown ∈ (Pipeline.after (p.filter f).process ups.length { state := (p.filter f).start } ins).sent := by
        rw [Pipeline.after_sent (hp.filters _ hfm).tidy _ _ _ rfl, List.nil_append]
        exact mem_expectedSent _ ins _ hsh
      have later : ∀ u, t0 + 1 ≤ u → ∃ q, (Net.run p (Crash.shadow p ls) u).nodes f = some (.filter (p.filter f) ups.length ch q
          (Pipeline.after (p.filter f).process ups.length { state := (p.filter f).start } ins)) := by
        intro u hu
        refine Net.stable (P := fun u => t0 + 1 ≤ u ∧ ∃ q, (Net.run p (Crash.shadow p ls) u).nodes f = some (.filter (p.filter f) ups.length ch q
          (Pipeline.after (p.filter f).process ups.length { state := (p.filter f).start } ins))) ?_ ⟨Nat.le_refl _, q, ?_⟩ hu |>.2
        · rintro u ⟨hu, q, h1⟩
          refine ⟨by omega, ?_⟩
          rcases Net.filter_step p _ (Crash.shadow p ls u) h1 with ⟨g, -⟩ | ⟨e, q0, now, g, -⟩
          · exact ⟨_, g⟩
          · have := Crash.shadow_dead (Crash.dead_stable hu hdead0) (by rw [g]; rfl)
            rw [g] at this; cases this
        · rw [← Crash.run_net, hnet, Crash.run_net]; exact g2
      obtain ⟨q', hq'⟩ := later t (by omega)
      exact hmute (.filter _ _ _ _ _) (by rw [Crash.run_net]; exact hq') hsent

/-- **C148 (a clean exit).**  Under the same conditions, with every sink and filter fed by some source: the process exits iff no filter's queue accepts an event it
cannot deal with before it has accepted a `Shutdown` for every upstream. -/
theorem C148_exits_iff (c : Config) (hd : Distinct c) (p : Setup F) (hp : SetUp c p) (ls : Nat → Crash.Label F)
    (hf : Crash.Fair p ls) (hk : ∀ t n x, (x, .shutdown) ∉ (Crash.run p ls t).net.lost n) (hre : Crash.ValvesReopen p ls) (hsig : ∃ t, ls t = .net .signal)
    (hfed : ∀ n, HasChannel c n → Fed c n) (bad : Str → Event F → Prop) (hg : Governed p ls bad) :
    (∃ t, (Crash.run p ls t).net.main = .exited) ↔ ∀ f ups ch, (f, ups, ch) ∈ p.wiring.filters → ∀ t pre x post,
      (Crash.run p ls t).net.log f = pre ++ x :: post → bad f x.2 → max 1 ups.length ≤ pre.countP (·.2.isShutdown) := by
  have hL := Net.linked hd hp.wired
  have w2 := (C57_mutual c hd _ hp.wired).2.1
  have count : ∀ l : List (Net.Sender × Event F), l.countP (·.2.isShutdown) = (l.map (·.2)).countP Event.isShutdown := by
    intro l; rw [List.countP_map]; rfl
  have count' : ∀ l : List (Int × Event F), l.countP (fun i => i.2.isShutdown) = (l.map (·.2)).countP Event.isShutdown := by
    intro l; rw [List.countP_map]; rfl
  constructor
  · rintro ⟨t, ht⟩ f ups ch hfil T pre x post hlog hbad
    have hfm : f ∈ c.filters.map (·.1) := w2 ▸ List.mem_map.2 ⟨_, hfil, rfl⟩
    obtain ⟨fs, hfc⟩ := Net.mem_fst hfm
    obtain ⟨-, -, hfin⟩ := C117_clean_exit c hd p hp ls t ht
    have hgone := hfin f (.inr ⟨fs, hfc⟩)
    simp only [Finished] at hgone
    rw [Crash.run_net] at hgone
    have hgone : Net.gone (Net.run p (Crash.shadow p ls) (max t T)) f :=
      Net.stable (P := fun t => Net.gone (Net.run p (Crash.shadow p ls) t) f) (fun t h => Net.gone_stable _ h) hgone (Nat.le_max_left _ _)
    obtain ⟨ins, q, rest, h1, h2⟩ := reads_before hd hp hg hfil hlog hbad (max t T) (Nat.le_max_right _ _)
    obtain ⟨q', r', e1, e2⟩ := Net.filter_at hL (Crash.shadow p ls) hfil (max t T)
    rw [h1] at e1
    cases e1
    obtain ⟨nd, e3, e4⟩ := hgone
    rw [h1] at e3
    cases e3
    have e5 := e2.1 e4
    rw [Crash.after_total] at e5
    rw [count, h2, List.countP_append, ← count']
    simp only at e5
    omega
  · intro hall
    have hno : ∀ t x, ls t ≠ .crash x := by
      intro t x hx
      obtain ⟨f, e, rfl, hnext, hbad⟩ := hg.only t x hx
      obtain ⟨ups, ch, ins, q, pre, x, post, g1, g2, g3, g4, g5, g6⟩ := next_log hd hp hnext
      have := hall f ups ch g1 t pre x post g4 (g5 ▸ hbad)
      rw [count, g6, ← count'] at this
      obtain ⟨q', r', e1, e2⟩ := Net.filter_at hL (Crash.shadow p ls) g1 t
      rw [g2] at e1
      cases e1
      have hf := e2.2 (by rw [Crash.after_total]; simp only; omega)
      rw [g3] at hf; cases hf
    obtain ⟨ls', hls⟩ : ∃ ls' : Nat → Net.Label F, ls = fun t => .net (ls' t) := by
      refine ⟨fun t => match ls t with | .net l => l | .crash _ => .signal, ?_⟩
      funext t
      cases hl : ls t with
      | net l => simp only [hl]
      | crash x => exact absurd hl (hno t x)
    subst hls
    simp only [Crash.ValvesReopen, C117_no_panic] at hk hre ⊢
    refine (C92_exits_run_partial c hd p hp ls' (fun n _ => hre n) ⟨?_, ?_, ?_⟩ hk ?_).2 hfed
    · intro n hn t; simpa using hf.nodes n hn t
    · intro i hi t; simpa using hf.sources i hi t
    · intro t; simpa using hf.main t
    · simpa using hsig

/-- **C148 (the JSON-encoding filter).**  The code of the filter panics exactly at what is called `OutOfCalendar`, and on everything else does what the filter of a process
without panics does. -/
theorem C148_json (num : Str → Option Str) (now : Int) (s : JsonEncode) (f : Str) (e : Event F) (res : List (Event F)) :
    (JsonFilter.process num now s e res = none ↔ OutOfCalendar (fun _ => True) f e) ∧
    (¬ OutOfCalendar (fun _ => True) f e → JsonFilter.process num now s e res =
      some (jsonProcess (.serde num fun t => (Chrono.formatTime t).getD []) now s e res)) := by
  cases e with
  | log l =>
    have h := JsonFilter.format_some l.time
    cases hl : Chrono.formatTime l.time with
    | none =>
      rw [hl] at h
      have : OutOfCalendar (F := F) (fun _ => True) f (.log l) := ⟨trivial, l, rfl, fun hc => by obtain ⟨_, h⟩ := h.2 hc; cases h⟩
      exact ⟨by simp [JsonFilter.process, hl, this], fun hn => absurd this hn⟩
    | some time =>
      rw [hl] at h
      have : ¬ OutOfCalendar (F := F) (fun _ => True) f (.log l) := by
        rintro ⟨-, l', e, hc⟩
        cases e
        exact hc (h.1 ⟨time, rfl⟩)
      refine ⟨by simp [JsonFilter.process, hl, this], fun _ => ?_⟩
      simp only [JsonFilter.process, hl, jsonProcess, JsonExt.serde, lineObject, metadataObject, Option.getD_some]
  | telemetry m => exact ⟨by simp [JsonFilter.process, OutOfCalendar], fun _ => rfl⟩
  | timerFlush m => exact ⟨by simp [JsonFilter.process, OutOfCalendar], fun _ => rfl⟩
  | shutdown => exact ⟨by simp [JsonFilter.process, OutOfCalendar], fun _ => rfl⟩
  | raw m => exact ⟨by simp [JsonFilter.process, OutOfCalendar], fun _ => rfl⟩

/-- **C148 (a client can keep the process from stopping).**  There is a message such that, whenever a native source that forwards to a JSON-encoding filter sends on what it says
before a signal has come, and the filter's queue has room, no sink that can be reached only through that filter ever returns, and the process never ends, whatever happens
afterwards. -/
theorem C148_client (bits : Native.Bits F) (now : Int) : ∃ bs l, Native.handlePayload (F := F) bits now bs = .events [.log l] ∧
    ∀ (c : Config) (p : Setup F) (ls : Nat → Crash.Label F) (json : Str → Prop), Distinct c → SetUp c p → SinksFirst p → Governed p ls (OutOfCalendar json) →
    ∀ i s ch f, p.wiring.sources[i]? = some (s, ch) → f ∈ ch → json f → HasChannel c f →
    ∀ t, ls t = .net (.emit i (.log l)) → (∀ t' < t, ls t' ≠ .net .signal) → (.source i, .log l) ∉ (Crash.run p ls (t + 1)).net.lost f →
    ∀ n ∈ c.sinks, ¬ Served c (· = f) n → ∀ u, ¬ Over (Crash.run p ls u) ∧ ¬ Finished (Crash.run p ls u) (.node n) := by
  obtain ⟨bs, l, h1, h2⟩ := C131_client_stops bits now some
  refine ⟨bs, l, h1, ?_⟩
  have hout : ¬ JsonFilter.InCalendar l.time := by
    obtain ⟨-, l', e, h⟩ := (C148_json some 0 ⟨false, [], fun _ => 0, 0⟩ [] (.log l : Event F) []).1.1 (h2 0 _)
    cases e
    exact h
  intro c p ls json hd hp hsf hg i s ch f hsrc hch hjf hchan t hl hsig hlost n hn hcut u
  refine C148_hangs c hd p hp hsf ls _ hg n hn (fun h => hcut ?_) u
  have hpo : Poisoned p ls (OutOfCalendar json) f := by
    obtain ⟨a, x, b, g1, g2⟩ := FilterPanic.emitted hd hp hsrc hch hchan hl rfl hsig (fun i h => by
      obtain ⟨g, -, e⟩ := filters_only hd hp hg t _ h
      cases e) hlost
    exact ⟨t + 1, a, _, b, g1, ⟨hjf, l, rfl, hout⟩, g2⟩
  clear hn hcut
  induction h with
  | source s n g1 g2 => exact .source s n g1 g2
  | filter g n _ g1 g2 ih => exact .filter g n ih (fun e => g1 (e ▸ hpo)) g2

/-! ### A case: a source that forwards to a JSON-encoding filter and to a sink -/

private def jsonWays : Config := ⟨[['k'], ['l']], [(['f'], [['l']])], [], [(['s'], [['f'], ['k']])]⟩

private def jsonSetup : Setup Int where
  wiring := ⟨[(['k'], [['s']]), (['l'], [['f']])], [(['f'], [['s']], [['l']])], [(['s'], [['f'], ['k']])], [['f'], ['k']]⟩
  filter _ := ⟨_, jsonProcess (.serde some fun t => (Chrono.formatTime t).getD []), ⟨false, [], fun _ => 0, 0⟩⟩
  sink _ := ⟨Unit, nullImpl, ()⟩
  stopOrder := [0]
  joinOrder := [['k'], ['l'], ['f']]

private theorem json_setUp : SetUp jsonWays jsonSetup := by
  refine ⟨rfl, by decide, by decide, ?_⟩
  intro n _; exact (C63_filters_proper 10 0 _ _
      (L := Unit) (fun _ _ q => ((), .ok q)) (fun _ => .timerFlush 0) (fun _ => rfl) (fun _ q => ⟨q, rfl⟩) ⟨(), 0, []⟩).2.2.1

/-- A line far in the future is sent, the filter panics when it reads it, and everyone gets their turn. -/
private def farAhead (t : Nat) : Crash.Label Int := match t with
  | 0 => .net (.emit 0 (.log ⟨9000000000000, [], [], [], none⟩))
  | 1 => .crash (.node ['f'])
  | t => .net (rota t)

private theorem json_governed : Governed jsonSetup farAhead (OutOfCalendar (· = ['f'])) := by
  constructor
  · intro t x hx
    match t with
    | 0 => cases hx
    | 1 =>
      cases hx
      refine ⟨['f'], .log ⟨9000000000000, [], [], [], none⟩, rfl, by rfl, rfl, _, rfl, by decide⟩
    | t + 2 => cases hx
  · rintro t f now e hl - hdead - ⟨rfl, -⟩
    match t with
    | 0 => cases hl
    | 1 => cases hl
    | t + 2 => exact hdead (Crash.dead_stable (show 2 ≤ t + 2 by omega) (by decide +kernel))

/-- The hypotheses of `C148_returns_iff` are met, by a run in which one sink returns and one does not. -/
example : (∃ t, Finished (Crash.run jsonSetup farAhead t) (.node ['k'])) ∧ ¬ ∃ t, Finished (Crash.run jsonSetup farAhead t) (.node ['l']) := by
  have again : ∀ r t : Nat, r < 6 → ∃ t' ≥ t, 2 ≤ t' ∧ t' % 6 = r := fun r t hr => ⟨6 * (t + 2) + r, by omega, by omega, by omega⟩
  have hfar : ∀ t, 2 ≤ t → farAhead t = .net (rota t) := by
    intro t ht
    match t with
    | t + 2 => rfl
  have key := C148_returns_iff jsonWays (by decide) jsonSetup json_setUp ⟨[['k'], ['l']], [['f']], rfl, by decide, by decide⟩ farAhead
    (by
      refine ⟨?_, ?_, ?_⟩
      · intro n hn t
        have : n = ['k'] ∨ n = ['l'] ∨ n = ['f'] := by simpa [jsonSetup] using hn
        rcases this with rfl | rfl | rfl
        · obtain ⟨t', h1, h2, h3⟩ := again 0 t (by omega)
          exact ⟨t', h1, 0, by rw [hfar t' h2]; simp [rota, h3]⟩
        · obtain ⟨t', h1, h2, h3⟩ := again 1 t (by omega)
          exact ⟨t', h1, 0, by rw [hfar t' h2]; simp [rota, h3]⟩
        · obtain ⟨t', h1, h2, h3⟩ := again 2 t (by omega)
          exact ⟨t', h1, 0, by rw [hfar t' h2]; simp [rota, h3]⟩
      · intro i hi t
        obtain rfl : i = 0 := by simp only [jsonSetup, List.length_singleton] at hi; omega
        obtain ⟨t', h1, h2, h3⟩ := again 3 t (by omega)
        exact ⟨t', h1, by rw [hfar t' h2]; simp [rota, h3]⟩
      · intro t
        obtain ⟨t', h1, h2, h3⟩ := again 4 t (by omega)
        exact ⟨t', h1, by rw [hfar t' h2]; simp [rota, h3]⟩)
    (by
      intro t n x
      rw [Crash.run_net]
      exact Net.shutdowns_kept 0 (fun _ => .inl fun _ => rfl) t n x)
    (fun _ _ _ _ _ => ⟨0, rfl⟩) ⟨5, rfl⟩ _ json_governed
  refine ⟨(key _ (by decide)).2 (.source ['s'] _ (by decide) ⟨[['f'], ['k']], by decide, by decide⟩), fun h => ?_⟩
  have only : ∀ u, Forwards jsonWays u ['l'] → u = ['f'] := by
    rintro u ⟨fs, h1, h2⟩
    simp only [jsonWays, List.nil_append, List.cons_append, List.append_nil, List.mem_cons, List.not_mem_nil, or_false, Prod.mk.injEq] at h1
    rcases h1 with ⟨rfl, rfl⟩ | ⟨rfl, rfl⟩
    · rfl
    · exact absurd h2 (by decide)
  cases (key _ (by decide)).1 h with
  | source s _ h1 h2 => obtain rfl := only s h2; exact absurd h1 (by decide)
  | filter f _ _ h1 h2 =>
    obtain rfl := only f h2
    exact h1 ⟨1, [], (.source 0, .log ⟨9000000000000, [], [], [], none⟩), [], by rfl, ⟨rfl, _, rfl, by decide⟩, by simp⟩

end Verif
