import Verif.Lemmas.NetNames
import Verif.Lemmas.NetLog
import Verif.Props.Pipeline
import Verif.Props.SinkImpls
/-!
# C92: the process exits

Theorems range over every configuration and every infinite schedule of the threads.
-/
namespace Verif
open Net Topology
variable {F : Type} [F64 F]

/-- **C92, partial.**  Once a signal has arrived the process exits, whatever the interleaving of its threads: exactly if
every sink and filter is fed by some source, directly or through filters; and whatever queues are full, as long as that does not
cost a `Shutdown`; of sinks whose valves, as far as this run takes them, open once they are flushed often enough.  Missing: configurations with sinks or filters that no source feeds, and with file sources of the same path, and
`Shutdown`s sent to a full queue, see the next theorems and `C92_lost_shutdown_false`. -/
theorem C92_exits_run_partial (c : Config) (hd : Distinct c) (p : Setup F) (hp : SetUp c p) (ls : Nat → Label F)
    (hre : ∀ n ∈ c.sinks, ValveReopens p ls n) (hf : Fair p ls) (hk : ShutdownsKept p ls) (hsig : ∃ t, ls t = .signal) :
    (∃ t, (run p ls t).main = .exited) ↔ ∀ n, HasChannel c n → Fed c n := by
  have hw := hp.wired
  obtain ⟨w1, w2, -⟩ := C57_mutual c hd _ hw
  have hstop : ∀ i, i ∈ p.stopOrder ↔ i < p.wiring.sources.length := by
    intro i
    rw [hp.stopOrder.mem_iff, handles_all (names hd hw).2.2.1, List.mem_range]
  have hjoin := fun n => hp.joinOrder.mem_iff (a := n)
  have hL := linked hd hw
  constructor
  · rintro ⟨t, ht⟩ n hn
    apply Classical.byContradiction
    intro hfed
    rw [← node_iff hd hw] at hn
    refine hangs (p := p) (ls := ls) ?_ ?_ ((hjoin n).2 hn) (fun h => hfed ((fed_iff hd hw hstop n).1 h)) t ht
    · intro m hm; exact hp.filters m (w2 ▸ hm)
    · rcases List.mem_append.1 hn with h | h
      · obtain ⟨ups, h⟩ := mem_fst h
        rw [hL.sinkNode n ups h]; rfl
      · obtain ⟨⟨ups, downs⟩, h⟩ := mem_fst h
        rw [hL.filterNode n ups downs h]; rfl
  · intro hall
    refine Net.exits hL hk hf.nodes hf.main hf.sources hsig ?_ hstop hjoin ?_ ?_
    · intro n h
      have hc : HasChannel c n := by
        have hchan := ((C58_starts_partial c hd).1 ⟨_, hw⟩).1
        cases (fed_iff hd hw hstop n).1 h with
        | source s _ _ hf => exact hchan s n hf
        | filter g _ _ hf => exact hchan g n hf
      rw [← node_iff hd hw] at hc
      rcases List.mem_append.1 hc with h | h
      · exact .inr (mem_fst h)
      · obtain ⟨⟨a, b⟩, h⟩ := mem_fst h; exact .inl ⟨a, b, h⟩
    · intro n hn; exact hre n (w1 ▸ hn)
    · intro n hn
      exact (fed_iff hd hw hstop n).2 (hall n ((node_iff hd hw n).1 hn))

/-- **C92, partial (whatever the schedule).**  The same of sinks that flushing opens in whatever they may get. -/
theorem C92_exits_partial (c : Config) (hd : Distinct c) (p : Setup F) (hp : SetUp c p) (hre : SinksReopen c p) (ls : Nat → Label F)
    (hf : Fair p ls) (hk : ShutdownsKept p ls) (hsig : ∃ t, ls t = .signal) :
    (∃ t, (run p ls t).main = .exited) ↔ ∀ n, HasChannel c n → Fed c n := by
  refine C92_exits_run_partial c hd p hp ls (fun n hn => ?_) hf hk hsig
  obtain ⟨ups, hm⟩ := mem_fst ((C57_mutual c hd _ hp.wired).1 ▸ hn)
  exact valve_of_reopens (linked hd hp.wired) hm (hre n hn)

/-- **C92 (orderly).**  The process does not exit before a signal has arrived, every source has returned, and every sink and filter
has. -/
theorem C92_orderly (c : Config) (hd : Distinct c) (p : Setup F) (hp : SetUp c p) (ls : Nat → Label F) (t : Nat)
    (h : (run p ls t).main = .exited) :
    (∃ t' < t, ls t' = .signal) ∧ (∀ i < p.wiring.sources.length, i ∈ (run p ls t).ended) ∧
    ∀ n, HasChannel c n → ∃ nd, (run p ls t).nodes n = some nd ∧ nd.returned = true := by
  have hw := hp.wired
  have hL := linked hd hw
  refine ⟨(signal_seen t).1 ((signal_seen t).2 (by rw [h]; intro h; cases h)), ?_, ?_⟩
  · intro i hi
    refine (stopped ?_ t).2.2 h
    rw [hp.stopOrder.mem_iff, handles_all (names hd hw).2.2.1, List.mem_range]
    exact hi
  · intro n hn
    rw [← node_iff hd hw] at hn
    refine (joined ?_ (hp.joinOrder.mem_iff.2 hn) t).2 h
    refine present ?_
    rcases List.mem_append.1 hn with h | h
    · obtain ⟨ups, h⟩ := mem_fst h
      rw [hL.sinkNode n ups h]; rfl
    · obtain ⟨⟨ups, downs⟩, h⟩ := mem_fst h
      rw [hL.filterNode n ups downs h]; rfl

/-- **C92 is false** of sinks that no source feeds, whatever the schedule: here of a sink `l` that no `forwards` names. -/
theorem C92_unfed_false : ∃ c : Config, Distinct c ∧ (∃ w, wire c = .ok w) ∧
    ∀ p : Setup F, SetUp c p → ∀ ls t, (run p ls t).main ≠ .exited := by
  refine ⟨⟨[['k'], ['l']], [], [], [(['s'], [['k']])]⟩, by decide, ⟨_, rfl⟩, ?_⟩
  intro p hp ls t
  have hw := hp.wired
  have hwir : p.wiring = ⟨[(['k'], [['s']]), (['l'], [])], [], [(['s'], [['k']])], [['k']]⟩ := by
    exact (Except.ok.inj hw).symm
  refine hangs (p := p) (ls := ls) (n := ['l']) ?_ ?_ ?_ ?_ t
  · rw [hwir]; intro n hn; cases hn
  · simp only [initial, hwir]; rfl
  · rw [hp.joinOrder.mem_iff, hwir]; decide
  · intro h
    cases h with
    | source i u ch n h1 h2 h3 =>
      rw [hwir] at h2
      match i with
      | 0 => cases h2; revert h3; decide
      | i + 1 => cases h2
    | filter f ups ch n h1 => rw [hwir] at h1; cases h1

/-- **C92 is false** of two file sources with the same path (`C88_same_path_false`): here the sources named `f`, which feed different sinks.  Only the handle of the
second is kept, so that the first is never shut down and `main` waits for its sink for ever, whatever the schedule. -/
theorem C92_same_file_false : ∃ c : Config, (∃ w, wire c = .ok w) ∧ (∀ n, HasChannel c n → Fed c n) ∧
    ∀ p : Setup F, SetUp c p → ∀ ls t, (run p ls t).main ≠ .exited := by
  refine ⟨⟨[['k'], ['l']], [], [], [(['f'], [['k']]), (['f'], [['l']])]⟩, ⟨_, rfl⟩, ?_, ?_⟩
  · rintro n (h | ⟨fs, h⟩)
    · refine .source ['f'] n (by decide) ⟨[n], ?_, by simp⟩
      simp only [List.mem_cons, List.not_mem_nil, or_false] at h
      rcases h with rfl | rfl <;> decide
    · cases h
  · intro p hp ls t
    have hwir : p.wiring = ⟨[(['k'], [['f']]), (['l'], [['f']])], [], [(['f'], [['k']]), (['f'], [['l']])], [['k'], ['l']]⟩ := by
      exact (Except.ok.inj hp.wired).symm
    have hstop : ∀ i, i ∈ p.stopOrder → i = 1 := by
      intro i hi
      rw [hp.stopOrder.mem_iff, hwir] at hi
      have : (handles ⟨[(['k'], [['f']]), (['l'], [['f']])], [], [(['f'], [['k']]), (['f'], [['l']])], [['k'], ['l']]⟩).map (·.2) = [1] := by
        rfl
      rw [this] at hi
      simpa using hi
    refine hangs (p := p) (ls := ls) (n := ['k']) ?_ ?_ ?_ ?_ t
    · rw [hwir]; intro n hn; cases hn
    · simp only [initial, hwir]; rfl
    · rw [hp.joinOrder.mem_iff, hwir]; decide
    · intro h
      cases h with
      | source i u ch n h1 h2 h3 =>
        rw [hwir] at h2
        obtain rfl := hstop i h1
        cases h2; revert h3; decide
      | filter f ups ch n h1 => rw [hwir] at h1; cases h1

/-- **C92 (sinks), partial.**  The premise `SinksReopen` holds of these sinks whenever none of their calls panics or is stuck:
`Null`, console and native sinks never refuse events, and an InfluxDB sink accepts them again after its next flush.  Missing:
sinks whose destination stays away (`C92_elasticsearch_down_false`) and Wavefront sinks with many gauges (`C72_flush_reopens_false`). -/
theorem C92_reopens_partial :
    Reopens (nullImpl (F := F)) () ∧
    (∀ bits interval os start, (∀ s, Reaches (nativeImpl (F := F) bits interval os) start s → s.isSome) →
      Reopens (nativeImpl bits interval os) start) ∧
    (∀ ext interval clock stamps start, (∀ s, Reaches (consoleImpl (F := F) ext interval clock stamps) start s → s.isSome) →
      Reopens (consoleImpl ext interval clock stamps) start) ∧
    ∀ ext interval os start, (∀ s, Reaches (influxImpl (F := F) ext interval os) start s → s.isSome) →
      Reopens (influxImpl ext interval os) start := by
  refine ⟨fun s _ => ⟨0, rfl⟩, fun bits interval os start h s hs => ⟨0, h s hs⟩,
    fun ext interval clock stamps start h s hs => ⟨0, h s hs⟩, fun ext interval os start h s hs => ⟨1, ?_⟩⟩
  have h1 := h _ (Reaches.flush _ hs)
  obtain ⟨g, hg⟩ := Option.isSome_iff_exists.1 h1
  simp only [flushes]
  rw [hg]
  simp only [influxImpl, Option.bind_eq_some_iff] at hg
  obtain ⟨g0, rfl, hg⟩ := hg
  split at hg
  · rename_i s' wire hfl
    simp only [Option.some.injEq] at hg
    subst hg
    simp only [Influx.flush] at hfl
    split at hfl
    · cases hfl
    · simp only [Option.some.injEq, Prod.mk.injEq] at hfl
      obtain ⟨rfl, -, hd⟩ := hfl
      simp [influxImpl, Influx.valveOpen, hd]
  · cases hg

/-- What an Elasticsearch sink with 10001 lines, or with enough of them in front of its queue, looks like. -/
private def Full (rest : List (Option (Event F)))
    (r : SinkRun F (Option (Hosted Elastic.State (List Elastic.Line × Elastic.Response)))) : Prop :=
  r.returned = false ∧ ∃ h, r.state = some h ∧ (10001 ≤ h.state.buffer.length ∨
    (∃ ls : List LogLine, 10001 ≤ h.state.buffer.length + ls.length ∧ r.current = none ∧
      r.queue = ls.map (fun l => some (.log l)) ++ rest) ∨
    ∃ (l : LogLine) (ls : List LogLine), 10001 ≤ h.state.buffer.length + ls.length + 1 ∧ r.current = some (.log l) ∧
      r.queue = ls.map (fun l => some (.log l)) ++ rest)

private theorem full_step (ext : Elastic.Ext) (hx : ∀ t, (ext.date t).isSome ∧ (ext.time t).isSome) (interval : Nat)
    (resps : Nat → Elastic.Response) (hr : ∀ k, resps k = .sendError) (uuids : Nat → Nat) (sources : Nat) (rest)
    (r : SinkRun F _) (h : Full rest r) :
    Full rest (r.step (elasticImpl ext interval resps uuids) sources) := by
  have hdocs : ∀ (s : Elastic.State) (ms : List Elastic.Line), (Elastic.docsOf ext s ms).isSome := by
    intro s ms
    induction ms with
    | nil => rfl
    | cons m ms ih =>
      obtain ⟨a, ha⟩ := Option.isSome_iff_exists.1 ih
      obtain ⟨d, hd⟩ := Option.isSome_iff_exists.1 (hx m.line.time).1
      obtain ⟨t, ht⟩ := Option.isSome_iff_exists.1 (hx m.line.time).2
      simp [Elastic.docsOf, Elastic.docOf, Elastic.indexName, ha, hd, ht]
  have hflush : ∀ g : Hosted Elastic.State (List Elastic.Line × Elastic.Response), ∃ g',
      (elasticImpl (F := F) ext interval resps uuids).flush (some g) = some g' ∧ g'.state.buffer = g.state.buffer := by
    intro g
    by_cases hb : g.state.buffer = []
    · exact ⟨{ state := g.state, calls := g.calls + 1, log := g.log ++ [(g.state.buffer, resps g.calls)] },
        by simp [elasticImpl, Elastic.flush, hb], rfl⟩
    · obtain ⟨ds, hds⟩ := Option.isSome_iff_exists.1 (hdocs g.state g.state.buffer)
      exact ⟨{ state := g.state, calls := g.calls + 1, log := g.log ++ [(g.state.buffer, resps g.calls)] },
        by simp [elasticImpl, Elastic.flush, Elastic.bulkBody, hb, hds, hr], rfl⟩
  have hvalve : ∀ g : Hosted Elastic.State (List Elastic.Line × Elastic.Response),
      (elasticImpl (F := F) ext interval resps uuids).valveOpen (some g) = decide (g.state.buffer.length ≤ 10000) := by
    intro g
    simp only [elasticImpl, Option.map_some, Option.getD_some, Elastic.valveOpen]
    by_cases hb : g.state.buffer.length ≤ 10000
    · rw [decide_eq_true hb, decide_eq_false (by omega)]; rfl
    · rw [decide_eq_false hb, decide_eq_true (by omega)]; rfl
  obtain ⟨state, queue, current, last, total, returned, calls⟩ := r
  obtain ⟨h0, g, hg, h⟩ := h
  simp only at h0 hg h
  subst h0 hg
  by_cases hfull : 10001 ≤ g.state.buffer.length
  · obtain ⟨g', hg1, hg2⟩ := hflush g
    cases current with
    | some e =>
      simp only [SinkRun.step, hvalve, decide_eq_false (show ¬ g.state.buffer.length ≤ 10000 by omega)]
      exact ⟨rfl, g', hg1, .inl (hg2 ▸ hfull)⟩
    | none =>
      rcases queue with _ | ⟨_ | e, q⟩ <;> simp only [SinkRun.step] <;> exact ⟨rfl, g, rfl, .inl hfull⟩
  · have hopen : (elasticImpl (F := F) ext interval resps uuids).valveOpen (some g) = true := by
      rw [hvalve, decide_eq_true (by omega)]
    rcases h with h | ⟨ls, h1, rfl, rfl⟩ | ⟨l, ls, h1, rfl, rfl⟩
    · exact absurd h hfull
    · cases ls with
      | nil => exact absurd h1 (by simpa using hfull)
      | cons l ls =>
        simp only [SinkRun.step, List.map_cons, List.cons_append]
        exact ⟨rfl, g, rfl, .inr (.inr ⟨l, ls, by simpa [Nat.add_assoc] using h1, rfl, rfl⟩)⟩
    · simp only [SinkRun.step, hopen, if_true, SinkRun.handle]
      refine ⟨rfl, _, rfl, .inr (.inl ⟨ls, ?_, rfl, rfl⟩)⟩
      simp only [Elastic.deliverLine, List.length_append, List.length_singleton]
      omega

/-- **C92 is false** while Elasticsearch is away: an Elasticsearch sink that has received 10001 lines by then
does not return, however long it runs and whatever it receives after them — `Shutdown`s included. -/
theorem C92_elasticsearch_down_false (ext : Elastic.Ext) (hx : ∀ t, (ext.date t).isSome ∧ (ext.time t).isSome)
    (interval : Nat) (resps : Nat → Elastic.Response) (hr : ∀ k, resps k = .sendError) (uuids : Nat → Nat) (limit : Nat)
    (pfx : Option Str) (type : Str) (tags : TagMap) (sources : Nat) (lines : List LogLine) (hl : lines.length = 10001)
    (rest : List (Option (Event F))) (n : Nat) :
    (SinkRun.steps (elasticImpl ext interval resps uuids) sources n
      { state := some { state := Elastic.init limit pfx type tags },
        queue := lines.map (fun l => some (.log l)) ++ rest }).returned = false := by
  have key : ∀ (n : Nat) (r : SinkRun F _), Full rest r →
      Full rest (SinkRun.steps (elasticImpl ext interval resps uuids) sources n r) := by
    intro n
    induction n with
    | zero => intro r h; exact h
    | succ n ih => intro r h; exact ih _ (full_step ext hx interval resps hr uuids sources rest r h)
  exact (key n _ ⟨rfl, _, rfl, .inr (.inl ⟨lines, by omega, rfl, rfl⟩)⟩).1

/-! A process with a filter: source `s` feeds filter `f`, which feeds sinks `k` and `l`. -/

/-- An example: a source, a filter and two sinks. -/
def forked : Config := ⟨[['k'], ['l']], [(['f'], [['k'], ['l']])], [], [(['s'], [['f']])]⟩

/-- The example, set up. -/
def forkedSetup : Setup Int where
  wiring := ⟨[(['k'], [['f']]), (['l'], [['f']])], [(['f'], [['s']], [['k'], ['l']])], [(['s'], [['f']])], [['f']]⟩
  filter _ := ⟨_, delayProcess, 10⟩
  sink _ := ⟨Unit, nullImpl, ()⟩
  stopOrder := [0]
  joinOrder := [['k'], ['l'], ['f']]

/-- Everyone in turn, with a signal now and then. -/
def rota (t : Nat) : Label Int :=
  match t % 6 with
  | 0 => .act ['k'] 0
  | 1 => .act ['l'] 0
  | 2 => .act ['f'] 0
  | 3 => .stop 0
  | 4 => .main
  | _ => .signal

private theorem rota_again (r t : Nat) (hr : r < 6) : ∃ t' ≥ t, t' % 6 = r :=
  ⟨6 * t + r, by omega, by omega⟩

theorem forked_setUp : SetUp forked forkedSetup := by
  refine ⟨rfl, by decide, by decide, ?_⟩
  intro n _; exact (C63_filters_proper 10 0 ⟨fun _ => none, fun _ => [], fun _ => []⟩ ⟨false, [], id, 0⟩
      (L := Unit) (fun _ _ q => ((), .ok q)) (fun _ => .timerFlush 0) (fun _ => rfl) (fun _ q => ⟨q, rfl⟩) ⟨(), 0, []⟩).1

example : Distinct forked ∧ SetUp forked forkedSetup ∧ SinksReopen forked forkedSetup ∧ Fair forkedSetup rota ∧ ShutdownsKept forkedSetup rota ∧
    (∃ t, rota t = .signal) ∧ ∀ n, HasChannel forked n → Fed forked n := by
  refine ⟨by decide, forked_setUp, fun _ _ s _ => ⟨0, rfl⟩, ⟨?_, ?_, ?_⟩, shutdowns_kept 0 fun _ => .inl fun _ => rfl, ⟨5, rfl⟩, ?_⟩
  · intro n hn t
    have : n = ['k'] ∨ n = ['l'] ∨ n = ['f'] := by simpa [forkedSetup] using hn
    rcases this with rfl | rfl | rfl
    · obtain ⟨t', h1, h2⟩ := rota_again 0 t (by omega)
      exact ⟨t', h1, 0, by simp [rota, h2]⟩
    · obtain ⟨t', h1, h2⟩ := rota_again 1 t (by omega)
      exact ⟨t', h1, 0, by simp [rota, h2]⟩
    · obtain ⟨t', h1, h2⟩ := rota_again 2 t (by omega)
      exact ⟨t', h1, 0, by simp [rota, h2]⟩
  · intro i hi t
    obtain rfl : i = 0 := by simp only [forkedSetup, List.length_singleton] at hi; omega
    obtain ⟨t', h1, h2⟩ := rota_again 3 t (by omega)
    exact ⟨t', h1, by simp [rota, h2]⟩
  · intro t
    obtain ⟨t', h1, h2⟩ := rota_again 4 t (by omega)
    exact ⟨t', h1, by simp [rota, h2]⟩
  · have hf : Fed forked ['f'] := .source ['s'] ['f'] (by decide) ⟨[['f']], by decide, by decide⟩
    rintro n (h | ⟨fs, h⟩)
    · refine .filter ['f'] n hf ⟨[['k'], ['l']], by decide, h⟩
    · simp only [forked, List.mem_singleton, Prod.mk.injEq] at h
      obtain ⟨rfl, -⟩ := h
      exact hf

/-- The same process, run: it exits. -/
example : (run forkedSetup rota 100).main = .exited := by decide +kernel

end Verif
