import Verif.Lemmas.Pipeline
import Verif.Props.Filter
/-!
# C63, C84: graceful shutdown of a pipeline

Theorems range over every schedule of the sources, the flush timer, the filters and the sink.
-/
namespace Verif
open Pipeline
variable {F : Type} [F64 F] {κ : Type}

/-- **C63 (safety).**  One source sends the events `es` and then a `Shutdown` into any chain of filters
ending in any sink.  Whatever the scheduling, once the sink has shut down: the first stage received
`es`, with pulses of the timer somewhere in between; and the sink was given, in order and once each,
exactly the payloads among what the filters make of that; after which it was shut down, once, and not
used again. -/
theorem C63_delivered (k : SinkImpl F κ) (iv : Option Nat) (hiv : ∀ s, k.flushInterval s = iv)
    (fs : List (FilterCode F)) (hp : ∀ f ∈ fs, Proper f) (st : κ) (es : List (Event F))
    (hes : ∀ e ∈ es, Sendable e) (ls : List Label) (s : State F κ)
    (hr : run k (sinkUpstreams 1 fs) (initial st fs [es ++ [.shutdown]]) ls = some s)
    (hret : s.pipe.theSink.returned = true) :
    ∃ received out, received.filter notPulse = es ∧ Through fs received out ∧
      deliveredBy s.pipe.theSink.calls = out.filter Event.isPayload ∧
      shutdownsBy s.pipe.theSink.calls = 1 ∧
      ∃ cs b, s.pipe.theSink.calls = cs ++ [.shutdown b] := by
  obtain ⟨input, h1, tagged, t1, t2, t3, t4⟩ := inv_reachable hiv _ fs _ st ls s hr
  obtain ⟨before, after, out, e1, e2, e3, e4⟩ := h1.returned hp hret
  refine ⟨before, out, ?_, e3, e4⟩
  -- the tagged input, without pulses, is a prefix of what the source sends
  have h0 := t4 0
  simp only [List.getElem?_cons_zero, Option.getD_some] at h0
  have hother : ∀ i, i ≠ 0 → tagged.filter (·.1 == some i) = [] := by
    intro i hi
    have := t4 i
    cases i with
    | zero => exact absurd rfl hi
    | succ i =>
      simp only [List.getElem?_cons_succ, List.getElem?_nil, Option.getD_none] at this
      have := this.symm
      rw [List.append_eq_nil_iff, List.map_eq_nil_iff] at this
      exact this.1
  have hfil : ∀ t ∈ tagged, (t.1 == some 0) = notPulse t.2 := by
    intro t ht
    rcases hti : t.1 with _ | i
    · simp [notPulse, t2 t ht hti]
    · by_cases hi : i = 0
      · subst hi
        have hm : t.2 ∈ es ++ [.shutdown] := by
          rw [h0]
          refine List.mem_append_left _ (List.mem_map_of_mem ?_)
          exact List.mem_filter.2 ⟨ht, by simp [hti]⟩
        have : t.2.isTimerFlush = false := by
          rcases List.mem_append.1 hm with h | h
          · exact (hes _ h).2
          · simp at h; rw [h]; rfl
        simp [notPulse, this]
      · have := hother i hi
        have hm : t ∈ tagged.filter (·.1 == some i) := List.mem_filter.2 ⟨ht, by simp [hti]⟩
        rw [this] at hm
        simp at hm
  have hin : input.filter notPulse = (tagged.filter (·.1 == some 0)).map Prod.snd := by
    rw [← t1, List.filter_map]
    congr 1
    exact (List.filter_congr hfil).symm
  rw [← hin, e1, List.filter_append, List.filter_cons_of_pos (by rfl), List.append_assoc,
    List.cons_append] at h0
  refine (first_shutdown_unique h0 ?_ ?_).symm
  · intro e he; exact (hes e he).1
  · intro e he; exact e2 e ((List.mem_filter.1 he).1)

/-- **C63 (no deadlock).**  If enough flushes always reopen the sink's valve, then from every reachable state the
threads can carry on until the sink has shut down. -/
theorem C63_completes (k : SinkImpl F κ) (iv : Option Nat) (hiv : ∀ s, k.flushInterval s = iv)
    (hopen : ∀ s, ∃ n, k.valveOpen (flushes k n s) = true)
    (fs : List (FilterCode F)) (hp : ∀ f ∈ fs, Tidy f.process) (st : κ) (es : List (Event F))
    (ls : List Label) (s : State F κ)
    (hr : run k (sinkUpstreams 1 fs) (initial st fs [es ++ [.shutdown]]) ls = some s) :
    ∃ more s', run k (sinkUpstreams 1 fs) s more = some s' ∧ s'.pipe.theSink.returned = true := by
  have run_append : ∀ (a b : List Label) (s : State F κ), run k (sinkUpstreams 1 fs) s (a ++ b) =
      (run k (sinkUpstreams 1 fs) s a).bind fun s => run k (sinkUpstreams 1 fs) s b := by
    intro a
    induction a with
    | nil => intro b s; rfl
    | cons l a ih =>
      intro b s
      simp only [List.cons_append, run]
      cases step k (sinkUpstreams 1 fs) s l with
      | none => rfl
      | some s => exact ih b s
  -- let the source finish
  have fin : ∀ (rem : List (Event F)) (p : Pipe F κ), ∃ more p',
      run k (sinkUpstreams 1 fs) { sources := [rem], pipe := p } more =
        some { sources := [[]], pipe := p' } := by
    intro rem
    induction rem with
    | nil => intro p; exact ⟨[], p, rfl⟩
    | cons e rem ih =>
      intro p
      obtain ⟨more, p', hm⟩ := ih (p.push e)
      exact ⟨.source 0 :: more, p', by simpa [run, step] using hm⟩
  obtain ⟨input, h1, h2⟩ := inv_reachable hiv _ fs _ st ls s hr
  have hlen : s.sources.length = 1 := h2.choose_spec.2.2.1
  obtain ⟨rem, hrem⟩ := List.length_eq_one_iff.1 hlen
  have hs : s = { sources := [rem], pipe := s.pipe } := by rw [← hrem]
  obtain ⟨more, p', hm⟩ := fin rem s.pipe
  rw [← hs] at hm
  obtain ⟨more2, g1, tagged, g2, g3, g4, g5⟩ := inv_run hiv _ fs _ more s _ input h1 h2 hm
  have hin : .shutdown ∈ input ++ more2 := by
    have h0 := g5 0
    simp only [List.getElem?_cons_zero, Option.getD_some, List.append_nil] at h0
    rw [← g2]
    have : .shutdown ∈ (tagged.filter (·.1 == some 0)).map Prod.snd := by rw [← h0]; simp
    obtain ⟨t, ht, he⟩ := List.mem_map.1 this
    exact he ▸ List.mem_map_of_mem ((List.mem_filter.1 ht).1)
  obtain ⟨p2, g6, g7⟩ := pipe_completes hopen hiv (sinkUpstreams 1 fs) fs hp p' _ g1 hin
  obtain ⟨ls2, g8⟩ := g6.schedule [[]]
  exact ⟨more ++ ls2, _, by rw [run_append, hm]; exact g8, g7⟩

/-- A `Tidy` filter is `Proper` if a step from any state satisfying `P` leads to such a state and emits no
`Shutdown`. -/
theorem properOf {f : FilterCode F} (ht : Tidy f.process) (P : f.σ → Prop) (hst : P f.start)
    (hstep : ∀ now st e, P st → e.isShutdown = false → P (f.process now st e []).1 ∧
      (∀ x ∈ (f.process now st e []).2.1, x.isShutdown = false) ∧
      ∀ fe, (f.process now st e []).2.2 = .error fe → fe.isShutdown = false) : Proper f := by
  refine ⟨ht, ?_⟩
  intro ins
  have key : ∀ (st : f.σ), P st → (∀ i ∈ ins, i.2.isShutdown = false) →
      ∀ e ∈ expectedSent f.process st (ins.map some), e.isShutdown = false := by
    induction ins with
    | nil => intro st _ _ e he; simp [expectedSent] at he
    | cons i ins ih =>
      obtain ⟨now, ev⟩ := i
      intro st hP hn e he
      have hev := hn _ List.mem_cons_self
      rw [List.map_cons, expectedSent_event _ _ _ _ hev] at he
      obtain ⟨h1, h2, h3⟩ := hstep now st ev hP hev
      have ih' := ih _ h1 (fun i hi => hn i (List.mem_cons_of_mem _ hi))
      rcases hq : f.process now st ev [] with ⟨st', out, res⟩
      rw [hq] at he h1 h2 h3 ih'
      cases res with
      | ok u =>
        simp only at he
        rcases List.mem_append.1 he with he | he
        · exact h2 e he
        · exact ih' e he
      | error fe =>
        simp only at he
        rcases List.mem_cons.1 he with rfl | he
        · exact h3 e rfl
        · exact ih' e he
  exact key f.start hst

private theorem proper_keeps {f : FilterCode F} (ht : Tidy f.process) (hk : KeepsShutdowns f.process) :
    Proper f := by
  refine properOf ht (fun _ => True) trivial (fun now st e _ he => ⟨trivial, ?_, (hk now st e [] he).2⟩)
  have := (hk now st e [] he).1
  simp only [List.countP_nil, List.countP_eq_zero] at this
  intro x hx
  simpa using this x hx

private theorem split_events (tol : Nat) (hs : List (Hold F)) (P : Event F → Prop)
    (h : ∀ x ∈ hs, ∀ e ∈ x.events, P e) :
    (∀ e ∈ (FlushBoundary.split tol hs).1, P e) ∧
      ∀ x ∈ (FlushBoundary.split tol hs).2, ∀ e ∈ x.events, P e := by
  induction hs with
  | nil => simp [FlushBoundary.split]
  | cons a hs ih =>
    have ih := ih (fun x hx => h x (List.mem_cons_of_mem _ hx))
    have ha := h a List.mem_cons_self
    simp only [FlushBoundary.split]
    split
    · refine ⟨?_, ih.2⟩
      intro e he
      rcases List.mem_append.1 he with he | he
      · exact ha e he
      · exact ih.1 e he
    · refine ⟨ih.1, ?_⟩
      intro x hx
      rcases List.mem_cons.1 hx with rfl | hx
      · exact ha
      · exact ih.2 x hx

private theorem boundary_proper (tol : Nat) :
    Proper (F := F) ⟨_, flushBoundaryProcess, { tolerance := tol }⟩ := by
  refine properOf (C17_builtin_filters_tidy ⟨fun _ => none, fun _ => [], fun _ => []⟩).2.1
    (fun s => ∀ x ∈ s.holds, ∀ e ∈ x.events, e.isShutdown = false) (by simp) ?_
  intro now s e hP he
  simp only [flushBoundaryProcess]
  split
  · have := split_events s.tolerance (s.holds.map fun h => { h with age := h.age + 1 })
      (fun e => e.isShutdown = false) (by
        intro x hx
        obtain ⟨y, hy, rfl⟩ := List.mem_map.1 hx
        exact hP y hy)
    refine ⟨this.2, ?_, by simp⟩
    intro x hx
    simp only [List.nil_append, List.mem_append, List.mem_singleton] at hx
    rcases hx with hx | rfl
    · exact this.1 x hx
    · exact he
  · split
    · exact ⟨hP, by simp, by simp⟩
    · split
      · refine ⟨?_, by simp, by simp⟩
        intro x hx
        rw [List.mem_iff_getElem?] at hx
        obtain ⟨i, hi⟩ := hx
        rw [List.getElem?_modify] at hi
        cases hy : s.holds[i]? with
        | none => simp [hy] at hi
        | some y =>
          have hy' := hP y (List.mem_of_getElem? hy)
          simp only [hy] at hi
          intro z hz
          split at hi <;> simp at hi <;> subst hi
          · rcases List.mem_append.1 hz with hz | hz
            · exact hy' z hz
            · simp at hz; subst hz; exact he
          · exact hy' z hz
      · refine ⟨?_, by simp, by simp⟩
        rename_i idx _
        intro x hx
        by_cases hi : idx ≤ s.holds.length
        · rcases (List.mem_insertIdx hi).1 hx with rfl | hx
          · intro z hz; simp at hz; subst hz; exact he
          · exact hP x hx
        · rw [List.insertIdx_of_length_lt (by omega)] at hx
          exact hP x hx

/-- The delay, flush-boundary and JSON filters, whatever their configuration, are `Proper`; so is the programmable filter if
its script's `tick` never fails. -/
theorem C63_filters_proper (tolerance : Int) (holdFor : Nat) (x : JsonExt) (json : JsonEncode) {L : Type}
    (script : Script F L) (fail : LuaFn → Event F) (hfail : ∀ fn, (fail fn).isShutdown = false)
    (htick : ∀ l p, ∃ q, (script l .tick p).2 = .ok q) (start : Programmable F L) :
    Proper (F := F) ⟨_, delayProcess, tolerance⟩ ∧
      Proper (F := F) ⟨_, flushBoundaryProcess, { tolerance := holdFor }⟩ ∧
      Proper (F := F) ⟨_, jsonProcess x, json⟩ ∧
      Proper (F := F) ⟨_, programmableProcess script fail, start⟩ :=
  ⟨proper_keeps (C17_builtin_filters_tidy x).1 (C16_builtin_filters_keep_shutdowns x script fail hfail).1,
   boundary_proper holdFor,
   proper_keeps (C17_builtin_filters_tidy x).2.2 (C16_builtin_filters_keep_shutdowns x script fail hfail).2.1,
   proper_keeps (C17_programmable_tidy_partial script fail htick)
     (C16_builtin_filters_keep_shutdowns x script fail hfail).2.2⟩

/-! ## Several sources -/

/-- **C84, partial.**  With any number of sources into the first stage: when the sink has shut down, it
has been given what the filters make of everything that arrived at the first stage before the first
`Shutdown` of any source.  Missing: what the other sources sent after that (`C84_loses_events_false`). -/
theorem C84_partial (k : SinkImpl F κ) (iv : Option Nat) (hiv : ∀ s, k.flushInterval s = iv)
    (fs : List (FilterCode F)) (hp : ∀ f ∈ fs, Proper f) (st : κ) (evs : List (List (Event F)))
    (ls : List Label) (s : State F κ)
    (hr : run k (sinkUpstreams evs.length fs) (initial st fs evs) ls = some s)
    (hret : s.pipe.theSink.returned = true) :
    ∃ before after out, Interleaved evs s.sources (before ++ .shutdown :: after) ∧
      (∀ e ∈ before, e.isShutdown = false) ∧ Through fs before out ∧
      deliveredBy s.pipe.theSink.calls = out.filter Event.isPayload := by
  obtain ⟨input, h1, h2⟩ := inv_reachable hiv _ fs _ st ls s hr
  obtain ⟨before, after, out, e1, e2, e3, e4, -⟩ := h1.returned hp hret
  exact ⟨before, after, out, by rw [← e1]; exact h2, e2, e3, e4⟩

/-- A sink that is always open and does nothing. -/
def idleSink : SinkImpl Int Unit :=
  { valveOpen := fun _ => true, flushInterval := fun _ => none, deliver := fun s _ => s,
    deliverLine := fun s _ => s, deliverRaw := fun s _ => s, flush := id, shutdown := id }

/-- C84 does not hold: two sources feed one filter in front of a sink.  The first shuts down; the filter
passes its `Shutdown` on although the other source is still running, and the sink, which has one upstream, shuts
down.  The line the second source then sends, before its own `Shutdown`, goes through the filter and is
never delivered: everything has been sent and processed, the filter has returned, and the line sits
in the queue of a sink that is gone. -/
theorem C84_loses_events_false (l : LogLine) :
    ∃ (ls : List Label) (s : State Int Unit),
      run idleSink 1 (initial () [⟨_, jsonProcess ⟨fun _ => none, fun _ => [], fun _ => []⟩,
          { parseLine := false, tags := [], rand := id }⟩]
        [[.shutdown], [.log l, .shutdown]]) ls = some s ∧
      s.sources = [[], []] ∧ s.pipe.theSink.returned = true ∧
      deliveredBy s.pipe.theSink.calls = [] ∧
      (arrivals s.pipe.theSink.queue).map Event.isPayload = [true, false] ∧
      ∃ f q r rest, s.pipe = .filter f 2 q r rest ∧ q = [] ∧ r.finished = true :=
  ⟨[.source 0, .stage 0 0, .stage 1 0, .stage 1 0, .source 1, .stage 0 0, .source 1, .stage 0 0], _, rfl, rfl,
    rfl, rfl, rfl, _, _, _, _, rfl, rfl, rfl⟩

/-- Non-vacuity of C63: two filters, three events, pulses in between, an interleaved schedule. -/
example : ∃ s : State Int Unit, run idleSink 1 (initial () [⟨_, delayProcess, 10⟩, ⟨_, delayProcess, 5⟩]
      [[.log (LogLine.new 0 [] ['a']), .log (LogLine.new 7 [] ['b'])] ++ [.shutdown]])
      [.source 0, .pulse 1, .stage 0 3, .source 0, .stage 1 4, .stage 0 3, .source 0, .pulse 2, .stage 0 0,
       .stage 2 0, .stage 0 5, .stage 1 1, .stage 1 1, .stage 1 1, .stage 2 0, .stage 2 0, .stage 2 0,
       .stage 2 0, .stage 2 0] = some s ∧
    s.pipe.theSink.returned = true ∧ (deliveredBy s.pipe.theSink.calls).length = 1 :=
  ⟨_, rfl, rfl, rfl⟩

end Verif
