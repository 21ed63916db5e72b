import Verif.Lemmas.Sink
/-!
# The sink run-loop: C24-C26
-/
namespace Verif

section
variable {F : Type} [F64 F] {σ : Type}

/-- **C24 (safety).** At every point of a sink's run, for every sink and every sequence of
receives: the payload events that arrived are exactly those handed to the sink so far, in
order and once each, followed by the ones still in the loop's hand or in the queue; and
every delivery was made while the valve was open. -/
theorem C24_delivered_once_in_order (k : SinkImpl F σ) (iv : Option Nat)
    (hiv : ∀ s, k.flushInterval s = iv) (sources n : Nat) (st : σ)
    (recv : List (Option (Event F))) :
    let r := SinkRun.steps k sources n { state := st, queue := recv }
    (arrivals recv).filter Event.isPayload = deliveredBy r.calls ++
      (r.current.toList ++ arrivals r.queue).filter Event.isPayload ∧
    ∀ b e, SinkCall.deliver b e ∈ r.calls → k.valveOpen b = true := by
  obtain ⟨c, h⟩ := (SinkInv.init k iv st recv).steps hiv sources n
  refine ⟨?_, fun b e hm => h.valve _ hm⟩
  rw [h.delivered, h.split]
  simp [List.filter_append]

/-- **C24 (closed valve).** With an event in hand and the valve closed, the loop flushes
the sink and keeps the event. -/
theorem C24_closed_valve_flushes (k : SinkImpl F σ) (sources : Nat) (r : SinkRun F σ)
    (e : Event F) (hcur : r.current = some e) (hret : r.returned = false)
    (hv : k.valveOpen r.state = false) :
    let r' := r.step k sources
    r'.state = k.flush r.state ∧ r'.current = some e ∧ r'.queue = r.queue ∧
      deliveredBy r'.calls = deliveredBy r.calls := by
  simp [SinkRun.step, hret, hcur, hv, deliveredBy]

/-- How many steps the loop can still need. -/
private def budget (k : SinkImpl F σ) (r : SinkRun F σ) : Nat :=
  3 * r.queue.length + match r.current with
    | none => 0
    | some _ => if k.valveOpen r.state then 1 else 2

private theorem budget_step (k : SinkImpl F σ) (hopen : ∀ s, k.valveOpen (k.flush s) = true)
    (sources : Nat) (r : SinkRun F σ) (hret : r.returned = false)
    (hsd : r.current ≠ some .shutdown) :
    budget k (r.step k sources) ≤ budget k r - 1 := by
  unfold SinkRun.step
  simp only [hret, Bool.false_eq_true, if_false]
  cases hcur : r.current with
  | none =>
    cases hq : r.queue with
    | nil => simp [budget, hcur, hq]
    | cons x q =>
      cases x with
      | none => simp [budget, hcur, hq]; omega
      | some e => simp only [budget, hcur, hq, List.length_cons]; split <;> omega
  | some e =>
    cases hv : k.valveOpen r.state with
    | false => simp [budget, hcur, hv, hopen]
    | true =>
      simp only [if_true]
      cases e with
      | shutdown => exact absurd hcur hsd
      | timerFlush idx =>
        simp only [SinkRun.handle]
        split
        · split
          · split <;> simp [budget, hcur, hv]
          · simp [budget, hcur, hv]
        · simp [budget, hcur, hv]
      | telemetry m => simp [SinkRun.handle, budget, hcur, hv]
      | log m => simp [SinkRun.handle, budget, hcur, hv]
      | raw m => simp [SinkRun.handle, budget, hcur, hv]

/-- **C24 (progress).** If a flush always reopens the valve and no `Shutdown` arrives,
then after at most three steps per receive everything has been delivered. -/
theorem C24_everything_is_delivered (k : SinkImpl F σ) (iv : Option Nat)
    (hiv : ∀ s, k.flushInterval s = iv) (hopen : ∀ s, k.valveOpen (k.flush s) = true)
    (sources : Nat) (st : σ) (recv : List (Option (Event F)))
    (hns : ∀ e ∈ arrivals recv, e.isShutdown = false) (n : Nat) (hn : 3 * recv.length ≤ n) :
    deliveredBy (SinkRun.steps k sources n { state := st, queue := recv }).calls =
      (arrivals recv).filter Event.isPayload := by
  have key : ∀ n (r : SinkRun F σ) c, SinkInv k iv (arrivals recv) r c → budget k r ≤ n →
      deliveredBy (r.steps k sources n).calls = (arrivals recv).filter Event.isPayload := by
    intro n
    induction n with
    | zero =>
      intro r c h hb
      have hq : r.queue = [] := by
        cases hq : r.queue with
        | nil => rfl
        | cons x q => simp [budget, hq] at hb
      have hc : r.current = none := by
        cases hc : r.current with
        | none => rfl
        | some e =>
          simp only [budget, hc] at hb
          split at hb <;> omega
      have hs := h.split
      rw [hq, hc] at hs
      simp only [SinkRun.steps, h.delivered]
      rw [hs]; simp [arrivals]
    | succ n ih =>
      intro r c h hb
      have hsd : r.current ≠ some .shutdown := by
        intro hc
        have := hns .shutdown (by rw [h.split, hc]; simp)
        simp [Event.isShutdown] at this
      have hret : r.returned = false := by
        cases hr : r.returned with
        | false => rfl
        | true => exact absurd (h.ret hr).1 hsd
      obtain ⟨c', h', _⟩ := h.step hiv sources
      have := budget_step k hopen sources r hret hsd
      exact ih _ c' h' (by omega)
  exact key n _ [] (SinkInv.init k iv st recv) (by simp [budget]; omega)

/-- A run of the loop, cut in two. -/
private theorem steps_add (k : SinkImpl F σ) (sources : Nat) : ∀ (a b : Nat) (r : SinkRun F σ),
    r.steps k sources (a + b) = (r.steps k sources a).steps k sources b
  | 0, b, r => by simp [SinkRun.steps]
  | a + 1, b, r => by
    rw [show a + 1 + b = (a + b) + 1 by omega]
    exact steps_add k sources a b _

/-- The loop gets rid of the event in its hand. -/
private theorem hand_empties (k : SinkImpl F σ) (sources : Nat) (st : σ) : ∀ (n : Nat) (r : SinkRun F σ) (e : Event F),
    r.returned = false → r.current = some e → e.isShutdown = false → Reaches k st r.state →
    k.valveOpen (flushes k n r.state) = true →
    ∃ m, (r.steps k sources m).returned = false ∧ (r.steps k sources m).current = none ∧
      (r.steps k sources m).queue = r.queue ∧ Reaches k st (r.steps k sources m).state := by
  intro n
  have opened : ∀ (r : SinkRun F σ) (e : Event F), r.returned = false → r.current = some e → e.isShutdown = false →
      Reaches k st r.state → k.valveOpen r.state = true →
      ∃ m, (r.steps k sources m).returned = false ∧ (r.steps k sources m).current = none ∧
        (r.steps k sources m).queue = r.queue ∧ Reaches k st (r.steps k sources m).state := by
    intro r e h1 h2 h3 h4 h5
    refine ⟨1, ?_, ?_, ?_, step_reaches sources h4⟩ <;>
      simp only [SinkRun.steps, SinkRun.step, h1, h2, h5, Bool.false_eq_true, if_false, if_true] <;> cases e
    all_goals first
      | exact Bool.noConfusion h3
      | (simp only [SinkRun.handle, h1]; done)
      | (simp only [SinkRun.handle]; (repeat' split) <;> simp_all)
  induction n with
  | zero => intro r e h1 h2 h3 h4 h5; exact opened r e h1 h2 h3 h4 h5
  | succ n ih =>
    intro r e h1 h2 h3 h4 h5
    by_cases hv : k.valveOpen r.state = true
    · exact opened r e h1 h2 h3 h4 hv
    · have he : r.step k sources = { r with state := k.flush r.state, calls := r.calls ++ [.valveFlush r.state] } := by
        simp [SinkRun.step, h1, h2, hv]
      obtain ⟨m, g⟩ := ih { r with state := k.flush r.state, calls := r.calls ++ [.valveFlush r.state] } e h1 h2 h3
        (.flush _ h4) h5
      exact ⟨m + 1, by simpa only [SinkRun.steps, he] using g⟩

/-- **C24 (progress, any valve).** If the valve can always be reopened by flushing often enough and no `Shutdown` arrives, then
from some point on everything has been delivered. -/
theorem C24_eventually (k : SinkImpl F σ) (iv : Option Nat)
    (hiv : ∀ s, k.flushInterval s = iv) (sources : Nat) (st : σ) (hre : Reopens k st) (recv : List (Option (Event F)))
    (hns : ∀ e ∈ arrivals recv, e.isShutdown = false) :
    ∃ N, ∀ n, N ≤ n → deliveredBy (SinkRun.steps k sources n { state := st, queue := recv }).calls =
      (arrivals recv).filter Event.isPayload := by
  have drain : ∀ (q : List (Option (Event F))) (r : SinkRun F σ), r.queue = q → r.returned = false → r.current = none →
      Reaches k st r.state → (∀ e ∈ arrivals q, e.isShutdown = false) →
      ∃ N, (r.steps k sources N).queue = [] ∧ (r.steps k sources N).current = none := by
    intro q
    induction q with
    | nil => intro r h1 _ h3 _ _; exact ⟨0, h1, h3⟩
    | cons o q ih =>
      intro r h1 h2 h3 h4 h5
      cases o with
      | none =>
        have he : r.step k sources = { r with queue := q } := by simp [SinkRun.step, h1, h2, h3]
        obtain ⟨N, g⟩ := ih { r with queue := q } rfl h2 h3 h4 (by simpa [arrivals] using h5)
        exact ⟨N + 1, by simpa only [SinkRun.steps, he] using g⟩
      | some e =>
        have he : r.step k sources = { r with queue := q, current := some e } := by simp [SinkRun.step, h1, h2, h3]
        obtain ⟨n, hn⟩ := hre _ h4
        have h6 : e.isShutdown = false := h5 e (by simp [arrivals])
        obtain ⟨m, g1, g2, g3, g4⟩ := hand_empties k sources st n { r with queue := q, current := some e } e h2 rfl h6 h4 hn
        obtain ⟨N, g⟩ := ih _ g3 g1 g2 g4 (fun x hx => h5 x (by
          simp only [arrivals, List.filterMap_cons, id] at hx ⊢
          exact List.mem_cons_of_mem _ hx))
        refine ⟨(m + N) + 1, ?_⟩
        simp only [SinkRun.steps, he]
        rw [steps_add]; exact g
  obtain ⟨N, g1, g2⟩ := drain recv { state := st, queue := recv } rfl rfl rfl (.start) hns
  have idle : ∀ (j : Nat) (r : SinkRun F σ), r.queue = [] → r.current = none → r.steps k sources j = r := by
    intro j
    induction j with
    | zero => intro r _ _; rfl
    | succ j ih =>
      intro r a b
      have : r.step k sources = r := by simp only [SinkRun.step, a, b]; split <;> rfl
      rw [SinkRun.steps, this]; exact ih r a b
  refine ⟨N, fun n hn => ?_⟩
  have hsp := (C24_delivered_once_in_order k iv hiv sources n st recv).1
  obtain ⟨j, rfl⟩ := Nat.exists_eq_add_of_le hn
  rw [steps_add, idle j _ g1 g2] at hsp ⊢
  rw [g1, g2] at hsp
  simpa [arrivals] using hsp.symm

/-- Conversely, while flushing does not open the valve nothing is delivered, however long the sink runs. -/
theorem C24_stuck (k : SinkImpl F σ) (sources : Nat) (st : σ) (hcl : ∀ n, k.valveOpen (flushes k n st) = false)
    (recv : List (Option (Event F))) (n : Nat) :
    deliveredBy (SinkRun.steps k sources n { state := st, queue := recv }).calls = [] ∧
      shutdownsBy (SinkRun.steps k sources n { state := st, queue := recv }).calls = 0 := by
  have key : ∀ (n : Nat) (r : SinkRun F σ), (∀ n, k.valveOpen (flushes k n r.state) = false) →
      deliveredBy (r.steps k sources n).calls = deliveredBy r.calls ∧
        shutdownsBy (r.steps k sources n).calls = shutdownsBy r.calls := by
    intro n
    induction n with
    | zero => intro r _; exact ⟨rfl, rfl⟩
    | succ n ih =>
      intro r h
      have hv := h 0
      simp only [flushes] at hv
      rw [SinkRun.steps]
      have hs : (∀ n, k.valveOpen (flushes k n (r.step k sources).state) = false) ∧
          deliveredBy (r.step k sources).calls = deliveredBy r.calls ∧
          shutdownsBy (r.step k sources).calls = shutdownsBy r.calls := by
        simp only [SinkRun.step, hv]
        repeat' split
        all_goals first
          | exact ⟨h, rfl, rfl⟩
          | exact ⟨fun n => h (n + 1), by simp [deliveredBy], by simp [shutdownsBy]⟩
          | contradiction
      obtain ⟨a, b⟩ := ih _ hs.1
      exact ⟨a.trans hs.2.1, b.trans hs.2.2⟩
  simpa [deliveredBy, shutdownsBy] using key n { state := st, queue := recv } hcl

/-- A sink that takes a line a time and needs three flushes after each: flushing often enough opens its valve from every state. -/
example : Reopens (F := Int) ⟨fun n => n == 0, fun _ => some 1, fun n _ => n, fun n _ => n + 3, fun n _ => n, fun n => n - 1, fun n => n⟩ 0 := by
  intro s _
  refine ⟨s, ?_⟩
  have : ∀ n m, flushes (F := Int) ⟨fun n => n == 0, fun _ => some 1, fun n _ => n, fun n _ => n + 3, fun n _ => n, fun n => n - 1, fun n => n⟩ n m = m - n := by
    intro n
    induction n with
    | zero => intro m; rfl
    | succ n ih => intro m; simp only [flushes, ih]; omega
  simp [this]

/-- **C25.** At every point of a sink's run, the timer pulses that have caused a flush
are exactly, in order, those among the pulses handled so far (`handled`) whose index was
greater than every index before it and which are due for the sink's flush interval: zero
or dividing the index (`none` never flushes).  Stale and duplicated pulses flush nothing. -/
theorem C25_flush_per_due_pulse (k : SinkImpl F σ) (iv : Option Nat)
    (hiv : ∀ s, k.flushInterval s = iv) (sources n : Nat) (st : σ)
    (recv : List (Option (Event F))) :
    let r := SinkRun.steps k sources n { state := st, queue := recv }
    ∃ handled, arrivals recv = handled ++ r.current.toList ++ arrivals r.queue ∧
      flushedBy r.calls = (records 0 (pulses handled)).filter (dueAt iv) := by
  obtain ⟨c, h⟩ := (SinkInv.init k iv st recv).steps hiv sources n
  exact ⟨c, h.split, h.flushed⟩

/-- **C26 (partial).** A sink shuts down at most once; if it has shut down, a `Shutdown`
had arrived, everything that arrived before the first `Shutdown` was delivered first and
nothing was done to the sink afterwards.  Missing: waiting for a `Shutdown` from *each*
source, which the code does not do (`C26_waits_for_every_source_false`); with at most one
source there is nothing more to wait for. -/
theorem C26_shutdown_last_partial (k : SinkImpl F σ) (iv : Option Nat)
    (hiv : ∀ s, k.flushInterval s = iv) (sources n : Nat) (st : σ)
    (recv : List (Option (Event F))) :
    let r := SinkRun.steps k sources n { state := st, queue := recv }
    shutdownsBy r.calls = (if r.returned then 1 else 0) ∧
    (r.returned = true → ∃ before after calls b,
      arrivals recv = before ++ .shutdown :: after ∧ (∀ e ∈ before, e.isShutdown = false) ∧
      r.calls = calls ++ [.shutdown b] ∧
      deliveredBy calls = before.filter Event.isPayload) := by
  obtain ⟨c, h⟩ := (SinkInv.init k iv st recv).steps hiv sources n
  refine ⟨h.shutdown, fun hr => ?_⟩
  obtain ⟨hc, cs, b, hcs⟩ := h.ret hr
  refine ⟨c, arrivals (SinkRun.steps k sources n { state := st, queue := recv }).queue, cs, b, ?_,
    h.noShutdown, hcs, ?_⟩
  · have := h.split
    rw [hc] at this
    simpa using this
  · rw [← h.delivered, hcs]; simp [deliveredBy]

/-- With at most one source, a `Shutdown` handled with the valve open ends the loop at
once. -/
theorem C26_single_source_stops (k : SinkImpl F σ) (sources : Nat) (hs : sources ≤ 1)
    (r : SinkRun F σ) (hret : r.returned = false) (hc : r.current = some .shutdown)
    (hv : k.valveOpen r.state = true) :
    (r.step k sources).returned = true ∧ (r.step k sources).state = k.shutdown r.state := by
  have : r.totalShutdowns + 1 ≥ sources := by omega
  simp [SinkRun.step, hret, hc, hv, SinkRun.handle, this]

/-- **C26 is false of the code**: for any number of sources, and whatever still follows in
the queue, a single `Shutdown` makes the sink shut down (with the valve open) without
delivering anything after it: the inner loop never lets go of the `Shutdown` and counts
it again on every pass. -/
theorem C26_waits_for_every_source_false (k : SinkImpl F σ) (sources : Nat) (st : σ)
    (hv : k.valveOpen st = true) (rest : List (Option (Event F))) :
    let r := SinkRun.steps k sources (1 + max 1 sources)
      { state := st, queue := some .shutdown :: rest }
    r.returned = true ∧ deliveredBy r.calls = [] ∧ r.queue = rest := by
  have key : ∀ m (r : SinkRun F σ), r.state = st → r.current = some .shutdown →
      r.returned = false → deliveredBy r.calls = [] → r.queue = rest →
      sources ≤ r.totalShutdowns + (m + 1) →
      let r' := r.steps k sources (m + 1)
      r'.returned = true ∧ deliveredBy r'.calls = [] ∧ r'.queue = rest := by
    intro m
    induction m with
    | zero =>
      intro r h1 h2 h3 h4 h5 h6
      have h6 : sources ≤ r.totalShutdowns + 1 := h6
      simp [SinkRun.steps, SinkRun.step, h3, h2, h1, hv, SinkRun.handle, h6, h5]
      simpa [deliveredBy] using h4
    | succ m ih =>
      intro r h1 h2 h3 h4 h5 h6
      by_cases hle : sources ≤ r.totalShutdowns + 1
      · have hstop : ∀ (q : SinkRun F σ) j, q.returned = true → q.steps k sources j = q := by
          intro q j hq
          induction j with
          | zero => rfl
          | succ j ihj => simp [SinkRun.steps, SinkRun.step, hq, ihj]
        have hone : r.step k sources = { r with
            state := k.shutdown r.state, totalShutdowns := r.totalShutdowns + 1,
            returned := true, calls := r.calls ++ [.shutdown r.state] } := by
          simp [SinkRun.step, h3, h2, h1, hv, SinkRun.handle, hle]
        rw [SinkRun.steps, hone, hstop _ _ rfl]
        exact ⟨rfl, by simpa [deliveredBy] using h4, h5⟩
      · have hone : r.step k sources = { r with totalShutdowns := r.totalShutdowns + 1 } := by
          simp [SinkRun.step, h3, h2, h1, hv, SinkRun.handle, hle]
        rw [SinkRun.steps, hone]
        exact ih _ h1 h2 h3 h4 h5 (by simp only; omega)
  have h := key (max 1 sources - 1)
    { state := st, queue := rest, current := some .shutdown } rfl rfl rfl rfl rfl
    (by simp only; omega)
  have e1 : max 1 sources - 1 + 1 = max 1 sources := by omega
  rw [e1] at h
  rw [Nat.add_comm, SinkRun.steps]
  exact h

/-- A sink that only counts, whose valve closes after two deliveries. -/
def countingSink : SinkImpl Int Nat where
  valveOpen n := n < 2
  flushInterval _ := some 2
  deliver n _ := n + 1
  deliverLine n _ := n + 1
  deliverRaw n _ := n + 1
  flush _ := 0
  shutdown n := n

/-- C24-C26 on a concrete run: three log lines through a valve of two, with duplicated
and stale pulses, `None` receives, and a `Shutdown`. -/
example :
    let l := fun (v : Char) => (Event.log ⟨1, ['p'], [v], [], none⟩ : Event Int)
    let recv := [some (l 'a'), none, some (.timerFlush 2), some (.timerFlush 1), some (l 'b'),
      some (l 'c'), some (l 'd'), some (.timerFlush 2), some (.timerFlush 3), some (.timerFlush 4),
      some .shutdown, some (l 'e')]
    let r := SinkRun.steps countingSink 1 40 { state := 0, queue := recv }
    deliveredBy r.calls = [l 'a', l 'b', l 'c', l 'd'] ∧ flushedBy r.calls = [2, 4] ∧
      shutdownsBy r.calls = 1 ∧ r.returned = true ∧ r.calls.length = 8 := by
  decide

example : (∀ s, countingSink.flushInterval s = some 2) ∧
    (∀ s, countingSink.valveOpen (countingSink.flush s) = true) ∧
    countingSink.valveOpen 2 = false := ⟨fun _ => rfl, fun _ => rfl, rfl⟩

end
end Verif
