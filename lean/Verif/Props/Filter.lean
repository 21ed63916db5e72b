import Verif.Lemmas.Filter
/-!
# Filters: C16-C23
-/
namespace Verif

section
variable {F : Type} [F64 F] {σ : Type}

/-! ## C16 — shutdown handshake -/

private theorem run_split (p : Process F σ) (n : Nat) (r : FilterRun F σ)
    (hf : r.finished = false) (is) :
    ∃ consumed, is = consumed ++ (r.run p n is).2 ∧
      (r.run p n is).1.totalShutdowns = r.totalShutdowns + shutdownsIn consumed ∧
      ((r.run p n is).1.finished = false → (r.run p n is).2 = [] ∧
        (0 < shutdownsIn consumed → r.totalShutdowns + shutdownsIn consumed < n)) ∧
      ((r.run p n is).1.finished = true → n ≤ r.totalShutdowns + shutdownsIn consumed ∧
        ∃ pre now, consumed = pre ++ [some (now, .shutdown)] ∧
          (0 < shutdownsIn pre → r.totalShutdowns + shutdownsIn pre < n) ∧
          ∃ before, (r.run p n is).1.sent = before ++ [.shutdown]) := by
  induction is generalizing r with
  | nil => exact ⟨[], by simp [FilterRun.run, hf, shutdownsIn]⟩
  | cons i is ih =>
    obtain ⟨s0, s1, s01, _⟩ := FilterRun.step_shutdowns p n r i hf
    simp only [FilterRun.run, hf, Bool.false_eq_true, if_false]
    cases hfin : (r.step p n i).finished with
    | true =>
      rw [FilterRun.run_finished p n _ hfin]
      refine ⟨[i], rfl, ?_, by simp [hfin], ?_⟩
      · rcases s01 with h | h
        · rw [h, (s0 h).1]; rfl
        · rw [h, (s1 h).1]
      · intro _
        rcases s01 with h | h
        · rw [(s0 h).2] at hfin; simp at hfin
        · obtain ⟨_, hs, hn⟩ := s1 h
          refine ⟨by rw [h]; exact hn.1 hfin, [], ?_⟩
          cases i with
          | none => simp [shutdownsIn] at h
          | some x =>
            obtain ⟨now, e⟩ := x
            cases he : e.isShutdown with
            | false => simp [shutdownsIn, he] at h
            | true =>
              obtain rfl := isShutdown_true he
              exact ⟨now, rfl, by simp [shutdownsIn], _, hs⟩
    | false =>
      obtain ⟨c, h1, h2, h3, h4⟩ := ih (r.step p n i) hfin
      have htot : (r.step p n i).totalShutdowns = r.totalShutdowns + shutdownsIn [i] := by
        rcases s01 with h | h
        · rw [h, (s0 h).1]; rfl
        · rw [h, (s1 h).1]
      have hlt : 0 < shutdownsIn [i] → r.totalShutdowns + shutdownsIn [i] < n := by
        intro hpos
        rcases s01 with h | h
        · omega
        · have := (s1 h).2.2
          rw [hfin] at this
          simp at this
          omega
      refine ⟨i :: c, by rw [List.cons_append, ← h1], ?_, ?_, ?_⟩
      · rw [h2, htot, shutdownsIn_cons i c]; omega
      · intro hh
        obtain ⟨ha, hb⟩ := h3 hh
        refine ⟨ha, ?_⟩
        rw [shutdownsIn_cons i c]
        rw [htot] at hb
        intro hpos
        by_cases h0 : 0 < shutdownsIn c
        · have := hb h0; omega
        · have := hlt (by omega); omega
      · intro hh
        obtain ⟨ha, pre, now, hc, hb, hs⟩ := h4 hh
        refine ⟨?_, i :: pre, now, by rw [hc]; rfl, ?_, hs⟩
        · rw [shutdownsIn_cons i c]; omega
        · rw [shutdownsIn_cons i pre]
          rw [htot] at hb
          intro hpos
          by_cases h0 : 0 < shutdownsIn pre
          · have := hb h0; omega
          · have := hlt (by omega); omega

/-- **C16 (stopping).** Whatever the filter does with events, and whatever sequence of
receives it sees: the run reads `consumed` and leaves the rest.
* If the run has not returned it has read everything, and fewer `Shutdown`s have
  arrived than there are sources (or none at all).
* If it has returned, its last input was a `Shutdown`, the number received is exactly
  the number of sources (one, if there are none), and the last thing forwarded is that
  `Shutdown`: everything else it ever emitted precedes it. -/
theorem C16_stops_at_last_shutdown (p : Process F σ) (sources : Nat) (st : σ)
    (recv : List (Option (Int × Event F))) :
    let r := (FilterRun.run p sources { state := st } recv)
    ∃ consumed, recv = consumed ++ r.2 ∧
      (r.1.finished = false → r.2 = [] ∧ shutdownsIn consumed < max 1 sources) ∧
      (r.1.finished = true → shutdownsIn consumed = max 1 sources ∧
        (∃ pre now, consumed = pre ++ [some (now, .shutdown)]) ∧
        ∃ before, r.1.sent = before ++ [.shutdown]) := by
  obtain ⟨c, h1, h2, h3, h4⟩ := run_split p sources { state := st } rfl recv
  refine ⟨c, h1, ?_, ?_⟩
  · intro h
    obtain ⟨ha, hb⟩ := h3 h
    refine ⟨ha, ?_⟩
    simp at hb
    by_cases h0 : 0 < shutdownsIn c
    · have := hb h0; omega
    · omega
  · intro h
    obtain ⟨ha, pre, now, hc, hb, hs⟩ := h4 h
    refine ⟨?_, ⟨pre, now, hc⟩, hs⟩
    have hcp : shutdownsIn c = shutdownsIn pre + 1 := by
      rw [hc, shutdownsIn_append]; rfl
    simp at ha hb
    by_cases h0 : 0 < shutdownsIn pre
    · have := hb h0; omega
    · omega

/-- A step that never invents or swallows a `Shutdown`: the number of `Shutdown`s in the
buffer does not change, and a failure event is not a `Shutdown`. -/
def KeepsShutdowns (p : Process F σ) : Prop :=
  ∀ now st e buf, e.isShutdown = false →
    (p now st e buf).2.1.countP Event.isShutdown = buf.countP Event.isShutdown ∧
    ∀ fe, (p now st e buf).2.2 = .error fe → fe.isShutdown = false

private theorem run_count (p : Process F σ) (hp : KeepsShutdowns p) (n : Nat) (r : FilterRun F σ)
    (hb : r.events.countP Event.isShutdown = 0)
    (hc : r.sent.countP Event.isShutdown = r.totalShutdowns) (is) :
    (r.run p n is).1.sent.countP Event.isShutdown = (r.run p n is).1.totalShutdowns := by
  induction is generalizing r with
  | nil => exact hc
  | cons i is ih =>
    simp only [FilterRun.run]
    split
    · exact hc
    · cases i with
      | none => exact ih _ hb hc
      | some x =>
        obtain ⟨now, e⟩ := x
        cases he : e.isShutdown with
        | true =>
          obtain rfl := isShutdown_true he
          exact ih _ hb (by simp [FilterRun.step, hc, Event.isShutdown])
        | false =>
          rw [FilterRun.step_event p n r now e he]
          have h1 := (hp now r.state e r.events he).1
          have h2 := (hp now r.state e r.events he).2
          cases hpr : p now r.state e r.events with
          | mk st rest =>
            obtain ⟨evs, res⟩ := rest
            rw [hpr] at h1 h2
            cases res with
            | ok u =>
              refine ih _ (by simp) ?_
              simp only [List.countP_append, hc]
              simp only at h1
              omega
            | error fe =>
              refine ih _ (by simp only at h1 ⊢; omega) ?_
              have := h2 fe rfl
              simp [hc, this]

/-- **C16 (forwarding).** A filter whose step neither invents nor swallows `Shutdown`s
forwards exactly as many `Shutdown`s as it has received, at every point of its run. -/
theorem C16_forwards_every_shutdown (p : Process F σ) (hp : KeepsShutdowns p) (sources : Nat)
    (st : σ) (recv : List (Option (Int × Event F))) :
    let r := (FilterRun.run p sources { state := st } recv)
    ∃ consumed, recv = consumed ++ r.2 ∧
      r.1.sent.countP Event.isShutdown = shutdownsIn consumed := by
  obtain ⟨c, h1, h2, _⟩ := run_split p sources { state := st } rfl recv
  refine ⟨c, h1, ?_⟩
  rw [run_count p hp sources _ rfl rfl recv, h2]
  simp

/-- The delay and JSON filters are such filters; so is the programmable one (its scripts can only
emit metrics and log lines).  The flush-boundary filter emits no `Shutdown` either, from the states
it can reach (`C63_filters_proper`). -/
theorem C16_builtin_filters_keep_shutdowns {L : Type} (x : JsonExt) (script : Script F L)
    (fail : LuaFn → Event F) (hfail : ∀ fn, (fail fn).isShutdown = false) :
    KeepsShutdowns (delayProcess (F := F)) ∧ KeepsShutdowns (jsonProcess (F := F) x) ∧
      KeepsShutdowns (programmableProcess script fail) := by
  refine ⟨?_, ?_, ?_⟩
  · intro now st e buf he
    cases e <;> simp only [delayProcess] <;> (try split) <;> simp [Event.isShutdown] at he ⊢
  · intro now st e buf he
    cases e <;> simp [jsonProcess, Event.isShutdown] at he ⊢
  · have hrun : ∀ l fn buf pyld,
        (runLua script fail l fn buf pyld).2.1.countP Event.isShutdown =
          buf.countP Event.isShutdown ∧
        ∀ fe, (runLua script fail l fn buf pyld).2.2 = .error fe → fe.isShutdown = false := by
      intro l fn buf pyld
      unfold runLua
      rcases script l fn pyld with ⟨l', _ | _ | q⟩
      · simp [← hfail fn]
      · simp [← hfail fn]
      · simp only [List.countP_append, List.countP_map]
        have h1 : q.logs.countP (Event.isShutdown ∘ (Event.log (F := F))) = 0 :=
          List.countP_eq_zero.2 (by simp [Event.isShutdown])
        have h2 : q.metrics.countP (Event.isShutdown ∘ Event.telemetry) = 0 :=
          List.countP_eq_zero.2 (by simp [Event.isShutdown])
        simp [h1, h2]
    intro now st e buf he
    cases e with
    | telemetry m => exact hrun _ _ _ _
    | log m => exact hrun _ _ _ _
    | timerFlush idx =>
      simp only [programmableProcess]
      split
      · simp
      · obtain ⟨h1, h2⟩ := hrun st.lua .tick buf ⟨[], []⟩
        exact ⟨by simpa [Event.isShutdown] using h1, h2⟩
    | shutdown => simp [Event.isShutdown] at he
    | raw r => simp [programmableProcess, Event.isShutdown]

/-! ## C17 — each result once, in order -/

private theorem run_expected (p : Process F σ) (hp : Tidy p) (n : Nat) (r : FilterRun F σ)
    (hb : r.events = []) (is) :
    ∃ consumed, is = consumed ++ (r.run p n is).2 ∧
      (r.run p n is).1.sent = r.sent ++ expectedSent p r.state consumed ∧
      (r.run p n is).1.events = [] := by
  induction is generalizing r with
  | nil => exact ⟨[], by simp [FilterRun.run, expectedSent, hb]⟩
  | cons i is ih =>
    simp only [FilterRun.run]
    cases hfin : r.finished with
    | true => exact ⟨[], by simp [expectedSent, hb]⟩
    | false =>
      simp only [Bool.false_eq_true, if_false]
      cases i with
      | none =>
        obtain ⟨c, h1, h2, h3⟩ := ih r hb
        exact ⟨none :: c, by rw [List.cons_append]; exact congrArg _ h1, h2, h3⟩
      | some x =>
        obtain ⟨now, e⟩ := x
        cases he : e.isShutdown with
        | true =>
          obtain rfl := isShutdown_true he
          obtain ⟨c, h1, h2, h3⟩ := ih (r.step p n (some (now, .shutdown))) hb
          refine ⟨some (now, .shutdown) :: c, by rw [List.cons_append]; exact congrArg _ h1, ?_, h3⟩
          rw [h2]; simp [FilterRun.step, expectedSent]
        | false =>
          obtain ⟨-, t2⟩ := hp now r.state e [] he
          have hstep := FilterRun.step_event p n r now e he
          rw [hb] at hstep
          cases hpr : p now r.state e [] with
          | mk st rest =>
            obtain ⟨evs, res⟩ := rest
            rw [hpr] at hstep t2
            cases res with
            | ok u =>
              obtain ⟨c, h1, h2, h3⟩ := ih (r.step p n (some (now, e))) (by rw [hstep])
              refine ⟨some (now, e) :: c, by rw [List.cons_append]; exact congrArg _ h1, ?_, h3⟩
              rw [h2, expectedSent_event p _ _ _ he, hpr, hstep]; simp
            | error fe =>
              have hnil := t2 fe rfl
              obtain ⟨c, h1, h2, h3⟩ := ih (r.step p n (some (now, e))) (by rw [hstep]; exact hnil)
              refine ⟨some (now, e) :: c, by rw [List.cons_append]; exact congrArg _ h1, ?_, h3⟩
              rw [h2, expectedSent_event p _ _ _ he, hpr, hstep]; simp

/-- **C17 (partial).** For a filter whose step only appends to the buffer and leaves it
alone when it fails, what is forwarded is exactly what is expected for the inputs read:
each step's output once, in order, and for a failed step the failure event alone.
Missing: the buffer is not cleared after a failure (`C17_results_in_order_false`), so
the statement fails for filters that push before failing. -/
theorem C17_results_in_order_partial (p : Process F σ) (hp : Tidy p) (sources : Nat) (st : σ)
    (recv : List (Option (Int × Event F))) :
    let r := (FilterRun.run p sources { state := st } recv)
    ∃ consumed, recv = consumed ++ r.2 ∧ r.1.sent = expectedSent p st consumed := by
  obtain ⟨c, h1, h2, _⟩ := run_expected p hp sources { state := st } rfl recv
  exact ⟨c, h1, by simpa using h2⟩

/-- The delay, flush-boundary and JSON filters are such filters. -/
theorem C17_builtin_filters_tidy (x : JsonExt) :
    Tidy (delayProcess (F := F)) ∧ Tidy (flushBoundaryProcess (F := F)) ∧
      Tidy (jsonProcess (F := F) x) := by
  refine ⟨?_, ?_, ?_⟩
  · intro now st e buf _
    cases e <;> simp only [delayProcess] <;> (try split) <;> simp
  · intro now st e buf _
    simp only [flushBoundaryProcess]
    split
    · simp
    · split
      · simp
      · split <;> simp
  · intro now st e buf _
    cases e <;> simp [jsonProcess]

/-- ... and so is the programmable filter, as long as its script's `tick` never fails.
(`process_metric` and `process_log` may fail freely.) -/
theorem C17_programmable_tidy_partial {L : Type} (script : Script F L) (fail : LuaFn → Event F)
    (htick : ∀ l p, ∃ q, (script l .tick p).2 = .ok q) :
    Tidy (programmableProcess script fail) := by
  have hrun : ∀ l fn buf pyld, runLua script fail l fn buf pyld =
      ((runLua script fail l fn [] pyld).1, buf ++ (runLua script fail l fn [] pyld).2.1,
        (runLua script fail l fn [] pyld).2.2) ∧
      (∀ fe, (runLua script fail l fn [] pyld).2.2 = .error fe →
        (runLua script fail l fn [] pyld).2.1 = []) := by
    intro l fn buf pyld
    unfold runLua
    rcases script l fn pyld with ⟨l', _ | _ | q⟩ <;> simp
  intro now st e buf _
  cases e with
  | telemetry m =>
    obtain ⟨h1, h2⟩ := hrun st.lua .processMetric buf ⟨[m], []⟩
    simp only [programmableProcess]
    rw [h1]; exact ⟨rfl, h2⟩
  | log m =>
    obtain ⟨h1, h2⟩ := hrun st.lua .processLog buf ⟨[], [m]⟩
    simp only [programmableProcess]
    rw [h1]; exact ⟨rfl, h2⟩
  | timerFlush idx =>
    simp only [programmableProcess]
    split
    · simp
    · obtain ⟨q, hq⟩ := htick st.lua ⟨[], []⟩
      unfold runLua
      rcases hs : script st.lua .tick ⟨[], []⟩ with ⟨l', r⟩
      rw [hs] at hq; simp only at hq; subst hq
      simp
  | shutdown => simp [programmableProcess]
  | raw r => simp [programmableProcess]

/-- A script that has no `tick` function at all, and passes metrics and logs through. -/
def noTickScript : Script F Unit := fun l fn p =>
  match fn with
  | .tick => (l, .noSuchFunction)
  | _ => (l, .ok p)

/-- **C17 is false of the code**: a programmable filter whose script has no `tick`
receives a flush and then a raw event.  The failed step's partial output — the flush
itself — is forwarded together with the raw event. -/
theorem C17_results_in_order_false (raw : RawEvent) (fail : Event F) :
    let recv := [some (0, .timerFlush 1), some (0, .raw raw)]
    let p := programmableProcess noTickScript (fun _ => fail)
    let r := FilterRun.run p 1 { state := { lua := () } } recv
    r.2 = [] ∧ expectedSent p { lua := () } recv = [fail, .raw raw] ∧
      r.1.sent = [fail, .timerFlush 1, .raw raw] := by
  simp [FilterRun.run, FilterRun.step, programmableProcess, noTickScript, runLua, expectedSent]

private theorem heldBackSent_event (p : Process F σ) (st : σ) (held) (now : Int) (e : Event F)
    (he : e.isShutdown = false) (is) :
    heldBackSent p st held (some (now, e) :: is) =
      match p now st e [] with
      | (st', out, .ok ()) => held ++ out ++ heldBackSent p st' [] is
      | (st', out, .error fe) => fe :: heldBackSent p st' (held ++ out) is := by
  cases e <;> simp [Event.isShutdown] at he <;> rfl

/-- **C17 (exact, partial).** For every filter whose step only appends to the buffer, whether
its steps fail or not: what is forwarded is each step's output once, in order, except that the
output of a failed step stays until the next step that succeeds and goes out in front of that
step's output, after the failure event and whatever `Shutdown`s came between.  Missing for
C17: that the output of a failed step is dropped. -/
theorem C17_exact_partial (p : Process F σ) (hp : Appends p) (sources : Nat) (st : σ)
    (recv : List (Option (Int × Event F))) :
    let r := (FilterRun.run p sources { state := st } recv)
    ∃ consumed, recv = consumed ++ r.2 ∧ r.1.sent = heldBackSent p st [] consumed := by
  have key : ∀ (is : List (Option (Int × Event F))) (r : FilterRun F σ),
      ∃ consumed, is = consumed ++ (r.run p sources is).2 ∧
        (r.run p sources is).1.sent = r.sent ++ heldBackSent p r.state r.events consumed := by
    intro is
    induction is with
    | nil => intro r; exact ⟨[], by simp [FilterRun.run, heldBackSent]⟩
    | cons i is ih =>
      intro r
      simp only [FilterRun.run]
      cases hfin : r.finished with
      | true => exact ⟨[], by simp [heldBackSent]⟩
      | false =>
        simp only [Bool.false_eq_true, if_false]
        cases i with
        | none =>
          obtain ⟨c, h1, h2⟩ := ih r
          exact ⟨none :: c, by rw [List.cons_append]; exact congrArg _ h1, h2⟩
        | some x =>
          obtain ⟨now, e⟩ := x
          cases he : e.isShutdown with
          | true =>
            obtain rfl := isShutdown_true he
            obtain ⟨c, h1, h2⟩ := ih (r.step p sources (some (now, .shutdown)))
            refine ⟨some (now, .shutdown) :: c, by rw [List.cons_append]; exact congrArg _ h1, ?_⟩
            rw [h2]
            simp [FilterRun.step, heldBackSent]
          | false =>
            have happ := hp now r.state e r.events he
            obtain ⟨c, h1, h2⟩ := ih (r.step p sources (some (now, e)))
            refine ⟨some (now, e) :: c, by rw [List.cons_append]; exact congrArg _ h1, ?_⟩
            rw [h2, heldBackSent_event p _ _ _ _ he]
            rcases hpr : p now r.state e [] with ⟨st', out, fe | u⟩
            · rw [hpr] at happ
              have hstep : r.step p sources (some (now, e)) =
                  { r with state := st', events := r.events ++ out, sent := r.sent ++ [fe] } := by
                cases e <;> simp [Event.isShutdown] at he <;> simp only [FilterRun.step, happ]
              rw [hstep]; simp
            · rw [hpr] at happ
              have hstep : r.step p sources (some (now, e)) =
                  { r with state := st', events := [], sent := r.sent ++ (r.events ++ out) } := by
                cases e <;> simp [Event.isShutdown] at he <;> simp only [FilterRun.step, happ]
              rw [hstep]; simp
  obtain ⟨c, h1, h2⟩ := key recv { state := st }
  exact ⟨c, h1, by simpa using h2⟩

/-- Every filter of cernan is such a filter, the programmable one with any script. -/
theorem C17_filters_append {L : Type} (x : JsonExt) (script : Script F L) (fail : LuaFn → Event F) :
    Appends (delayProcess (F := F)) ∧ Appends (flushBoundaryProcess (F := F)) ∧
      Appends (jsonProcess (F := F) x) ∧ Appends (programmableProcess script fail) := by
  obtain ⟨h1, h2, h3⟩ := C17_builtin_filters_tidy (F := F) x
  refine ⟨fun now st e buf he => (h1 now st e buf he).1, fun now st e buf he => (h2 now st e buf he).1,
    fun now st e buf he => (h3 now st e buf he).1, ?_⟩
  have hrun : ∀ l fn buf pyld, runLua script fail l fn buf pyld =
      ((runLua script fail l fn [] pyld).1, buf ++ (runLua script fail l fn [] pyld).2.1,
        (runLua script fail l fn [] pyld).2.2) := by
    intro l fn buf pyld
    unfold runLua
    rcases script l fn pyld with ⟨l', _ | _ | q⟩ <;> simp
  intro now st e buf _
  cases e with
  | telemetry m => simp only [programmableProcess]; rw [hrun]
  | log m => simp only [programmableProcess]; rw [hrun]
  | timerFlush idx =>
    simp only [programmableProcess]
    split
    · simp
    · rw [hrun]; simp
  | shutdown => simp [programmableProcess]
  | raw r => simp [programmableProcess]

example (raw : RawEvent) (fail : Event Int) :
    heldBackSent (programmableProcess noTickScript (fun _ => fail)) { lua := () } []
      [some (0, .timerFlush 1), some (0, .shutdown), some (0, .timerFlush 2), some (0, .raw raw)] =
      [fail, .shutdown, fail, .timerFlush 1, .timerFlush 2, .raw raw] := by
  simp [heldBackSent, programmableProcess, noTickScript, runLua]

/-- Hypotheses of `C17_programmable_tidy_partial`: a script that fails on every metric. -/
example : ∀ l p, ∃ q, ((fun l fn p => match fn with
    | LuaFn.processMetric => (l, LuaResult.error) | _ => (l, .ok p) : Script Int Unit) l .tick p).2
      = .ok q := fun _ p => ⟨p, rfl⟩

/-- C16 and C17 on a concrete run with two sources: stale `None`s, an old and a recent
log line through the delay filter, two `Shutdown`s, and an unread event after them. -/
example :
    let l := fun t => (Event.log ⟨t, ['p'], ['v'], [], none⟩ : Event Int)
    let r := FilterRun.run delayProcess 2 { state := 5 }
      [some (100, l 98), none, some (100, .shutdown), some (100, l 10), some (100, l 101),
       some (100, .shutdown), some (100, l 99)]
    r.1.sent = [l 98, .shutdown, l 101, .shutdown] ∧ r.1.finished = true ∧ r.2.length = 1 := by
  decide

/-! ## C18-C20 — the flush boundary filter -/

/-- **C18.** After any history, on any next event: nothing but a flush makes the filter
emit; a flush emits what it releases followed by the flush itself, and what it releases
with timestamp `t` is exactly the group with timestamp `t` that this flush makes older
than the tolerance, according to the fate of that timestamp alone (`due`). -/
theorem C18_release_exactly_when_due (tolerance : Nat) (h : List (Event F)) :
    (∀ e, e.isTimerFlush = false → emits tolerance h e = []) ∧
    (∀ idx, ∃ released, emits tolerance h (.timerFlush idx) = released ++ [.timerFlush idx] ∧
      (∀ e ∈ released, ∃ t, e.timestamp = some t) ∧
      ∀ t, released.filter (hasTime t) = due tolerance t h) := by
  obtain ⟨h1, h2, h3⟩ := fb_reachable tolerance h
  constructor
  · intro e he
    obtain ⟨hs, out, s1, _, _, s4, _⟩ := fb_step h2 e 0
    simp only [emits]; rw [s1]; exact s4 he
  · intro idx
    obtain ⟨hs, out, s1, _, _, _, s5, _⟩ := fb_step h2 (.timerFlush idx) 0
    obtain ⟨rel, r1, r2, r3, _⟩ := s5 rfl
    refine ⟨rel, ?_, r3, ?_⟩
    · simp only [emits]; rw [s1]; exact r1
    · intro t
      rw [r2 t, h3 t, h1, due]
      cases waiting tolerance t h <;> rfl

theorem emitted_filter (tol : Nat) (t : Int) (h : List (Event F)) :
    (emitted tol h).filter (hasTime t) ++ ((waiting tol t h).map Prod.snd).getD [] =
      h.filter (hasTime t) := by
  rw [← List.reverse_reverse h]
  generalize h.reverse = r
  induction r with
  | nil => rfl
  | cons e r ih =>
    simp only [List.reverse_cons]
    rw [emitted_snoc, waiting_snoc, List.filter_append, List.filter_append, ← ih]
    obtain ⟨c1, c2⟩ := C18_release_exactly_when_due tol r.reverse
    cases hf : e.isTimerFlush with
    | true =>
      cases e <;> simp [Event.isTimerFlush] at hf
      next idx =>
      obtain ⟨rel, q1, _, q3⟩ := c2 idx
      rw [q1, List.filter_append, q3 t]
      have hn : hasTime t (.timerFlush idx : Event F) = false := by
        simp [hasTime, Event.timestamp]
      simp only [due, pendStep]
      cases hw : waiting tol t r.reverse with
      | none => simp [hn]
      | some q =>
        obtain ⟨age, es⟩ := q
        simp only
        split <;> simp [hn]
    | false =>
      rw [c1 e hf]
      cases hh : hasTime t e with
      | true => cases e <;> simp [Event.isTimerFlush] at hf <;>
                  cases hw : waiting tol t r.reverse <;> simp [pendStep, hh]
      | false => cases e <;> simp [Event.isTimerFlush] at hf <;>
                  cases hw : waiting tol t r.reverse <;> simp [pendStep, hh]

/-- Within the tolerance a waiting group only grows. -/
private theorem waiting_grow (tol : Nat) (t : Int) (h c : List (Event F)) (age : Nat)
    (es : List (Event F)) (hw : waiting tol t h = some (age, es))
    (hle : age + flushesIn c ≤ tol) :
    waiting tol t (h ++ c) = some (age + flushesIn c, es ++ c.filter (hasTime t)) := by
  rw [← List.reverse_reverse c] at hle ⊢
  generalize c.reverse = r at hle ⊢
  induction r with
  | nil => simpa [flushesIn] using hw
  | cons e r ih =>
    simp only [List.reverse_cons] at hle ⊢
    have hcount : flushesIn (r.reverse ++ [e]) = flushesIn r.reverse +
        (if e.isTimerFlush then 1 else 0) := by
      simp only [flushesIn, List.countP_append, List.countP_cons, List.countP_nil]
      cases e.isTimerFlush <;> simp
    rw [hcount] at hle ⊢
    rw [← List.append_assoc, waiting_snoc, ih (by omega), List.filter_append]
    cases hf : e.isTimerFlush with
    | true =>
      rw [hf] at hle
      cases e <;> simp [Event.isTimerFlush] at hf hle
      have : ¬ (age + flushesIn r.reverse + 1 > tol) := by omega
      simp [pendStep, this, hasTime, Event.timestamp]; omega
    | false =>
      cases hh : hasTime t e <;> cases e <;> simp [Event.isTimerFlush] at hf <;>
        simp [pendStep, hh]

/-- **C18 (how long).** Let an event `e` with timestamp `t` arrive after a history `h`
in which every earlier event with that timestamp has already been emitted.  Then
during any continuation with at most `tolerance` flushes nothing with timestamp `t` is
emitted, and the flush after exactly `tolerance` of them emits `e` followed by the other
events with that timestamp that came in the meantime — all before the flush itself. -/
theorem C18_wait_is_tolerance_flushes (tolerance : Nat) (h c : List (Event F)) (e : Event F)
    (t : Int) (he : hasTime t e = true)
    (hprev : (emitted tolerance h).filter (hasTime t) = h.filter (hasTime t)) :
    (flushesIn c ≤ tolerance →
      (emitted tolerance (h ++ [e] ++ c)).filter (hasTime t) =
        (emitted tolerance h).filter (hasTime t)) ∧
    (flushesIn c = tolerance → ∀ idx, ∃ released,
      emits tolerance (h ++ [e] ++ c) (.timerFlush idx) = released ++ [.timerFlush idx] ∧
      released.filter (hasTime t) = e :: c.filter (hasTime t)) := by
  have hw0 : ((waiting tolerance t h).map Prod.snd).getD [] = ([] : List (Event F)) := by
    have := emitted_filter tolerance t h
    rw [hprev] at this
    simpa using this
  have hw : waiting tolerance t (h ++ [e]) = some (0, [e]) ∨
      ∃ a, waiting tolerance t h = some (a, []) := by
    rw [waiting_snoc]
    cases hq : waiting tolerance t h with
    | none => left; cases e <;> simp [pendStep, he] <;> simp [hasTime, Event.timestamp] at he
    | some q =>
      obtain ⟨a, es⟩ := q
      rw [hq] at hw0
      right; simp at hw0; exact ⟨a, by rw [hw0]⟩
  have hne : ∀ (h : List (Event F)) a, waiting tolerance t h ≠ some (a, []) := by
    intro h
    rw [← List.reverse_reverse h]
    generalize h.reverse = r
    induction r with
    | nil => intro a; simp [waiting]
    | cons x r ih =>
      intro a
      simp only [List.reverse_cons]
      rw [waiting_snoc]
      cases hq : waiting tolerance t r.reverse with
      | none => cases x <;> simp [pendStep] <;> (try split) <;> simp
      | some q =>
        obtain ⟨b, es⟩ := q
        have : es ≠ [] := by rintro rfl; exact ih b hq
        cases x <;> simp [pendStep] <;> (try split) <;> simp [this]
  have hw : waiting tolerance t (h ++ [e]) = some (0, [e]) := by
    rcases hw with hw | ⟨a, hw⟩
    · exact hw
    · exact absurd hw (hne h a)
  constructor
  · intro hle
    have hgrow := waiting_grow tolerance t (h ++ [e]) c 0 [e] hw (by omega)
    have h1 := emitted_filter tolerance t (h ++ [e] ++ c)
    rw [hgrow] at h1
    rw [hprev]
    simp only [List.filter_append, Option.map_some, Option.getD_some] at h1
    have he1 : [e].filter (hasTime t) = [e] := by simp [he]
    rw [he1] at h1
    rw [List.append_assoc (List.filter (hasTime t) h)] at h1
    exact List.append_cancel_right h1
  · intro heq idx
    have hgrow := waiting_grow tolerance t (h ++ [e]) c 0 [e] hw (by omega)
    obtain ⟨-, c2⟩ := C18_release_exactly_when_due tolerance (h ++ [e] ++ c)
    obtain ⟨rel, q1, _, q3⟩ := c2 idx
    refine ⟨rel, q1, ?_⟩
    rw [q3 t, due, hgrow]
    simp [heq]

/-- **C19.** What a flush releases is ordered by timestamp, and the released events of
one timestamp are a contiguous piece, in arrival order, of the events with that
timestamp: everything emitted for a timestamp so far is a prefix of what arrived. -/
theorem C19_release_order (tolerance : Nat) (h : List (Event F)) (idx : Nat) :
    ∃ released, emits tolerance h (.timerFlush idx) = released ++ [.timerFlush idx] ∧
      released.Pairwise (fun a b => ∀ x y, a.timestamp = some x → b.timestamp = some y → x ≤ y) ∧
      ∀ t, (emitted tolerance h).filter (hasTime t) ++ released.filter (hasTime t)
        <+: h.filter (hasTime t) := by
  obtain ⟨h1, h2, h3⟩ := fb_reachable tolerance h
  obtain ⟨hs, out, s1, _, _, _, s5, _⟩ := fb_step h2 (.timerFlush idx) 0
  obtain ⟨rel, r1, r2, r3, r4⟩ := s5 rfl
  refine ⟨rel, by simp only [emits]; rw [s1]; exact r1, r4, ?_⟩
  intro t
  rw [← emitted_filter tolerance t h, r2 t, h3 t, h1]
  refine (List.prefix_append_right_inj _).2 ?_
  cases hw : waiting tolerance t h with
  | none => simp
  | some q =>
    obtain ⟨a, es⟩ := q
    simp only
    split <;> simp

/-- Everything the filter still holds after a history. -/
def held (tolerance : Nat) (h : List (Event F)) : List (Event F) :=
  (stateAfter flushBoundaryProcess { tolerance := tolerance } (h.map (0, ·))).holds.flatMap
    (·.events)

/-- **C20 (partial).** Over any history of flushes, telemetry and log lines, what was
emitted together with what is still held is a rearrangement of what came in: nothing is
lost, duplicated or invented.  Missing: raw events (`C20_nothing_lost_false`). -/
theorem C20_nothing_lost_partial (tolerance : Nat) (h : List (Event F))
    (hh : ∀ e ∈ h, e.isTimerFlush = true ∨ ∃ t, e.timestamp = some t) :
    (emitted tolerance h ++ held tolerance h).Perm h := by
  rw [← List.reverse_reverse h] at hh ⊢
  generalize h.reverse = r at hh ⊢
  induction r with
  | nil => exact List.Perm.nil
  | cons e r ih =>
    simp only [List.reverse_cons] at hh ⊢
    have ih := ih (fun x hx => hh x (by simp at hx ⊢; exact Or.inl hx))
    obtain ⟨h1, h2, h3⟩ := fb_reachable tolerance r.reverse
    obtain ⟨hs, out, s1, _, _, _, _, s6⟩ := fb_step h2 e 0
    have s6 := s6 (hh e (by simp))
    have hout : emits tolerance r.reverse e = out := by simp only [emits]; rw [s1]
    have hheld : held tolerance (r.reverse ++ [e]) = hs.flatMap (·.events) := by
      simp only [held, List.map_append, stateAfter_append, List.map_cons, List.map_nil, stateAfter]
      rw [s1]
    rw [emitted_snoc, hout, hheld, List.append_assoc]
    refine (List.Perm.append_left _ s6).trans ?_
    rw [← List.append_assoc]
    exact List.Perm.append_right _ ih

/-- **C20 is false of the code**: a raw event that enters the filter is neither emitted
nor held, whatever the history. -/
theorem C20_nothing_lost_false (tolerance : Nat) (h : List (Event F)) (r : RawEvent) :
    emits tolerance h (.raw r) = [] ∧ held tolerance (h ++ [.raw r]) = held tolerance h := by
  constructor
  · exact (C18_release_exactly_when_due tolerance h).1 _ rfl
  · simp [held, stateAfter_append, stateAfter, flushBoundaryProcess, Event.isTimerFlush,
      Event.timestamp]

/-- **C20 (exact), partial.** Over any history whatever, what was emitted together with what is still held is a
rearrangement of the flushes and of the events with a timestamp that came in: nothing else is lost, and nothing is
duplicated or invented.  Missing: raw events (`C20_nothing_lost_false`). -/
theorem C20_exact_partial (tolerance : Nat) (h : List (Event F)) :
    (emitted tolerance h ++ held tolerance h).Perm (h.filter fun e => e.isTimerFlush || e.timestamp.isSome) := by
  rw [← List.reverse_reverse h]
  generalize h.reverse = r
  induction r with
  | nil => exact List.Perm.nil
  | cons e r ih =>
    simp only [List.reverse_cons]
    obtain ⟨h1, h2, h3⟩ := fb_reachable tolerance r.reverse
    obtain ⟨hs, out, s1, _, _, s4, _, s6⟩ := fb_step h2 e 0
    have hout : emits tolerance r.reverse e = out := by simp only [emits]; rw [s1]
    have hheld : held tolerance (r.reverse ++ [e]) = hs.flatMap (·.events) := by
      simp only [held, List.map_append, stateAfter_append, List.map_cons, List.map_nil, stateAfter]
      rw [s1]
    rw [emitted_snoc, List.filter_append]
    by_cases hk : e.isTimerFlush = true ∨ ∃ t, e.timestamp = some t
    · have he : [e].filter (fun e => e.isTimerFlush || e.timestamp.isSome) = [e] := by
        rcases hk with hk | ⟨t, hk⟩ <;> simp [hk]
      rw [he, hout, hheld, List.append_assoc]
      refine (List.Perm.append_left _ (s6 hk)).trans ?_
      rw [← List.append_assoc]
      exact List.Perm.append_right _ ih
    · have h1 : e.isTimerFlush = false := by cases hf : e.isTimerFlush <;> simp_all
      have h2 : e.timestamp = none := by cases hf : e.timestamp <;> simp_all
      have h3 : held tolerance (r.reverse ++ [e]) = held tolerance r.reverse := by
        simp [held, stateAfter_append, stateAfter, flushBoundaryProcess, h1, h2]
      rw [hout, s4 h1, h3]
      simpa [h1, h2] using ih

private theorem waiting_young (tol : Nat) (t : Int) (h : List (Event F)) (age : Nat) (es : List (Event F)) (hw : waiting tol t h = some (age, es)) :
    age ≤ tol ∧ ∀ e ∈ es, ∃ a b, h = a ++ e :: b ∧ flushesIn b ≤ age := by
  rw [← List.reverse_reverse h] at hw ⊢
  generalize h.reverse = r at hw ⊢
  induction r generalizing age es with
  | nil => simp [waiting] at hw
  | cons e r ih =>
    simp only [List.reverse_cons] at hw ⊢
    rw [waiting_snoc] at hw
    have step : ∀ age' es', waiting tol t r.reverse = some (age', es') → e.isTimerFlush = false → age' ≤ tol ∧
        ∀ x ∈ es', ∃ a b, r.reverse ++ [e] = a ++ x :: b ∧ flushesIn b ≤ age' := by
      intro age' es' hq hf
      obtain ⟨i1, i2⟩ := ih age' es' hq
      refine ⟨i1, fun x hx => ?_⟩
      obtain ⟨a, b, rfl', hb⟩ := i2 x hx
      exact ⟨a, b ++ [e], by simp [rfl'], by simp [flushesIn, List.countP_append, hf] at hb ⊢; exact hb⟩
    by_cases hf : e.isTimerFlush = true
    · obtain ⟨i, rfl⟩ : ∃ i, e = .timerFlush i := by cases e <;> simp [Event.isTimerFlush] at hf; exact ⟨_, rfl⟩
      cases hq : waiting tol t r.reverse with
      | none => rw [hq] at hw; simp [pendStep] at hw
      | some q =>
        obtain ⟨age', es'⟩ := q
        rw [hq] at hw
        obtain ⟨i1, i2⟩ := ih age' es' hq
        by_cases hlt : age' + 1 > tol
        · simp [pendStep, hlt] at hw
        · simp only [pendStep, hlt, if_false, Option.some.injEq, Prod.mk.injEq] at hw
          obtain ⟨rfl, rfl⟩ := hw
          refine ⟨by omega, fun x hx => ?_⟩
          obtain ⟨a, b, hab, hb⟩ := i2 x hx
          refine ⟨a, b ++ [.timerFlush i], by simp [hab], ?_⟩
          simp only [flushesIn, List.countP_append, List.countP_singleton, Event.isTimerFlush, if_true] at hb ⊢
          omega
    · have hf : e.isTimerFlush = false := by simpa using hf
      have here : ∃ a b, r.reverse ++ [e] = a ++ e :: b ∧ flushesIn b ≤ 0 := ⟨r.reverse, [], rfl, by simp [flushesIn]⟩
      have hp : ∀ o, pendStep tol t o e = match o with
          | none => if hasTime t e then some (0, [e]) else none
          | some (age, es) => if hasTime t e then some (age, es ++ [e]) else some (age, es) := by
        intro o; cases e <;> cases o <;> first | rfl | simp [Event.isTimerFlush] at hf
      rw [hp] at hw
      cases hq : waiting tol t r.reverse with
      | none =>
        rw [hq] at hw
        by_cases ht : hasTime t e = true
        · simp only [ht, if_true, Option.some.injEq, Prod.mk.injEq] at hw
          obtain ⟨rfl, rfl⟩ := hw
          exact ⟨by omega, fun x hx => by rw [List.mem_singleton.1 hx]; exact here⟩
        · simp [ht] at hw
      | some q =>
        obtain ⟨age', es'⟩ := q
        rw [hq] at hw
        obtain ⟨s1, s2⟩ := step age' es' hq hf
        by_cases ht : hasTime t e = true
        · simp only [ht, if_true, Option.some.injEq, Prod.mk.injEq] at hw
          obtain ⟨rfl, rfl⟩ := hw
          refine ⟨s1, fun x hx => ?_⟩
          rcases List.mem_append.1 hx with hx | hx
          · exact s2 x hx
          · rw [List.mem_singleton.1 hx]
            obtain ⟨a, b, h1, h2⟩ := here
            exact ⟨a, b, h1, by omega⟩
        · simp only [ht, Bool.false_eq_true, if_false, Option.some.injEq, Prod.mk.injEq] at hw
          obtain ⟨rfl, rfl⟩ := hw
          exact ⟨s1, s2⟩

private theorem lookupHold_mem {hs : List (Hold F)} (h : hs.Pairwise fun a b => a.timestamp < b.timestamp) {x : Hold F} (hx : x ∈ hs) :
    lookupHold x.timestamp hs = some (x.age, x.events) := by
  induction hs with
  | nil => cases hx
  | cons y hs ih =>
    obtain ⟨h1, h2⟩ := List.pairwise_cons.1 h
    rcases List.mem_cons.1 hx with rfl | hx
    · simp [lookupHold]
    · have := h1 x hx
      rw [lookupHold, if_neg (by omega), ih h2 hx]

/-- **C20 (what is held).** Whatever is still held came in with at most `tolerance` flushes after it. -/
theorem C20_held_young (tolerance : Nat) (h : List (Event F)) (e : Event F) (he : e ∈ held tolerance h) :
    ∃ a b, h = a ++ e :: b ∧ flushesIn b ≤ tolerance := by
  obtain ⟨-, h2, h3⟩ := fb_reachable tolerance h
  simp only [held, List.mem_flatMap] at he
  obtain ⟨x, hx, hex⟩ := he
  have := lookupHold_mem h2.sorted hx
  rw [h3] at this
  obtain ⟨w1, w2⟩ := waiting_young _ _ _ _ _ this
  obtain ⟨a, b, g1, g2⟩ := w2 e hex
  exact ⟨a, b, g1, by omega⟩

/-- C18-C20 on a concrete history with tolerance 1: two timestamps arriving out of
order, a late joiner, and a group left waiting. -/
example :
    let l := fun (t : Int) (v : Char) => (Event.log ⟨t, ['p'], [v], [], none⟩ : Event Int)
    let h := [l 7 'a', l 3 'b', .timerFlush 1, l 7 'c', l 9 'd']
    emits 1 h (.timerFlush 2) = [l 3 'b', l 7 'a', l 7 'c', .timerFlush 2] ∧
    emitted 1 h = [.timerFlush 1] ∧ held 1 (h ++ [.timerFlush 2]) = [l 9 'd'] ∧
    due 1 7 h = [l 7 'a', l 7 'c'] ∧ due 1 9 h = [] := by
  decide

/-- The hypotheses of `C18_wait_is_tolerance_flushes` are met by a timestamp that was
already released once. -/
example :
    let l := fun (t : Int) (v : Char) => (Event.log ⟨t, ['p'], [v], [], none⟩ : Event Int)
    let h := [l 7 'a', .timerFlush 1, .timerFlush 2]
    hasTime 7 (l 7 'b') = true ∧ (emitted 1 h).filter (hasTime 7) = h.filter (hasTime 7) ∧
    flushesIn [l 7 'c', .timerFlush 3] = 1 ∧
    emits 1 (h ++ [l 7 'b'] ++ [l 7 'c', .timerFlush 3]) (.timerFlush 4) =
      [l 7 'b', l 7 'c', .timerFlush 4] := by
  decide

/-! ## C21 — the delay filter -/

/-- The distance of a timestamped event from now, if it has a timestamp. -/
def outside (tolerance now : Int) (e : Event F) : Prop :=
  ∃ t, e.timestamp = some t ∧ tolerance < ((t - now).natAbs : Int)

/-- **C21 is false of the code** at the boundary: an event exactly `tolerance` seconds
away is not more than the tolerance away, yet it is dropped. -/
theorem C21_delay_boundary_false :
    ∃ (tolerance now : Int) (e : Event Int), ¬ outside tolerance now e ∧
      (delayProcess now tolerance e []).2.1 = [] := by
  refine ⟨60, 1000, .log ⟨940, [], [], [], none⟩, ?_, by decide⟩
  rintro ⟨t, h1, h2⟩
  simp [Event.timestamp] at h1
  subst h1
  revert h2; decide

/-- **C21 (partial).** The delay filter never fails; it drops an event exactly when the
event has a timestamp at least `tolerance` away from now, and otherwise passes it on
unchanged.  In particular everything more than `tolerance` away is dropped.  Missing:
the case of exactly `tolerance` seconds (`C21_delay_boundary_false`). -/
theorem C21_delay_decision_partial (now tolerance : Int) (e : Event F) :
    ∃ out, delayProcess now tolerance e [] = (tolerance, out, .ok ()) ∧
      (out = [] ∨ out = [e]) ∧
      (out = [] ↔ ∃ t, e.timestamp = some t ∧ tolerance ≤ ((t - now).natAbs : Int)) ∧
      (outside tolerance now e → out = []) := by
  cases e with
  | telemetry t =>
    by_cases h : ((t.timestamp - now).natAbs : Int) < tolerance
    · refine ⟨[.telemetry t], by simp [delayProcess, h], by simp, ?_, ?_⟩
      · simp [Event.timestamp]; exact h
      · rintro ⟨x, h1, h2⟩; simp [Event.timestamp] at h1; subst h1; omega
    · refine ⟨[], by simp [delayProcess, h], by simp, ?_, by simp⟩
      simp [Event.timestamp]; omega
  | log l =>
    by_cases h : ((l.time - now).natAbs : Int) < tolerance
    · refine ⟨[.log l], by simp [delayProcess, h], by simp, ?_, ?_⟩
      · simp [Event.timestamp]; exact h
      · rintro ⟨x, h1, h2⟩; simp [Event.timestamp] at h1; subst h1; omega
    · refine ⟨[], by simp [delayProcess, h], by simp, ?_, by simp⟩
      simp [Event.timestamp]; omega
  | timerFlush i => exact ⟨_, rfl, by simp, by simp [Event.timestamp], by simp [outside, Event.timestamp]⟩
  | shutdown => exact ⟨_, rfl, by simp, by simp [Event.timestamp], by simp [outside, Event.timestamp]⟩
  | raw r => exact ⟨_, rfl, by simp, by simp [Event.timestamp], by simp [outside, Event.timestamp]⟩

example : (delayProcess 1000 60 (.log ⟨939, [], [], [], none⟩ : Event Int) []).2.1 = [] ∧
    (delayProcess 1000 60 (.log ⟨1059, [], [], [], none⟩ : Event Int) []).2.1.length = 1 := by
  decide

/-! ## C22 — the JSON encode filter -/

private theorem get_append (m : JsonMap) (kv : Str × Json) (k : Str) :
    JsonMap.get (m ++ [kv]) k = (JsonMap.get m k).or (if kv.1 = k then some kv.2 else none) := by
  simp only [JsonMap.get, List.find?_append]
  cases m.find? (fun kv => decide (kv.1 = k)) <;> simp [List.find?_cons]
  split <;> simp_all

private theorem any_iff (m : JsonMap) (k : Str) :
    (m.any fun r => decide (r.1 = k)) = (JsonMap.get m k).isSome := by
  simp [JsonMap.get]
  rw [Bool.eq_iff_iff]
  simp

private theorem merge_one (obj result : JsonMap) (hd : (result.map Prod.fst).Nodup) :
    let r := obj.foldl (fun result kv =>
      if result.any (fun r => r.1 = kv.1) then result else result ++ [kv]) result
    (r.map Prod.fst).Nodup ∧
    ∀ k, JsonMap.get r k = (JsonMap.get result k).or (JsonMap.get obj k) := by
  induction obj generalizing result with
  | nil => exact ⟨hd, fun k => by simp [JsonMap.get]⟩
  | cons kv obj ih =>
    simp only [List.foldl_cons]
    have hcons : ∀ k, JsonMap.get (kv :: obj) k =
        (if kv.1 = k then some kv.2 else none).or (JsonMap.get obj k) := by
      intro k
      simp only [JsonMap.get, List.find?_cons]
      by_cases h : kv.1 = k <;> simp [h]
    by_cases h : (result.any fun r => decide (r.1 = kv.1)) = true
    · rw [if_pos h]
      obtain ⟨i1, i2⟩ := ih result hd
      refine ⟨i1, fun k => ?_⟩
      rw [i2 k, hcons k]
      rw [any_iff] at h
      by_cases hk : kv.1 = k
      · subst hk
        obtain ⟨v, hv⟩ := Option.isSome_iff_exists.1 h
        simp [hv]
      · simp [hk]
    · rw [if_neg h]
      have hnd : ((result ++ [kv]).map Prod.fst).Nodup := by
        rw [List.map_append, List.nodup_append]
        refine ⟨hd, by simp, ?_⟩
        intro a ha b hb
        simp at hb; subst hb
        rintro rfl
        apply h
        obtain ⟨x, hx, hxe⟩ := List.mem_map.1 ha
        simp only [List.any_eq_true, decide_eq_true_eq]
        exact ⟨x, hx, hxe⟩
      obtain ⟨i1, i2⟩ := ih _ hnd
      refine ⟨i1, fun k => ?_⟩
      rw [i2 k, hcons k, get_append, Option.or_assoc]

/-- **C22.** A log line becomes exactly one raw JSON event, the encoding of an object
with distinct keys in which every key has the value given by the first of: the line
itself (its parsed object when `parse_line` is set and it parses to an object,
otherwise `{"message": line}`), the line's fields, and the metadata object. Its ordering key is
the next number drawn from the random source, which is then used up. Every other
event passes through unchanged. The filter never fails. -/
theorem C22_json_precedence (x : JsonExt) (now : Int) (s : JsonEncode) :
    (∀ l : LogLine, ∃ obj r,
      jsonProcess x now s (.log l : Event F) [] =
        ({ s with drawn := s.drawn + 1 }, [.raw r], .ok ()) ∧ r.orderBy = s.rand s.drawn ∧
      r.encoding = .json ∧ r.bytes = x.encode obj ∧ r.metadata = none ∧ r.connectionId = none ∧
      (obj.map Prod.fst).Nodup ∧
      ∀ k, JsonMap.get obj k =
        ((match (if s.parseLine then x.parse l.value else none) with
          | some (.obj o) => JsonMap.get o k
          | _ => if k = ['m', 'e', 's', 's', 'a', 'g', 'e'] then some (.str l.value) else none).or
          ((l.fields.get k).map .str)).or
        (if k = ['t', 'i', 'm', 'e'] then some (.str (x.rfc3339 l.time))
         else if k = ['p', 'a', 't', 'h'] then some (.str l.path)
         else if k = ['t', 'a', 'g', 's'] then
           some (.obj ((tagIter l.tags s.tags).collect.map fun (kv : Str × Str) => (kv.1, Json.str kv.2)))
         else none)) ∧
    (∀ e : Event F, (∀ l, e ≠ .log l) → jsonProcess x now s e [] = (s, [e], .ok ())) := by
  constructor
  · intro l
    refine ⟨_, _, by simp only [jsonProcess, List.nil_append]; rfl, rfl, rfl, rfl, rfl, rfl, ?_, ?_⟩
    · simp only [mergeObjects, List.foldl_cons, List.foldl_nil]
      exact (merge_one _ _ (merge_one _ _ (merge_one _ _ (by simp)).1).1).1
    · intro k
      have hmsg : Option.map Prod.snd (List.find? (fun kv => decide (kv.1 = k))
          [((['m', 'e', 's', 's', 'a', 'g', 'e'] : Str), Json.str l.value)]) =
          if k = ['m', 'e', 's', 's', 'a', 'g', 'e'] then some (.str l.value) else none := by
        simp only [List.find?_cons, List.find?_nil]
        by_cases hk : k = ['m', 'e', 's', 's', 'a', 'g', 'e']
        · simp [hk]
        · have : ¬ (['m', 'e', 's', 's', 'a', 'g', 'e'] = k) := fun h => hk h.symm
          simp [hk, this]
      simp only [mergeObjects, List.foldl_cons, List.foldl_nil]
      rw [(merge_one _ _ (merge_one _ _ (merge_one _ _ (by simp)).1).1).2 k,
        (merge_one _ _ (merge_one _ _ (by simp)).1).2 k, (merge_one _ _ (by simp)).2 k]
      have hmeta : JsonMap.get (metadataObject x s.tags l) k =
          (if k = ['t', 'i', 'm', 'e'] then some (.str (x.rfc3339 l.time))
           else if k = ['p', 'a', 't', 'h'] then some (.str l.path)
           else if k = ['t', 'a', 'g', 's'] then
             some (.obj ((tagIter l.tags s.tags).collect.map fun (kv : Str × Str) => (kv.1, Json.str kv.2)))
           else none) := by
        simp only [JsonMap.get, metadataObject, List.find?_cons, List.find?_nil, eq_comm (a := k)]
        by_cases h1 : ['t', 'i', 'm', 'e'] = k
        · simp [h1]
        · by_cases h2 : ['p', 'a', 't', 'h'] = k
          · simp [h1, h2]
          · by_cases h3 : ['t', 'a', 'g', 's'] = k
            · simp [h1, h2, h3]
            · simp [h1, h2, h3]
      rw [hmeta]
      congr 2
      · simp only [JsonMap.get, List.find?_nil, Option.map_none, Option.none_or, lineObject]
        cases hp : (if s.parseLine = true then x.parse l.value else none) with
        | none => exact hmsg
        | some j => cases j with
          | obj o => rfl
          | _ => exact hmsg
      · simp only [JsonMap.get]
        generalize l.fields = m
        induction m with
        | nil => rfl
        | cons kv m ih =>
          simp only [List.map_cons, List.find?_cons, TagMap.get]
          by_cases hk : kv.1 = k
          · simp [hk]
          · simp only [hk, decide_false, if_false]; exact ih
  · intro e he
    cases e with
    | log l => exact absurd rfl (he l)
    | _ => rfl

/-- C22 on a line that parses to an object whose `path` overrides the metadata and whose
fields do not override it. -/
example :
    let ext : JsonExt := ⟨fun s => if s = ['{'] then some (.obj [(['p','a','t','h'], .num ['1'])])
      else none, fun _ => [], fun _ => []⟩
    let l : LogLine := ⟨5, ['q'], ['{'], [(['p','a','t','h'], ['f'])], none⟩
    JsonMap.get (mergeObjects [lineObject ext true l.value,
      l.fields.map (fun kv => (kv.1, .str kv.2)), metadataObject ext [] l]) ['p','a','t','h'] =
        some (.num ['1']) := by
  simp [mergeObjects, lineObject, metadataObject, JsonMap.get]

/-! ## C23 — the programmable filter's tick -/

/-- The flush indices among a sequence of receives. -/
def flushesReceived (recv : List (Option (Int × Event F))) : List Nat :=
  recv.filterMap fun r => r.bind fun x => x.2.flushIdx

private theorem prog_run {L : Type} (script : Script F L) (fail : LuaFn → Event F)
    (hfail : ∀ fn, (fail fn).flushIdx = none)
    (htick : ∀ l p, ∃ q, (script l .tick p).2 = .ok q) (n : Nat)
    (r : FilterRun F (Programmable F L)) (hb : r.events = [])
    (is : List (Option (Int × Event F))) :
    let r' := r.run (programmableProcess script fail) n is
    ∃ consumed, is = consumed ++ r'.2 ∧
      r'.1.state.ticks = r.state.ticks ++ records r.state.lastFlushIdx (flushesReceived consumed) ∧
      r'.1.sent.filterMap Event.flushIdx = r.sent.filterMap Event.flushIdx ++
        records r.state.lastFlushIdx (flushesReceived consumed) := by
  induction is generalizing r with
  | nil => exact ⟨[], by simp [FilterRun.run, flushesReceived, records]⟩
  | cons i is ih =>
    simp only [FilterRun.run]
    cases hfin : r.finished with
    | true => exact ⟨[], by simp [flushesReceived, records]⟩
    | false =>
      simp only [Bool.false_eq_true, if_false]
      have hlua : ∀ l fn pyld, (runLua script fail l fn [] pyld).2.1.filterMap Event.flushIdx = []
          ∧ (∀ fe, (runLua script fail l fn [] pyld).2.2 = .error fe → fe.flushIdx = none ∧
            (runLua script fail l fn [] pyld).2.1 = []) := by
        intro l fn pyld
        unfold runLua
        rcases script l fn pyld with ⟨l', _ | _ | q⟩
        · simp [← hfail fn]
        · simp [← hfail fn]
        · simp [List.filterMap_append, List.filterMap_map, Function.comp_def, Event.flushIdx]
      have key : ∀ e : Event F, ∀ now : Int,
          (∃ l, e.flushIdx = none ∧ (r.step (programmableProcess script fail) n (some (now, e))).state =
              { r.state with lua := l } ∧
            (r.step (programmableProcess script fail) n (some (now, e))).events = [] ∧
            (r.step (programmableProcess script fail) n (some (now, e))).sent.filterMap Event.flushIdx
              = r.sent.filterMap Event.flushIdx) ∨
          (∃ idx l, e.flushIdx = some idx ∧
            (r.step (programmableProcess script fail) n (some (now, e))).state =
              (if r.state.lastFlushIdx < idx then
                { lua := l, lastFlushIdx := idx, ticks := r.state.ticks ++ [idx] } else r.state) ∧
            (r.step (programmableProcess script fail) n (some (now, e))).events = [] ∧
            (r.step (programmableProcess script fail) n (some (now, e))).sent.filterMap Event.flushIdx
              = r.sent.filterMap Event.flushIdx ++
                (if r.state.lastFlushIdx < idx then [idx] else [])) := by
        intro e now
        cases e with
        | telemetry m =>
          left
          obtain ⟨h1, h2⟩ := hlua r.state.lua .processMetric ⟨[m], []⟩
          simp only [FilterRun.step, programmableProcess, hb]
          rcases hr : runLua script fail r.state.lua .processMetric [] ⟨[m], []⟩ with ⟨l', out, _ | u⟩
          · rw [hr] at h1 h2
            refine ⟨l', rfl, rfl, (h2 _ rfl).2, ?_⟩
            simp [(h2 _ rfl).1]
          · rw [hr] at h1 h2
            exact ⟨l', rfl, rfl, rfl, by simp only [List.filterMap_append] ; rw [h1]; simp⟩
        | log m =>
          left
          obtain ⟨h1, h2⟩ := hlua r.state.lua .processLog ⟨[], [m]⟩
          simp only [FilterRun.step, programmableProcess, hb]
          rcases hr : runLua script fail r.state.lua .processLog [] ⟨[], [m]⟩ with ⟨l', out, _ | u⟩
          · rw [hr] at h1 h2
            refine ⟨l', rfl, rfl, (h2 _ rfl).2, ?_⟩
            simp [(h2 _ rfl).1]
          · rw [hr] at h1 h2
            exact ⟨l', rfl, rfl, rfl, by simp only [List.filterMap_append] ; rw [h1]; simp⟩
        | timerFlush idx =>
          right
          obtain ⟨h1, h2⟩ := hlua r.state.lua .tick ⟨[], []⟩
          obtain ⟨q, hq⟩ := htick r.state.lua ⟨[], []⟩
          simp only [FilterRun.step, programmableProcess, hb]
          by_cases hlt : r.state.lastFlushIdx < idx
          · have hge : ¬ (r.state.lastFlushIdx ≥ idx) := by omega
            rw [if_neg hge]
            rcases hs : script r.state.lua .tick ⟨[], []⟩ with ⟨l', res⟩
            rw [hs] at hq; simp only at hq; subst hq
            simp only [runLua, hs] at h1 ⊢
            refine ⟨idx, l', rfl, by simp [LuaResult.called, hlt], trivial, ?_⟩
            rw [if_pos hlt]
            simp only [List.filterMap_append] at h1 ⊢
            rw [h1]; simp [Event.flushIdx]
          · have hge : r.state.lastFlushIdx ≥ idx := by omega
            rw [if_pos hge]
            exact ⟨idx, r.state.lua, rfl, by simp [hlt], rfl, by simp [hlt]⟩
        | shutdown =>
          left
          exact ⟨r.state.lua, rfl, rfl, hb, by simp [FilterRun.step, Event.flushIdx]⟩
        | raw m =>
          left
          refine ⟨r.state.lua, rfl, rfl, rfl, ?_⟩
          simp [FilterRun.step, programmableProcess, hb, Event.flushIdx]
      cases i with
      | none =>
        obtain ⟨c, h1, h2⟩ := ih r hb
        exact ⟨none :: c, by rw [List.cons_append]; exact congrArg _ h1, by
          simpa [flushesReceived, FilterRun.step] using h2⟩
      | some x =>
        obtain ⟨now, e⟩ := x
        rcases key e now with ⟨l, k0, k1, k2, k3⟩ | ⟨idx, l, k0, k1, k2, k3⟩
        · obtain ⟨c, h1, h2, h3⟩ := ih _ k2
          refine ⟨some (now, e) :: c, by rw [List.cons_append]; exact congrArg _ h1, ?_⟩
          have hfr : flushesReceived (some (now, e) :: c) = flushesReceived c := by
            simp [flushesReceived, k0]
          rw [hfr, h2, h3, k1, k3]
          exact ⟨rfl, rfl⟩
        · obtain ⟨c, h1, h2, h3⟩ := ih _ k2
          refine ⟨some (now, e) :: c, by rw [List.cons_append]; exact congrArg _ h1, ?_⟩
          have hfr : flushesReceived (some (now, e) :: c) = idx :: flushesReceived c := by
            simp [flushesReceived, k0]
          rw [hfr, h2, h3, k1, k3]
          simp only [records]
          by_cases hlt : r.state.lastFlushIdx < idx
          · simp [hlt]
          · simp [hlt]

/-- **C23 (partial).** For a script whose `tick` never fails, over any run: the flush
indices for which `tick` was called are exactly the strict records of the flush indices
received — so each index at most once, in increasing order — and these are exactly the
flushes forwarded, in the same order.  Missing: scripts whose `tick` can fail
(`C23_tick_once_false`). -/
theorem C23_tick_once_partial {L : Type} (script : Script F L) (fail : LuaFn → Event F)
    (hfail : ∀ fn, (fail fn).flushIdx = none)
    (htick : ∀ l p, ∃ q, (script l .tick p).2 = .ok q) (sources : Nat) (l : L)
    (recv : List (Option (Int × Event F))) :
    let r := FilterRun.run (programmableProcess script fail) sources { state := { lua := l } } recv
    ∃ consumed, recv = consumed ++ r.2 ∧
      r.1.state.ticks = records 0 (flushesReceived consumed) ∧
      r.1.sent.filterMap Event.flushIdx = r.1.state.ticks ∧
      r.1.state.ticks.Pairwise (· < ·) := by
  obtain ⟨c, h1, h2, h3⟩ := prog_run script fail hfail htick sources { state := { lua := l } } rfl recv
  have hrec : ∀ (xs : List Nat) (last : Nat), (records last xs).Pairwise (· < ·) ∧
      ∀ x ∈ records last xs, last < x := by
    intro xs
    induction xs with
    | nil => intro last; simp [records]
    | cons x xs ih =>
      intro last
      simp only [records]
      split
      · next h =>
        refine ⟨List.pairwise_cons.2 ⟨fun y hy => (ih x).2 y hy, (ih x).1⟩, ?_⟩
        intro y hy
        rcases List.mem_cons.1 hy with rfl | hy
        · exact h
        · exact Nat.lt_trans h ((ih x).2 y hy)
      · exact ih last
  simp only [List.nil_append, List.filterMap_nil] at h2 h3
  refine ⟨c, h1, h2, by rw [h2, h3], ?_⟩
  rw [h2]; exact (hrec _ _).1

/-- **C23 is false of the code** when `tick` fails: a script whose `tick` raises an
error is run twice for flush index 1 when two upstreams forward that flush. -/
theorem C23_tick_once_false (fail : Event F) :
    let script : Script F Unit := fun l fn p => match fn with
      | .tick => (l, .error)
      | _ => (l, .ok p)
    (FilterRun.run (programmableProcess script (fun _ => fail)) 2 { state := { lua := () } }
      [some (0, .timerFlush 1), some (0, .timerFlush 1)]).1.state.ticks = [1, 1] := by
  simp [FilterRun.run, FilterRun.step, programmableProcess, runLua, LuaResult.called]

/-- What `C23_any_script_partial` says of a stretch of a run from `r` to `r'`. -/
private def Stretch {L : Type} (script : Script F L) (r r' : FilterRun F (Programmable F L)) (due : List Nat) : Prop :=
  r'.sent.filterMap Event.flushIdx ++ r'.events.filterMap Event.flushIdx =
    r.sent.filterMap Event.flushIdx ++ r.events.filterMap Event.flushIdx ++ due ∧
  (∀ e ∈ r'.events, ∃ idx, e = .timerFlush idx) ∧
  ((∀ l p, (script l .tick p).2 ≠ .noSuchFunction) → r'.state.ticks = r.state.ticks ++ due)

/-- **C23 (any script), exact.**  Whatever the script does, over any run: the flushes passed on, followed by those held back, are exactly those that are due — greater than every index
whose tick succeeded before — in the order received.  Nothing else is ever held back.  If the script has a `tick`, it is run for exactly these.
Missing: passing on a flush whose `tick` failed when it was run (`C23_held_false`), and not running `tick` again for it (`C23_tick_once_false`). -/
theorem C23_any_script_partial {L : Type} (script : Script F L) (fail : LuaFn → Event F)
    (hfail : ∀ fn, (fail fn).flushIdx = none) (sources : Nat) (l : L) (recv : List (Option (Int × Event F))) :
    let r := (FilterRun.run (programmableProcess script fail) sources { state := { lua := l } } recv).1
    let due := dueTicks 0 (tickResults script fail sources { state := { lua := l } } recv)
    r.sent.filterMap Event.flushIdx ++ r.events.filterMap Event.flushIdx = due ∧
    (∀ e ∈ r.events, ∃ idx, e = .timerFlush idx) ∧
    ((∀ l p, (script l .tick p).2 ≠ .noSuchFunction) → r.state.ticks = due) := by
  have key : ∀ (is : List (Option (Int × Event F))) (r : FilterRun F (Programmable F L)),
      (∀ e ∈ r.events, ∃ idx, e = .timerFlush idx) →
      Stretch script r (FilterRun.run (programmableProcess script fail) sources r is).1
        (dueTicks r.state.lastFlushIdx (tickResults script fail sources r is)) := by
    intro is
    induction is with
    | nil => intro r h; simpa [Stretch, FilterRun.run, tickResults, dueTicks] using h
    | cons i is ih =>
      intro r h
      simp only [FilterRun.run, tickResults]
      cases hfin : r.finished with
      | true => simpa [Stretch, dueTicks] using h
      | false =>
        simp only [Bool.false_eq_true, if_false]
        have quiet : ∀ r2 : FilterRun F (Programmable F L), r2 = r.step (programmableProcess script fail) sources i →
            (∀ e ∈ r2.events, ∃ idx, e = .timerFlush idx) → r2.state.lastFlushIdx = r.state.lastFlushIdx →
            r2.state.ticks = r.state.ticks →
            r2.sent.filterMap Event.flushIdx ++ r2.events.filterMap Event.flushIdx =
              r.sent.filterMap Event.flushIdx ++ r.events.filterMap Event.flushIdx →
            (match i with
              | some (_, .timerFlush idx) => [(idx, (script r.state.lua .tick ⟨[], []⟩).2.succeeds)]
              | _ => []) = [] →
            Stretch script r
              (FilterRun.run (programmableProcess script fail) sources
                (r.step (programmableProcess script fail) sources i) is).1
              (dueTicks r.state.lastFlushIdx ((match i with
                | some (_, .timerFlush idx) => [(idx, (script r.state.lua .tick ⟨[], []⟩).2.succeeds)]
                | _ => []) ++ tickResults script fail sources
                  (r.step (programmableProcess script fail) sources i) is)) := by
          intro r2 hr2 a b c d e
          have := ih r2 a
          simp only [Stretch] at this ⊢
          rw [b, c, d, hr2] at this
          rw [e]
          exact this
        cases i with
        | none => exact quiet r rfl h rfl rfl rfl rfl
        | some x =>
          obtain ⟨now, e⟩ := x
          cases e with
          | shutdown => exact quiet _ rfl h rfl rfl (by simp [FilterRun.step, Event.flushIdx]) rfl
          | raw m =>
            exact quiet _ rfl (by simp [FilterRun.step, programmableProcess]) rfl rfl
              (by simp [FilterRun.step, programmableProcess, Event.flushIdx]) rfl
          | telemetry m =>
            rcases hs : script r.state.lua .processMetric ⟨[m], []⟩ with ⟨l', _ | _ | q⟩
            · refine quiet _ rfl ?_ ?_ ?_ ?_ rfl <;> simp [FilterRun.step, programmableProcess, runLua, hs, hfail]
              exact h
            · refine quiet _ rfl ?_ ?_ ?_ ?_ rfl <;> simp [FilterRun.step, programmableProcess, runLua, hs, hfail]
              exact h
            · refine quiet _ rfl ?_ ?_ ?_ ?_ rfl <;>
                simp [FilterRun.step, programmableProcess, runLua, hs, List.filterMap_map, Function.comp_def, Event.flushIdx]
          | log m =>
            rcases hs : script r.state.lua .processLog ⟨[], [m]⟩ with ⟨l', _ | _ | q⟩
            · refine quiet _ rfl ?_ ?_ ?_ ?_ rfl <;> simp [FilterRun.step, programmableProcess, runLua, hs, hfail]
              exact h
            · refine quiet _ rfl ?_ ?_ ?_ ?_ rfl <;> simp [FilterRun.step, programmableProcess, runLua, hs, hfail]
              exact h
            · refine quiet _ rfl ?_ ?_ ?_ ?_ rfl <;>
                simp [FilterRun.step, programmableProcess, runLua, hs, List.filterMap_map, Function.comp_def, Event.flushIdx]
          | timerFlush idx =>
            simp only [List.cons_append, List.nil_append, dueTicks]
            by_cases hlt : r.state.lastFlushIdx < idx
            · have hge : ¬ (r.state.lastFlushIdx ≥ idx) := by omega
              have hfi : ∀ i, Event.flushIdx (.timerFlush i : Event F) = some i := fun _ => rfl
              rw [if_pos hlt]
              rcases hs : script r.state.lua .tick ⟨[], []⟩ with ⟨l', res⟩
              have step_eq : ∀ r2, r2 = r.step (programmableProcess script fail) sources (some (now, .timerFlush idx)) →
                  (∀ e ∈ r2.events, ∃ idx, e = .timerFlush idx) →
                  r2.state.lastFlushIdx = (if res.succeeds = true then idx else r.state.lastFlushIdx) →
                  (res ≠ .noSuchFunction → r2.state.ticks = r.state.ticks ++ [idx]) →
                  r2.sent.filterMap Event.flushIdx ++ r2.events.filterMap Event.flushIdx =
                    r.sent.filterMap Event.flushIdx ++ r.events.filterMap Event.flushIdx ++ [idx] →
                  Stretch script r
                    (FilterRun.run (programmableProcess script fail) sources
                      (r.step (programmableProcess script fail) sources (some (now, .timerFlush idx))) is).1
                    (idx :: dueTicks (if res.succeeds = true then idx else r.state.lastFlushIdx)
                      (tickResults script fail sources
                        (r.step (programmableProcess script fail) sources (some (now, .timerFlush idx))) is)) := by
                intro r2 hr2 a b c d
                have := ih r2 a
                simp only [Stretch] at this ⊢
                rw [b, d] at this
                rw [← hr2]
                refine ⟨?_, this.2.1, ?_⟩
                · rw [this.1]; simp
                · intro hn
                  have hne : res ≠ .noSuchFunction := by
                    have := hn r.state.lua ⟨[], []⟩
                    rw [hs] at this; exact this
                  rw [this.2.2 hn, c hne]; simp
              cases res with
              | noSuchFunction =>
                refine step_eq _ rfl ?_ ?_ ?_ ?_ <;>
                  simp [FilterRun.step, programmableProcess, runLua, hs, hge, LuaResult.succeeds, LuaResult.called, hfail, hfi]
                intro e he
                rcases he with he | he
                · exact h e he
                · exact ⟨idx, he⟩
              | error =>
                refine step_eq _ rfl ?_ ?_ ?_ ?_ <;>
                  simp [FilterRun.step, programmableProcess, runLua, hs, hge, LuaResult.succeeds, LuaResult.called, hfail, hfi]
                intro e he
                rcases he with he | he
                · exact h e he
                · exact ⟨idx, he⟩
              | ok q =>
                refine step_eq _ rfl ?_ ?_ ?_ ?_ <;>
                  simp [FilterRun.step, programmableProcess, runLua, hs, hge, LuaResult.succeeds, LuaResult.called,
                    List.filterMap_map, Function.comp_def, Event.flushIdx]
                rw [List.filterMap_eq_nil_iff.2 (by simp), List.filterMap_eq_nil_iff.2 (by simp)]; rfl
            · have hge : r.state.lastFlushIdx ≥ idx := by omega
              rw [if_neg hlt]
              have := ih (r.step (programmableProcess script fail) sources (some (now, .timerFlush idx)))
              simp only [Stretch, FilterRun.step, programmableProcess, if_pos hge] at this ⊢
              simpa using this (by simp)
  have := key recv { state := { lua := l } } (by simp)
  simpa [Stretch] using this

/-- **C23 is false of the code** when `tick` fails or the script has none: its flush is not passed on, however many flushes follow, and a `Shutdown`
drops it.  (An event that the script does process would release it.) -/
theorem C23_held_false {L : Type} (script : Script F L) (fail : LuaFn → Event F)
    (htick : ∀ l p, (script l .tick p).2.succeeds = false) (l : L) (idxs : List Nat) (hpos : ∀ i ∈ idxs, 0 < i) :
    let r := (FilterRun.run (programmableProcess script fail) 1 { state := { lua := l } }
      (idxs.map (fun i => some (0, .timerFlush i)) ++ [some (0, .shutdown)])).1
    r.finished = true ∧ r.sent = List.replicate idxs.length (fail .tick) ++ [.shutdown] ∧
      r.events = idxs.map .timerFlush := by
  have key : ∀ (idxs : List Nat), (∀ i ∈ idxs, 0 < i) → ∀ r : FilterRun F (Programmable F L),
      r.finished = false → r.totalShutdowns = 0 → r.state.lastFlushIdx = 0 →
      let r' := (FilterRun.run (programmableProcess script fail) 1 r
        (idxs.map (fun i => some (0, .timerFlush i)) ++ [some (0, .shutdown)])).1
      r'.finished = true ∧ r'.sent = r.sent ++ List.replicate idxs.length (fail .tick) ++ [.shutdown] ∧
        r'.events = r.events ++ idxs.map .timerFlush := by
    intro idxs
    induction idxs with
    | nil => intro _ r hf ht _; simp [FilterRun.run, hf, FilterRun.step, ht]
    | cons i is ih =>
      intro hp r hf ht hl
      have hi : ¬ (r.state.lastFlushIdx ≥ i) := by
        have := hp i (by simp); omega
      have hs := htick r.state.lua ⟨[], []⟩
      simp only [List.map_cons, List.cons_append, FilterRun.run, hf, Bool.false_eq_true, if_false]
      rcases hsc : script r.state.lua .tick ⟨[], []⟩ with ⟨l', res⟩
      rw [hsc] at hs
      have := ih (fun j hj => hp j (by simp [hj])) (r.step (programmableProcess script fail) 1 (some (0, .timerFlush i)))
      cases res with
      | ok q => simp [LuaResult.succeeds] at hs
      | noSuchFunction =>
        have := this (by simp [FilterRun.step, programmableProcess, runLua, hsc, hi, hf])
          (by simp [FilterRun.step, programmableProcess, runLua, hsc, hi, ht])
          (by simp only [FilterRun.step, programmableProcess, runLua, hsc]; rw [if_neg hi]; exact hl)
        refine ⟨this.1, ?_, ?_⟩
        · rw [this.2.1]; simp [FilterRun.step, programmableProcess, runLua, hsc, hi, List.replicate_succ]
        · rw [this.2.2]; simp [FilterRun.step, programmableProcess, runLua, hsc, hi]
      | error =>
        have := this (by simp [FilterRun.step, programmableProcess, runLua, hsc, hi, hf])
          (by simp [FilterRun.step, programmableProcess, runLua, hsc, hi, ht])
          (by simp only [FilterRun.step, programmableProcess, runLua, hsc]; rw [if_neg hi]; exact hl)
        refine ⟨this.1, ?_, ?_⟩
        · rw [this.2.1]; simp [FilterRun.step, programmableProcess, runLua, hsc, hi, List.replicate_succ]
        · rw [this.2.2]; simp [FilterRun.step, programmableProcess, runLua, hsc, hi]
  have := key idxs hpos { state := { lua := l } } rfl rfl rfl
  simpa using this

/-- A `tick` that fails the first time: flush 1 is tried twice and passed on twice, both with the flush that succeeds. -/
example :
    let script : Script Int Nat := fun n fn p => (n + 1, if fn = .tick ∧ n = 0 then .error else .ok p)
    let r := (FilterRun.run (programmableProcess script (fun _ => .log ⟨0, [], [], [], none⟩)) 2 { state := { lua := 0 } }
      [some (0, .timerFlush 1), some (0, .timerFlush 1), some (0, .timerFlush 1)]).1
    r.state.ticks = [1, 1] ∧ r.sent.filterMap Event.flushIdx = [1, 1] ∧ r.events = [] ∧
      tickResults script (fun _ => .log ⟨0, [], [], [], none⟩) 2 { state := { lua := 0 } }
        [some (0, .timerFlush 1), some (0, .timerFlush 1), some (0, .timerFlush 1)] = [(1, false), (1, true), (1, true)] := by
  simp [FilterRun.run, FilterRun.step, programmableProcess, runLua, LuaResult.called, tickResults, LuaResult.succeeds, Event.flushIdx, List.filterMap_cons]

/-- C23 on a run with duplicated and stale flushes. -/
example :
    let script : Script Int Unit := fun l _ p => (l, .ok p)
    let r := FilterRun.run (programmableProcess script (fun _ => .shutdown)) 2
      { state := { lua := () } }
      [some (0, .timerFlush 2), some (0, .timerFlush 1), some (0, .timerFlush 2),
       some (0, .timerFlush 3)]
    r.1.state.ticks = [2, 3] ∧ r.1.sent = [.timerFlush 2, .timerFlush 3] := by
  simp [FilterRun.run, FilterRun.step, programmableProcess, runLua, LuaResult.called]

/-! ## C73 — what the script leaves in its payload is what is emitted -/

/-- **C73.** An event given to the script, with nothing held back: if the call succeeds, what is
sent is exactly the log lines and then the points the script left in its payload (for a new flush:
and then the flush), in order, and the script's own state moves on; if the call fails, only
the failure counter is sent.  The script sees exactly the event (an empty payload at a flush). -/
theorem C73_script_output {L : Type} (script : Script F L) (fail : LuaFn → Event F) (n : Nat)
    (r : FilterRun F (Programmable F L)) (hb : r.events = []) (now : Int) (e : Event F)
    (fn : LuaFn) (pyld : Payload F) (after : List (Event F))
    (he : (∃ m, e = .telemetry m ∧ fn = .processMetric ∧ pyld = ⟨[m], []⟩ ∧ after = []) ∨
      (∃ l, e = .log l ∧ fn = .processLog ∧ pyld = ⟨[], [l]⟩ ∧ after = []) ∨
      (∃ idx, e = .timerFlush idx ∧ r.state.lastFlushIdx < idx ∧ fn = .tick ∧ pyld = ⟨[], []⟩ ∧
        after = [e]))
    (l' : L) (res : LuaResult F) (hcall : script r.state.lua fn pyld = (l', res)) :
    let r' := r.step (programmableProcess script fail) n (some (now, e))
    r'.state.lua = l' ∧
    (∀ p, res = .ok p → r'.events = [] ∧
      r'.sent = r.sent ++ (p.logs.map Event.log ++ p.metrics.map Event.telemetry ++ after)) ∧
    ((∀ p, res ≠ .ok p) → r'.sent = r.sent ++ [fail fn] ∧ (fn ≠ .tick → r'.events = [])) := by
  rcases he with ⟨m, rfl, rfl, rfl, rfl⟩ | ⟨m, rfl, rfl, rfl, rfl⟩ | ⟨idx, rfl, hlt, rfl, rfl, rfl⟩
  · cases res <;> simp [FilterRun.step, programmableProcess, runLua, hcall, hb]
  · cases res <;> simp [FilterRun.step, programmableProcess, runLua, hcall, hb]
  · have hge : ¬ (r.state.lastFlushIdx ≥ idx) := by omega
    cases res <;> simp [FilterRun.step, programmableProcess, runLua, hcall, hb, hge]

/-- C73 on a script that replaces the point it is given by a log line and two points. -/
example :
    let m : Telemetry Int := ⟨['a'], .sum 1, false, none, 5, none, none⟩
    let l : LogLine := ⟨5, ['q'], ['x'], [], none⟩
    let script : Script Int Nat := fun n _ p => (n + 1, .ok ⟨p.metrics ++ p.metrics, [l]⟩)
    let r := FilterRun.step (programmableProcess script (fun _ => .shutdown)) 1
      { state := { lua := 0 } } (some (0, .telemetry m))
    r.sent = [.log l, .telemetry m, .telemetry m] ∧ r.state.lua = 1 := by
  simp [FilterRun.step, programmableProcess, runLua]

end
end Verif
