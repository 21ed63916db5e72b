import Verif.Spec.Sink
namespace Verif

section
variable {F : Type} [F64 F] {σ : Type}

theorem records_snoc (xs : List Nat) (last x : Nat) :
    records last (xs ++ [x]) = records last xs ++ (if xs.foldl max last < x then [x] else []) := by
  induction xs generalizing last with
  | nil => rfl
  | cons y xs ih =>
    by_cases h : last < y
    · have hm : max last y = y := Nat.max_eq_right (Nat.le_of_lt h)
      simp [records, h, ih, hm]
    · have hm : max last y = last := Nat.max_eq_left (by omega)
      simp [records, h, ih, hm]

/-- What is true of the run-loop at every point, relative to the events `all` that
arrive. -/
structure SinkInv (k : SinkImpl F σ) (iv : Option Nat) (all : List (Event F)) (r : SinkRun F σ)
    (consumed : List (Event F)) : Prop where
  split : all = consumed ++ r.current.toList ++ arrivals r.queue
  noShutdown : ∀ e ∈ consumed, e.isShutdown = false
  delivered : deliveredBy r.calls = consumed.filter Event.isPayload
  last : r.lastFlushIdx = (pulses consumed).foldl max 0
  flushed : flushedBy r.calls = (records 0 (pulses consumed)).filter (dueAt iv)
  valve : ∀ c ∈ r.calls, match c with
    | .deliver b _ => k.valveOpen b = true
    | .pulseFlush b _ => k.valveOpen b = true
    | .valveFlush b => k.valveOpen b = false
    | .shutdown b => k.valveOpen b = true
  shutdown : shutdownsBy r.calls = if r.returned then 1 else 0
  ret : r.returned = true → r.current = some .shutdown ∧
    ∃ cs b, r.calls = cs ++ [.shutdown b]

theorem dueAt_iff (i idx : Nat) : (i = 0 ∨ idx % i = 0) ↔ dueAt (some i) idx = true := by
  simp [dueAt, Nat.dvd_iff_mod_eq_zero]

theorem SinkInv.payload {k : SinkImpl F σ} {iv : Option Nat} {all : List (Event F)}
    {r : SinkRun F σ} {consumed : List (Event F)} (h : SinkInv k iv all r consumed)
    {e : Event F} (hcur : r.current = some e) (hret : r.returned = false)
    (hv : k.valveOpen r.state = true) (st : σ) (hp : e.isPayload = true) :
    SinkInv k iv all { r with state := st, current := none,
                              calls := r.calls ++ [.deliver r.state e] } (consumed ++ [e]) := by
  have hs := h.split
  rw [hcur] at hs
  have hsd : shutdownsBy r.calls = 0 := by simpa [hret] using h.shutdown
  have hpul : pulses (consumed ++ [e]) = pulses consumed := by
    simp only [pulses, List.filterMap_append]
    cases e <;> first | (simp [Event.flushIdx]; done) | (simp [Event.isPayload] at hp)
  refine ⟨by simpa using hs, ?_, ?_, ?_, ?_, ?_, ?_, by simp [hret]⟩
  · intro x hx
    rcases List.mem_append.1 hx with hx | hx
    · exact h.noShutdown x hx
    · simp at hx; subst hx
      cases x <;> first | rfl | (simp [Event.isPayload] at hp)
  · have hd := h.delivered
    rw [List.filter_append, ← hd, List.filter_cons_of_pos hp]
    simp [deliveredBy]
  · rw [hpul]; exact h.last
  · rw [hpul, ← h.flushed]; simp [flushedBy]
  · intro c hc
    rcases List.mem_append.1 hc with hc | hc
    · exact h.valve c hc
    · simp at hc; subst hc; exact hv
  · simpa [shutdownsBy, hret] using hsd

theorem SinkInv.step {k : SinkImpl F σ} {iv : Option Nat} (hiv : ∀ s, k.flushInterval s = iv)
    {all : List (Event F)} {r : SinkRun F σ} {consumed : List (Event F)} (n : Nat)
    (h : SinkInv k iv all r consumed) :
    ∃ consumed', SinkInv k iv all (r.step k n) consumed' ∧
      (r.returned = false → ∃ more, consumed' = consumed ++ more) := by
  unfold SinkRun.step
  cases hret : r.returned with
  | true => exact ⟨consumed, by simpa [hret] using h, by simp⟩
  | false =>
    simp only [Bool.false_eq_true, if_false]
    have hsd : shutdownsBy r.calls = 0 := by simpa [hret] using h.shutdown
    cases hcur : r.current with
    | none =>
      have hs := h.split
      rw [hcur] at hs
      cases hq : r.queue with
      | nil => exact ⟨consumed, h, fun _ => ⟨[], by simp⟩⟩
      | cons x q =>
        rw [hq] at hs
        cases x with
        | none =>
          exact ⟨consumed, ⟨by simpa [arrivals, hcur] using hs, h.noShutdown, h.delivered, h.last,
            h.flushed, h.valve, by simpa [hret] using hsd, by simp⟩, fun _ => ⟨[], by simp⟩⟩
        | some e =>
          exact ⟨consumed, ⟨by simpa [arrivals] using hs, h.noShutdown, h.delivered, h.last,
            h.flushed, h.valve, by simpa [hret] using hsd, by simp⟩, fun _ => ⟨[], by simp⟩⟩
    | some e =>
      have hs := h.split
      rw [hcur] at hs
      cases hv : k.valveOpen r.state with
      | false =>
        simp only [Bool.false_eq_true, if_false]
        refine ⟨consumed, ⟨by simpa using hs, h.noShutdown, ?_, h.last, ?_, ?_, ?_, by simp⟩,
          fun _ => ⟨[], by simp⟩⟩
        · simpa [deliveredBy] using h.delivered
        · simpa [flushedBy] using h.flushed
        · intro c hc
          rcases List.mem_append.1 hc with hc | hc
          · exact h.valve c hc
          · simp at hc; subst hc; exact hv
        · simpa [shutdownsBy, hret] using hsd
      | true =>
        simp only [if_true]
        cases e with
        | shutdown =>
          simp only [SinkRun.handle]
          split
          · refine ⟨consumed, ⟨by simpa [hcur] using hs, h.noShutdown, ?_, h.last, ?_, ?_, ?_, ?_⟩,
              fun _ => ⟨[], by simp⟩⟩
            · simpa [deliveredBy] using h.delivered
            · simpa [flushedBy] using h.flushed
            · intro c hc
              rcases List.mem_append.1 hc with hc | hc
              · exact h.valve c hc
              · simp at hc; subst hc; exact hv
            · simp only [shutdownsBy, List.countP_append, if_true] at hsd ⊢
              rw [hsd]; rfl
            · exact fun _ => ⟨hcur, _, _, rfl⟩
          · exact ⟨consumed, ⟨by simpa [hcur] using hs, h.noShutdown, h.delivered, h.last, h.flushed,
              h.valve, by simpa [hret] using hsd, by simp [hret]⟩, fun _ => ⟨[], by simp⟩⟩
        | timerFlush idx =>
          have hp : pulses (consumed ++ [.timerFlush idx]) = pulses consumed ++ [idx] := by
            simp [pulses, Event.flushIdx]
          have hsplit : all = (consumed ++ [.timerFlush idx]) ++ ([] : List (Event F)) ++
              arrivals r.queue := by simpa using hs
          have hns : ∀ e ∈ consumed ++ [.timerFlush idx], e.isShutdown = false := by
            intro e he
            rcases List.mem_append.1 he with he | he
            · exact h.noShutdown e he
            · simp at he; subst he; rfl
          have hdel : (consumed ++ [Event.timerFlush idx]).filter Event.isPayload =
              consumed.filter Event.isPayload := by simp [List.filter_append, Event.isPayload]
          simp only [SinkRun.handle, hiv]
          by_cases hlt : idx > r.lastFlushIdx
          · rw [if_pos hlt]
            have hlast : idx = (pulses (consumed ++ [.timerFlush idx])).foldl max 0 := by
              rw [hp, List.foldl_append, ← h.last]; simp; omega
            have hrec : records 0 (pulses (consumed ++ [.timerFlush idx])) =
                records 0 (pulses consumed) ++ [idx] := by
              rw [hp, records_snoc, ← h.last, if_pos hlt]
            cases hiv' : iv with
            | none =>
              refine ⟨consumed ++ [.timerFlush idx], ⟨hsplit, hns, ?_, hlast, ?_, h.valve,
                by simpa [hret] using hsd, by simp [hret]⟩, fun _ => ⟨_, rfl⟩⟩
              · rw [hdel]; exact h.delivered
              · rw [hrec, List.filter_append, h.flushed, hiv']; simp [dueAt]
            | some i =>
              simp only
              by_cases hdue : i = 0 ∨ idx % i = 0
              · rw [if_pos hdue]
                refine ⟨consumed ++ [.timerFlush idx], ⟨hsplit, hns, ?_, hlast, ?_, ?_,
                  ?_, by simp [hret]⟩, fun _ => ⟨_, rfl⟩⟩
                · rw [hdel, ← h.delivered]; simp [deliveredBy]
                · rw [hrec, List.filter_append]
                  have hd := (dueAt_iff i idx).1 hdue
                  have hf := h.flushed
                  rw [hiv'] at hf
                  rw [← hf]
                  simp [flushedBy, hd]
                · intro c hc
                  rcases List.mem_append.1 hc with hc | hc
                  · exact h.valve c hc
                  · simp at hc; subst hc; exact hv
                · simpa [shutdownsBy, hret] using hsd
              · rw [if_neg hdue]
                refine ⟨consumed ++ [.timerFlush idx], ⟨hsplit, hns, ?_, hlast, ?_, h.valve,
                  by simpa [hret] using hsd, by simp [hret]⟩, fun _ => ⟨_, rfl⟩⟩
                · rw [hdel]; exact h.delivered
                · rw [hrec, List.filter_append]
                  have hd : dueAt (some i) idx = false := by
                    cases hb : dueAt (some i) idx with
                    | true => exact absurd ((dueAt_iff i idx).2 hb) hdue
                    | false => rfl
                  have hf := h.flushed
                  rw [hiv'] at hf
                  simp [hd, hf]
          · rw [if_neg hlt]
            refine ⟨consumed ++ [.timerFlush idx], ⟨hsplit, hns, ?_, ?_, ?_, h.valve,
              by simpa [hret] using hsd, by simp [hret]⟩, fun _ => ⟨_, rfl⟩⟩
            · rw [hdel]; exact h.delivered
            · rw [hp, List.foldl_append, ← h.last]; simp; omega
            · rw [hp, records_snoc, ← h.last, if_neg hlt]; simpa using h.flushed
        | telemetry m => exact ⟨_, h.payload hcur hret hv _ rfl, fun _ => ⟨_, rfl⟩⟩
        | log m => exact ⟨_, h.payload hcur hret hv _ rfl, fun _ => ⟨_, rfl⟩⟩
        | raw m => exact ⟨_, h.payload hcur hret hv _ rfl, fun _ => ⟨_, rfl⟩⟩

theorem SinkInv.steps {k : SinkImpl F σ} {iv : Option Nat} (hiv : ∀ s, k.flushInterval s = iv)
    {all : List (Event F)} (sources n : Nat) {r : SinkRun F σ} {consumed : List (Event F)}
    (h : SinkInv k iv all r consumed) :
    ∃ consumed', SinkInv k iv all (r.steps k sources n) consumed' := by
  induction n generalizing r consumed with
  | zero => exact ⟨consumed, h⟩
  | succ n ih =>
    obtain ⟨c', h', _⟩ := h.step hiv sources
    exact ih h'

theorem SinkInv.init (k : SinkImpl F σ) (iv : Option Nat) (st : σ) (recv) :
    SinkInv k iv (arrivals recv) { state := st, queue := recv } [] where
  split := by simp
  noShutdown := by simp
  delivered := by simp [deliveredBy]
  last := rfl
  flushed := by simp [flushedBy, pulses, records]
  valve := by simp
  shutdown := by simp [shutdownsBy]
  ret := by simp

/-- A sink's state is the result of calls. -/
theorem step_reaches {κ : Type} {k : SinkImpl F κ} {st : κ} (n : Nat) {r : SinkRun F κ} (h : Reaches k st r.state) :
    Reaches k st (r.step k n).state := by
  simp only [SinkRun.step]
  split
  · exact h
  · split
    · split <;> exact h
    · rename_i e _
      split
      · cases e with
        | timerFlush idx =>
          simp only [SinkRun.handle]
          repeat' split
          all_goals first | exact h | exact .flush _ h
        | telemetry m => exact .deliver _ _ h
        | log l => exact .deliverLine _ _ h
        | raw m => exact .deliverRaw _ _ h
        | shutdown =>
          simp only [SinkRun.handle]
          split
          · exact .shutdown _ h
          · exact h
      · exact .flush _ h

end
end Verif
