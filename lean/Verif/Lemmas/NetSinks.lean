import Verif.Lemmas.NetLog
import Verif.Lemmas.SinkImpls
/-!
# A sink of the process and its run-loop alone
-/
namespace Verif
namespace Net
variable {F : Type} [F64 F] {p : Setup F} {ls : Nat → Label F}

theorem steps_succ {σ : Type} (k : SinkImpl F σ) (m : Nat) : ∀ (j : Nat) (r : SinkRun F σ),
    r.steps k m (j + 1) = (r.steps k m j).step k m := by
  intro j
  induction j with
  | zero => intro r; rfl
  | succ j ih => intro r; rw [SinkRun.steps, ih]; rfl

/-- a step that does not find the queue empty is the same with more in the queue -/
theorem step_longer {σ : Type} (k : SinkImpl F σ) (m : Nat) (r : SinkRun F σ) (q : List (Option (Event F)))
    (h : ¬ (r.current = none ∧ r.queue = [])) :
    SinkRun.step k m { r with queue := r.queue ++ q } = { r.step k m with queue := (r.step k m).queue ++ q } := by
  obtain ⟨st, qu, cur, li, ts, ret, calls⟩ := r
  simp only [SinkRun.step]
  cases ret with
  | true => simp
  | false =>
    simp only [Bool.false_eq_true, if_false]
    cases cur with
    | none =>
      cases qu with
      | nil => simp at h
      | cons o qu => cases o <;> simp
    | some e =>
      simp only
      by_cases hv : k.valveOpen st = true
      · simp only [hv, if_true]
        cases e with
        | timerFlush idx =>
          simp only [SinkRun.handle]
          by_cases h1 : idx > li
          · simp only [h1, if_true]
            cases k.flushInterval st with
            | none => rfl
            | some i => by_cases h2 : i = 0 ∨ idx % i = 0 <;> simp only [h2, if_true, if_false]
          · simp only [h1, if_false]
        | shutdown =>
          simp only [SinkRun.handle]
          by_cases h1 : ts + 1 ≥ m <;> simp only [h1, if_true, if_false]
        | telemetry _ => rfl
        | log _ => rfl
        | raw _ => rfl
      · simp [hv]

/-- A sink of the process is where its run-loop gets to alone, on what its queue has accepted. -/
theorem sink_alone (hL : Linked p) {n : Str} {ups : List Str} (h : (n, ups) ∈ p.wiring.sinks) (t : Nat) :
    ∃ r j, (run p ls t).nodes n = some (.sink (p.sink n) ups.length r) ∧
      ∀ q, SinkRun.steps (p.sink n).impl ups.length j
        { state := (p.sink n).start, queue := ((run p ls t).log n).map (fun x => some x.2) ++ q } = { r with queue := r.queue ++ q } := by
  have h0 : ((initial p).nodes n).isSome := by rw [hL.sinkNode n ups h]; rfl
  induction t with
  | zero => exact ⟨_, 0, hL.sinkNode n ups h, fun q => rfl⟩
  | succ t ih =>
    obtain ⟨r, j, h1, h2⟩ := ih
    have hlog : ∀ q, ((run p ls (t + 1)).log n).map (fun x => some x.2) ++ q =
        ((run p ls t).log n).map (fun x => some x.2) ++ ((arrive p (run p ls t) (ls t) n).map some ++ q) := by
      intro q
      rw [log_succ h0, List.map_append, List.map_map, List.append_assoc]
      rfl
    rcases sink_step p _ (ls t) h1 with ⟨g, -⟩ | ⟨-, g⟩
    · refine ⟨_, j, g, fun q => ?_⟩
      rw [hlog, h2]
      simp only [List.append_assoc]
    · by_cases hidle : r.current = none ∧ r.queue = []
      · have hs : r.step (p.sink n).impl ups.length = r := by
          simp only [SinkRun.step, hidle.1, hidle.2]
          split <;> rfl
        refine ⟨_, j, g, fun q => ?_⟩
        rw [hlog, h2, hs]
        simp only [List.append_assoc]
      · refine ⟨_, j + 1, g, fun q => ?_⟩
        rw [hlog, steps_succ, h2, step_longer _ _ _ _ hidle]
        simp only [List.append_assoc]

end Net
end Verif
