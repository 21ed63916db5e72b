import Verif.Model.Sink
/-!
# The state of a sink is what the calls made on it lead to
-/
namespace Verif
variable {F : Type} [F64 F] {κ : Type}

/-- the state after a call -/
def SinkImpl.after (k : SinkImpl F κ) (s : κ) : SinkCall F κ → κ
  | .deliver _ (.telemetry t) => k.deliver s t
  | .deliver _ (.log l) => k.deliverLine s l
  | .deliver _ (.raw x) => k.deliverRaw s x
  | .deliver _ (.timerFlush _) => s
  | .deliver _ .shutdown => s
  | .pulseFlush _ _ => k.flush s
  | .valveFlush _ => k.flush s
  | .shutdown _ => k.shutdown s

/-- the state after some calls -/
def SinkImpl.replay (k : SinkImpl F κ) (s : κ) (calls : List (SinkCall F κ)) : κ := calls.foldl k.after s

theorem SinkImpl.replay_append (k : SinkImpl F κ) (s : κ) (a b : List (SinkCall F κ)) : k.replay s (a ++ b) = k.replay (k.replay s a) b :=
  List.foldl_append

theorem SinkRun.step_replay (k : SinkImpl F κ) (sources : Nat) (st : κ) (r : SinkRun F κ) (h : r.state = k.replay st r.calls) :
    (r.step k sources).state = k.replay st (r.step k sources).calls := by
  simp only [SinkRun.step]
  split
  · exact h
  split
  · split <;> exact h
  · split
    · rename_i e _ _
      cases e with
      | timerFlush idx =>
        simp only [SinkRun.handle]
        split
        · split
          · split
            · simp [SinkImpl.replay_append, h, SinkImpl.replay, SinkImpl.after]
            · exact h
          · exact h
        · exact h
      | telemetry t => simp [SinkRun.handle, SinkImpl.replay_append, h, SinkImpl.replay, SinkImpl.after]
      | log l => simp [SinkRun.handle, SinkImpl.replay_append, h, SinkImpl.replay, SinkImpl.after]
      | raw x => simp [SinkRun.handle, SinkImpl.replay_append, h, SinkImpl.replay, SinkImpl.after]
      | shutdown =>
        simp only [SinkRun.handle]
        split
        · simp [SinkImpl.replay_append, h, SinkImpl.replay, SinkImpl.after]
        · exact h
    · simp [SinkImpl.replay_append, h, SinkImpl.replay, SinkImpl.after]

theorem SinkRun.steps_replay (k : SinkImpl F κ) (sources : Nat) (st : κ) : ∀ (n : Nat) (r : SinkRun F κ), r.state = k.replay st r.calls →
    (r.steps k sources n).state = k.replay st (r.steps k sources n).calls := by
  intro n
  induction n with
  | zero => intro r h; exact h
  | succ n ih => intro r h; exact ih _ (SinkRun.step_replay k sources st r h)

end Verif
