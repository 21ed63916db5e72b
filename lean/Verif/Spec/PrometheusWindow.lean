import Verif.Spec.Prometheus
/-!
# The window of a summary, replayed

What a summary holds after a history, told without a search: one sample for each second, in order of time.
-/
namespace Verif
namespace Prometheus
variable {F : Type} [F64 F]

/-- Put a point into its place in time; a point of a second that has a sample is merged into that. -/
def place (t : Telemetry F) : List (Telemetry F) → List (Telemetry F)
  | [] => [t]
  | s :: ss =>
    if s.timestamp < t.timestamp then s :: place t ss
    else if s.timestamp = t.timestamp then s.addAssign t :: ss
    else t :: s :: ss

/-- One event of the history, seen from a name whose points are summaries; `none`: no point so far. -/
def heldStep (cap : Nat) (name : Str) : Option (List (Telemetry F)) → Op F → Option (List (Telemetry F))
  | none, .insert t => if t.name = name then some [t] else none
  | none, .purge _ => none
  | some held, .insert t =>
    if t.name = name ∧ t.kind = .summarize then some ((place t held).drop ((place t held).length - cap)) else some held
  | some held, .purge now => some (held.filter fun s => decide (s.timestamp - now ≤ cap ∧ now - s.timestamp ≤ cap))

/-- What the summary of this name holds after a history. -/
def held (cap : Nat) (name : Str) (ops : List (Op F)) : List (Telemetry F) := (ops.foldl (heldStep cap name) none).getD []

end Prometheus
end Verif
