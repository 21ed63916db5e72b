import Verif.Spec.SinkImpls
import Verif.Spec.Kill
import Verif.Spec.Scrape
/-!
# Specification vocabulary for the Prometheus sink within the process (C156)
-/
namespace Verif
variable {F : Type} [F64 F] {σ : Type}

/-- What a sink has been asked to do that concerns its points, in order: to take one, or (`none`) to flush or shut down. -/
def askedBy (calls : List (SinkCall F σ)) : List (Option (Telemetry F)) :=
  calls.filterMap fun c => match c with
    | .deliver _ (.telemetry t) => some (some t)
    | .deliver _ _ => none
    | .pulseFlush _ _ | .valveFlush _ | .shutdown _ => some none

/-- What that means for the aggregation if the `i`-th of these happens at `clock i`: a point is inserted if it is not too old or too early, and a flush purges. -/
def promHistory (age : Option Nat) (clock : Nat → Int) (asked : List (Option (Telemetry F))) : List (Prometheus.Op F) :=
  asked.zipIdx.flatMap fun x => match x.1 with
    | none => [.purge (clock x.2)]
    | some t => if youngEnough age (clock x.2, t) then [.insert t] else []

end Verif
