import Verif.Model.Wavefront
import Verif.Model.Prometheus
/-!
# Functions that only the project's randomised tests look through
-/
namespace Verif
section
variable {F : Type} [F64 F]

/-- `Telemetry::is_zeroed` — src/metric/telemetry.rs:830-838. -/
def Telemetry.isZeroed (t : Telemetry F) : Bool :=
  match t.value with
  | .set x | .sum x => F64.eqb x F64.zero
  | .histogram h => F64.histCount h == 0
  | .quantiles c _ => F64.ckmsCount c == 0

/-- `Pad::is_zeroed` — src/sink/wavefront.rs:175-181. -/
def Wavefront.Pad.isZeroed : Wavefront.Pad F → Bool
  | .zero _ _ => true
  | .telem t => t.isZeroed

/-- `PrometheusAggr::count` — src/sink/prometheus.rs:320-323. -/
def Prometheus.Aggr.count (a : Prometheus.Aggr F) : Nat := a.data.length

/-- `Accumulator::total_stored_samples` — src/sink/prometheus.rs:114-125. -/
def Prometheus.Acc.totalStoredSamples : Prometheus.Acc F → Nat
  | .perpetual _ => 1
  | .windowed _ _ _ samples => samples.length

/-- `PrometheusAggr::find_match` — src/sink/prometheus.rs:235-258; the outer `none` is the panic of
`samples[0]`, the inner one "not found". -/
def Prometheus.Aggr.findMatch (a : Prometheus.Aggr F) (t : Telemetry F) : Option (Option (Telemetry F)) :=
  match Prometheus.find a.data t.name with
  | none => some none
  | some (.perpetual u) => some (some u)
  | some (.windowed _ _ _ []) => none
  | some (.windowed _ _ _ (s :: rest)) => some (some (rest.foldl (fun start t => start.addAssign t) s))

end
end Verif
