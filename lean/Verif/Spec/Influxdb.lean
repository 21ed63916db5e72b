import Verif.Model.Influxdb
import Verif.Spec.Wavefront
/-!
# Specification of the InfluxDB sink: the line protocol text and the history of the sink
-/
namespace Verif
namespace Influx
open Wavefront (Ext)
section
variable {F : Type} [F64 F]

/-- One line of the line protocol. -/
def influxLine (name tags value time : Str) : Str :=
  name ++ tags ++ " value=".toList ++ value ++ " ".toList ++ time ++ "\n".toList

/-- `,key=value` for each tag. -/
def tagText : List (Str × Str) → Str
  | [] => []
  | (k, v) :: rest => [','] ++ k ++ ['='] ++ v ++ tagText rest

/-- The percentiles of a summary, with the text of each. -/
def reportedPercentiles : List F :=
  [(25, 100), (50, 100), (75, 100), (90, 100), (99, 100)].map
    (fun p : Nat × Nat => F64.div (F64.ofNat p.1) (F64.ofNat p.2)) ++ [F64.ofNat 1]

/-- The text of one point: one line for a gauge or counter, one per bin of a histogram, one per
answered percentile of a summary. `time` is its time as written. -/
def pointText (ext : Ext F) (tags : TagMap) (time : Int → Str) (t : Telemetry F) : Str :=
  let tail := tagText (t.iterTags tags)
  match t.value with
  | .set v | .sum v => influxLine t.name tail (ext.showF v) (time t.timestamp)
  | .histogram h => ((F64.histBins h).map fun b =>
      influxLine (t.name ++ ".le_".toList ++ (match b.1 with
        | some x => ext.showF x
        | none => "inf".toList)) tail (ext.showF (F64.ofNat b.2)) (time t.timestamp)).flatten
  | .quantiles c _ => (reportedPercentiles.map fun p => match F64.ckmsQuery c p with
      | some q => influxLine (t.name ++ ['.'] ++ ext.showF p) tail (ext.showF q) (time t.timestamp)
      | none => []).flatten

/-- The numbers printed as values for a point. -/
def printed (t : Telemetry F) (x : F) : Prop :=
  match t.value with
  | .set v | .sum v => x = v
  | .histogram h => ∃ b ∈ F64.histBins h, x = F64.ofNat b.2
  | .quantiles c _ => ∃ p ∈ reportedPercentiles, F64.ckmsQuery c p = some x

/-- A step: a point arrives, or a flush is run to its end: some outcomes without a success, then
success. -/
inductive Op (F : Type) [F64 F] where
  | point (t : Telemetry F)
  | flush (failures : List Outcome)

/-- The sink run over a history: the final state and the payload of every accepted POST. -/
def run (ext : Ext F) (s : State F) : List (Op F) → Option (State F × List Str)
  | [] => some (s, [])
  | .point t :: ops => run ext (deliver s t) ops
  | .flush failures :: ops =>
    match flush ext s (failures ++ [.success]) with
    | none => none
    | some (s', wire, _) =>
      match wire.getLast? with
      | some (.post p) => (run ext s' ops).map fun (s'', ps) => (s'', p :: ps)
      | _ => none

/-- The points that arrived between flushes: one list per flush, and those after the last. -/
def batches (waiting : List (Telemetry F)) : List (Op F) → List (List (Telemetry F)) × List (Telemetry F)
  | [] => ([], waiting)
  | .point t :: ops => batches (waiting ++ [t]) ops
  | .flush _ :: ops => let (bs, w) := batches [] ops; (waiting :: bs, w)

end
end Influx
end Verif
