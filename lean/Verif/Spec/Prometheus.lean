import Verif.Model.Prometheus
/-!
# Vocabulary for the Prometheus properties
-/
namespace Verif
namespace Prometheus
section
variable {F : Type} [F64 F]

/-- What happens to the aggregation over time: a point is inserted, or it is purged. -/
inductive Op (F : Type) [F64 F] where
  | insert (t : Telemetry F)
  | purge (now : Int)

/-- Run a history; `none` is a panic. -/
def run (ext : Ext F) : Aggr F → List (Op F) → Option (Aggr F)
  | a, [] => some a
  | a, .insert t :: ops => match a.insert ext t with
    | none => none
    | some (a', _) => run ext a' ops
  | a, .purge now :: ops => run ext (a.purge now).1 ops

/-- The points inserted under a name, in order. -/
def pointsOf (name : Str) : List (Op F) → List (Telemetry F)
  | [] => []
  | .insert t :: ops => if t.name = name then t :: pointsOf name ops else pointsOf name ops
  | .purge _ :: ops => pointsOf name ops

/-- The part of a history that concerns one name: its points, and the purges. -/
def onlyName (name : Str) (ops : List (Op F)) : List (Op F) :=
  ops.filter fun
    | .insert t => decide (t.name = name)
    | .purge _ => true

/-- The points of a name that have the kind of its first point: those that are not refused. -/
def accepted (name : Str) (ops : List (Op F)) : List (Telemetry F) :=
  match pointsOf name ops with
  | [] => []
  | t :: ts => t :: ts.filter fun u => decide (u.kind = t.kind)

/-- The largest sample of a summary point. -/
def top (t : Telemetry F) (x : F) : Prop := t.query (F64.ofNat 1) = some x

/-- The number of samples held for summaries. -/
def samplesHeld (a : Aggr F) : Nat :=
  (a.data.map fun e => match e.2 with
    | .perpetual _ => 0
    | .windowed _ _ _ samples => samples.length).sum

/-- Lines that declare the type of a name. -/
def typeLines (name : Str) (ls : List (Line F)) : List Str :=
  ls.filterMap fun
    | .type n k => if n = name then some k else none
    | .sample .. => none

/-- The name of the type declared for a kind. -/
def typeName : Kind → Str
  | .sum => "counter".toList
  | .set => "gauge".toList
  | .histogram => "histogram".toList
  | .summarize => "summary".toList

/-- The quantiles a summary is reported at: the ends, then 25% to 99.9%. -/
def reportedQuantiles {F : Type} [F64 F] : List F :=
  [F64.ofNat 0, F64.ofNat 1] ++
    [(25, 100), (50, 100), (75, 100), (90, 100), (95, 100), (99, 100), (999, 1000)].map
      fun q : Nat × Nat => F64.div (F64.ofNat q.1) (F64.ofNat q.2)

/-- A sample line of the metric with this name. -/
def SampleOf (name : Str) : Line F → Prop
  | .type .. => False
  | .sample n _ _ => n = name ∨ n = name ++ "_sum".toList ∨ n = name ++ "_count".toList

/-- The samples of exactly this name: their labels and values. -/
def samplesNamed (name : Str) (ls : List (Line F)) : List (List (Str × Str) × Num F) :=
  ls.filterMap fun
    | .type .. => none
    | .sample n labels v => if n = name then some (labels, v) else none

/-- The lines written for the name `m` may carry the name that `n` is cleaned up to. -/
def Clash (m n : Str) : Prop :=
  sanitize n = sanitize m ∨ sanitize n = sanitize m ++ "_sum".toList ∨ sanitize n = sanitize m ++ "_count".toList

/-- Characters allowed in a metric name. -/
def NameChar (c : Char) : Prop :=
  ('a' ≤ c ∧ c ≤ 'z') ∨ ('A' ≤ c ∧ c ≤ 'Z') ∨ ('0' ≤ c ∧ c ≤ '9') ∨ c = ':' ∨ c = '_'

end
end Prometheus
end Verif
