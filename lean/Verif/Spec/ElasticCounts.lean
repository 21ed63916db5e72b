import Verif.Spec.Counters
import Verif.Model.Elasticsearch
/-!
# Specification vocabulary for the counters of the Elasticsearch sink over a history (C152)
-/
namespace Verif.ElasticCounts
open Counters (Answer Adds elasticAdds)
open Elastic (State Ext)

/-- A log line arrives, with the id it is given; or the sink flushes and the server answers. -/
inductive Op where
  | line (uuid : Nat) (l : LogLine)
  | flush (a : Answer)

/-- The sink over a history, and what it has counted; `none` is a panic. -/
def run (ext : Ext) : State → Adds → List Op → Option (State × Adds)
  | s, xs, [] => some (s, xs)
  | s, xs, .line u l :: ops => run ext (Elastic.deliverLine s u l) xs ops
  | s, xs, .flush a :: ops => match Elastic.flush ext s a.response with
    | none => none
    | some (s', none) => run ext s' xs ops
    | some (s', some _) => run ext s' (xs ++ elasticAdds a) ops

/-- How many lines have arrived. -/
def arrived (ops : List Op) : Nat := ops.countP fun o => match o with
  | .line _ _ => true
  | .flush _ => false

/-- The refusals of the lines still waiting. -/
def refusals (s : State) : Nat := (s.buffer.map (·.attempts)).sum

end Verif.ElasticCounts
