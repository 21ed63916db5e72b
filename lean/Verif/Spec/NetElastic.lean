import Verif.Spec.NetEnd
import Verif.Model.SinkImpls
/-!
# Specification vocabulary: an Elasticsearch that accepts lines (C86, C123, C146)
-/
namespace Verif
open Net

/-- The answer to a bulk request for these lines that accepts every one of them, in the order of the request. -/
def Elastic.allAccepted (ms : List Elastic.Line) : Elastic.Response := .bulk (ms.map fun m => ⟨true, some m.uuid⟩)

/-- A flush that had nothing to send, or whose request was accepted in full. -/
def Elastic.AcceptedFlush (b : List Elastic.Line × Elastic.Response) : Prop := b.1 = [] ∨ b.2 = Elastic.allAccepted b.1

/-- A flush that had nothing to send, or whose request failed altogether, or was accepted in full. -/
def Elastic.CleanFlush (b : List Elastic.Line × Elastic.Response) : Prop :=
  b.1 = [] ∨ b.2 = .sendError ∨ b.2 = .error ∨ b.2 = Elastic.allAccepted b.1

/-- The lines of the requests that were answered with the fate of each line. -/
def Elastic.answered (log : List (List Elastic.Line × Elastic.Response)) : List LogLine :=
  log.flatMap fun b => match b.2 with | .bulk _ => b.1.map (·.line) | _ => []

/-- In this run, Elasticsearch is never away for ever: were the sink to flush again and again from now on, some requests would fail, and the next be accepted in full. -/
def ElasticReturns {F : Type} [F64 F] (p : Setup F) (ls : Nat → Label F) (n : Str) (ext : Elastic.Ext) (interval : Nat) (resps : Nat → Elastic.Response)
    (uuids : Nat → Nat) (start : Option (Hosted Elastic.State (List Elastic.Line × Elastic.Response))) : Prop :=
  ∀ t m r, (run p ls t).nodes n = some (.sink ⟨_, elasticImpl ext interval resps uuids, start⟩ m r) → ∃ h, r.state = some h ∧
    (h.state.buffer ≠ [] → ∃ d, (∀ d' < d, resps (h.calls + d') = .sendError ∨ resps (h.calls + d') = .error) ∧
      resps (h.calls + d) = Elastic.allAccepted h.state.buffer)

/-- In this run, Elasticsearch does not fail for ever: after any moment, once the sink has been flushed often enough, one of these flushes had nothing to send or a request that was accepted in
full. -/
def ElasticAccepts {F : Type} [F64 F] (p : Setup F) (ls : Nat → Label F) (n : Str) (ext : Elastic.Ext) (interval : Nat) (resps : Nat → Elastic.Response)
    (uuids : Nat → Nat) (start : Option (Hosted Elastic.State (List Elastic.Line × Elastic.Response))) : Prop :=
  ∀ t m r h, (run p ls t).nodes n = some (.sink ⟨_, elasticImpl ext interval resps uuids, start⟩ m r) → r.state = some h → ∃ K, ∀ t' ≥ t, ∀ m' r' h',
    (run p ls t').nodes n = some (.sink ⟨_, elasticImpl ext interval resps uuids, start⟩ m' r') → r'.state = some h' → h.log.length + K ≤ h'.log.length →
    ∃ b ∈ h'.log.drop h.log.length, Elastic.AcceptedFlush b

end Verif
