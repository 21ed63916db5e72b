import Verif.Spec.Elasticsearch
/-!
# A server that indexes documents (for C138)

Bulk requests with index actions: a document replaces the one with the same index and id.  The server may carry out any part of a request, also of one
that the sink takes for failed.
-/
namespace Verif
namespace Elastic

/-- Carrying out one index action. -/
def put (d : Doc) (store : List Doc) : List Doc := store.filter (fun e => ¬ (e.index = d.index ∧ e.id = d.id)) ++ [d]

/-- Carrying out those actions of a request that `carried` picks. -/
def carryOut (carried : Doc → Bool) (docs store : List Doc) : List Doc := (docs.filter carried).foldl (fun st d => put d st) store

/-- A history together with which documents of each request the server indexes: the sink and what the server holds in the end.  `none` is a panic of
the sink. -/
def runServer (ext : Ext) : State → List Doc → List (Op × (Doc → Bool)) → Option (State × List Doc)
  | s, store, [] => some (s, store)
  | s, store, (.line u l, _) :: ops => runServer ext (deliverLine s u l) store ops
  | s, store, (.flush resp, carried) :: ops => match flush ext s resp with
    | none => none
    | some (s', docs) => runServer ext s' (carryOut carried (docs.getD []) store) ops

/-- The server says that it has written a line only if it has: the request had a document with that id and it was indexed. -/
def Truthful (ext : Ext) : State → List (Op × (Doc → Bool)) → Prop
  | _, [] => True
  | s, (.line u l, _) :: ops => Truthful ext (deliverLine s u l) ops
  | s, (.flush resp, carried) :: ops => match flush ext s resp with
    | none => True
    | some (s', docs) =>
      (∀ items, resp = .bulk items → ∀ u, ⟨true, some u⟩ ∈ items → ∃ d ∈ docs.getD [], d.id = ext.showId u ∧ carried d = true) ∧
      Truthful ext s' ops

/-- The lines delivered in a history, with their ids. -/
def linesOf : List (Op × (Doc → Bool)) → List (Nat × LogLine)
  | [] => []
  | (.line u l, _) :: ops => (u, l) :: linesOf ops
  | (.flush _, _) :: ops => linesOf ops

/-- One sink after the other in front of the same server, each started afresh (`s`): what the server holds in the end.  A sink may be killed at any moment: one that is killed during a
request, whatever the server makes of it, is one whose history ends with a request that seems to fail. -/
def runLives (ext : Ext) (s : State) : List Doc → List (List (Op × (Doc → Bool))) → Option (List Doc)
  | store, [] => some store
  | store, ops :: rest => match runServer ext s store ops with
    | none => none
    | some (_, store') => runLives ext s store' rest

end Elastic
end Verif
