import Verif.Model.Elasticsearch
/-!
# Specification of the Elasticsearch sink

What happens to a log line is decided by the answers the server gives about it after it was
delivered, and by nothing else.
-/
namespace Verif
namespace Elastic

/-- A step of the sink's life: a log line arrives (with the id it is given), or the timer asks
for a flush and the server answers. -/
inductive Op where
  | line (uuid : Nat) (l : LogLine)
  | flush (resp : Response)

/-- The sink run over a history; `none` is a panic. -/
def run (ext : Ext) (s : State) : List Op → Option State
  | [] => some s
  | .line u l :: ops => run ext (deliverLine s u l) ops
  | .flush resp :: ops => match flush ext s resp with
    | none => none
    | some (s', _) => run ext s' ops

/-- Everything the server said about single lines in a history. -/
def answers : List Op → List Item
  | [] => []
  | .flush (.bulk items) :: ops => items ++ answers ops
  | _ :: ops => answers ops

/-- How often did the server say it wrote (or refused to write) this line? -/
def said (ok : Bool) (u : Nat) (items : List Item) : Nat :=
  items.countP fun it => decide (it = ⟨ok, some u⟩)

/-- The lines that should be waiting after a history, oldest first: those never acknowledged
since they arrived and refused no more often than the limit, each with its number of refusals. -/
def waiting (limit : Nat) : List Op → List Line
  | [] => []
  | .flush _ :: ops => waiting limit ops
  | .line u l :: ops =>
    (if said true u (answers ops) = 0 ∧ said false u (answers ops) ≤ limit then
      [⟨said false u (answers ops), u, l⟩] else []) ++ waiting limit ops

/-- The lines never acknowledged since they arrived, oldest first, each with its number of refusals modulo 256. -/
def unacknowledged : List Op → List Line
  | [] => []
  | .flush _ :: ops => unacknowledged ops
  | .line u l :: ops =>
    (if said true u (answers ops) = 0 then [⟨said false u (answers ops) % 256, u, l⟩] else []) ++ unacknowledged ops

/-- The ids given out in a history. -/
def ids : List Op → List Nat
  | [] => []
  | .line u _ :: ops => u :: ids ops
  | .flush _ :: ops => ids ops

/-- The answers of a well-behaved server: at most one per line, and only about lines in the
request. -/
def Honest (buffer : List Line) : Response → Prop
  | .bulk items => (items.map (·.id)).Nodup ∧
      ∀ it ∈ items, ∃ l ∈ buffer, it.id = some l.uuid
  | _ => True

end Elastic
end Verif
