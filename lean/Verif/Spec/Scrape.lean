import Verif.Model.Scrape
import Verif.Spec.Prometheus
/-!
# Specification vocabulary for scraping (C99)
-/
namespace Verif
namespace Scrape
open Prometheus
section
variable {F : Type} [F64 F]

/-- What a step does to the aggregation, if it is one that finishes an insertion or a purge. -/
def opOf (s : State F) : Label F → List (Op F)
  | .finish => match s.sink with
    | .inserting t => [.insert t]
    | .purging now _ => [.purge now]
    | _ => []
  | _ => []

/-- The insertions and purges the sink finishes during a schedule, in order. -/
def history (p : Setup F) : State F → List (Label F) → List (Op F)
  | _, [] => []
  | s, l :: ls => match step p s l with
    | none => []
    | some s' => opOf s l ++ history p s' ls

/-- What a scrape says of a history: all of it, in some order of the map. -/
def Tells (p : Setup F) (ops : List (Op F)) (text : List (Line F)) : Prop :=
  ∃ a now order, Prometheus.run p.ext (Aggr.new p.capacity) ops = some a ∧ order.Perm a.data ∧
    scrape p.ext p.tags p.gzip now false order = some (some text)

/-- What the sink is asked to do with the aggregation by a schedule: insert every point that is at most `age` seconds old or early
(every point if there is no limit), and purge at every flush and at shutdown. -/
def asked (age : Option Nat) : List (Label F) → List (Op F)
  | [] => []
  | .deliver now t :: ls => (match age with
      | none => [.insert t]
      | some a => if t.timestamp - now ≤ a ∧ now - t.timestamp ≤ a then [.insert t] else []) ++ asked age ls
  | .flush now :: ls => .purge now :: asked age ls
  | .shutdown now :: ls => .purge now :: asked age ls
  | _ :: ls => asked age ls

/-- What the sink has been asked to do and has not finished. -/
def unfinished : SinkPhase F → List (Op F)
  | .inserting t => [.insert t]
  | .purging now _ => [.purge now]
  | _ => []

/-- No name but `n` in a history can have lines called `x`. -/
def Owns (n x : Str) (ops : List (Op F)) : Prop :=
  ∀ t, .insert t ∈ ops → t.name ≠ n → x ≠ sanitize t.name ∧ x ≠ sanitize t.name ++ "_sum".toList ∧ x ≠ sanitize t.name ++ "_count".toList

end
end Scrape
end Verif
