import Verif.Model.FileRun
/-!
# What ends a file source

One turn of the source's loop, judged by what its pattern matches during it.
-/
namespace Verif.FileRun
open FileBytes Graphite

/-- The path names something that the source cannot survive opening. -/
def Deadly (t : Turn) (p : Bytes) : Bool := (t.disk p).special p == some .noSeek || (t.disk p).special p == some .blocks

/-- The path is opened, or is gone when it is to be opened, and is not text. -/
def Unnamed (t : Turn) (p : Bytes) : Bool := (t.disk p).special p == none && !utf8Valid p

/-- How the source is after the turn. -/
def fate (t : Turn) : Phase :=
  match t.found.find? (Deadly t) with
  | some p => if (t.disk p).special p = some .blocks then .blocked else .panicked
  | none =>
    if t.found.any (Unnamed t) then .panicked
    else match t.polled with
      | none => .panicked
      | some true => .returned
      | some false => .running

/-- The turn as it would be if the pattern matched nothing but `p`. -/
def only (p : Bytes) (t : Turn) : Turn := { t with found := t.found.filter (· == p) }

/-- The iteration order of the map is an order of its entries. -/
def Orders (t : Turn) : Prop := ∀ ws, (t.order ws).Perm ws

end Verif.FileRun
