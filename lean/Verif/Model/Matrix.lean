import Verif.Model.Tags
/-!
# The adjacency matrix

Models src/matrix.rs.  A hash map is a list of pairs with distinct keys; the order of its entries,
which in the code is arbitrary, is that of first insertion here and theorems do not depend on it.
-/
namespace Verif

/-- `HashMap::get` (std, external).  Used throughout src/matrix.rs:29-124. -/
def Assoc.get {α : Type} : List (Str × α) → Str → Option α
  | [], _ => none
  | (k, v) :: m, x => if k = x then some v else Assoc.get m x

/-- `HashMap::insert` (std, external).  Used throughout src/matrix.rs:29-124. -/
def Assoc.put {α : Type} : List (Str × α) → Str → α → List (Str × α)
  | [], x, a => [(x, a)]
  | (k, v) :: m, x, a => if k = x then (k, a) :: m else (k, v) :: Assoc.put m x a

/-- `HashMap::remove` (std, external).  Used throughout src/matrix.rs:29-124. -/
def Assoc.del {α : Type} (m : List (Str × α)) (x : Str) : List (Str × α) :=
  m.filter fun kv => kv.1 ≠ x

namespace Matrix

/-- `AdjacencyMap` — src/matrix.rs:8. -/
abbrev Row (M : Type) := List (Str × Option M)

/-- `Adjacency` — src/matrix.rs:10-15. -/
structure Adjacency (M : Type) where
  edges : List (Str × Row M) := []

variable {M : Type}

/-- `add_asymmetric_edge` — src/matrix.rs:38-48. -/
def Adjacency.addAsym (a : Adjacency M) (src dst : Str) (md : Option M) : Adjacency M :=
  ⟨Assoc.put a.edges src (Assoc.put ((Assoc.get a.edges src).getD []) dst md)⟩

/-- `add_edges` — src/matrix.rs:51-63. -/
def Adjacency.addEdges (a : Adjacency M) (src : Str) : List Str → Option M → Adjacency M
  | [], _ => a
  | dst :: dsts, md => addEdges ((a.addAsym src dst md).addAsym dst src md) src dsts md

/-- `num_edges` — src/matrix.rs:66-72. -/
def Adjacency.numEdges (a : Adjacency M) (id : Str) : Nat :=
  match Assoc.get a.edges id with
  | some row => (row.map Prod.fst).length
  | none => 0

/-- `contains_node` — src/matrix.rs:75-77. -/
def Adjacency.containsNode (a : Adjacency M) (id : Str) : Bool := (Assoc.get a.edges id).isSome

/-- `filter_nodes` — src/matrix.rs:80-89; `none` is the panic of indexing by a missing key. -/
def Adjacency.filterNodes (a : Adjacency M) (id : Str) (f : Str × Option M → Bool) :
    Option (List Str) :=
  (Assoc.get a.edges id).map fun row => (row.filter f).map Prod.fst

/-- `pop` — src/matrix.rs:97-99. -/
def Adjacency.pop (a : Adjacency M) (id : Str) : Option (Row M) × Adjacency M :=
  (Assoc.get a.edges id, ⟨Assoc.del a.edges id⟩)

/-- `pop_nodes` — src/matrix.rs:103-109. -/
def Adjacency.popNodes (a : Adjacency M) (id : Str) : List Str × Adjacency M :=
  match a.pop id with
  | (some row, a') => (row.map Prod.fst, a')
  | (none, a') => ([], a')

/-- `pop_metadata` — src/matrix.rs:113-123. -/
def Adjacency.popMetadata (a : Adjacency M) (id : Str) : List M × Adjacency M :=
  match a.pop id with
  | (some row, a') => (row.filterMap Prod.snd, a')
  | (none, a') => ([], a')

end Matrix
end Verif
