import Verif.Model.Matrix
/-! # Specification vocabulary for the adjacency matrix -/
namespace Verif.Matrix

/-- What a program can do to the matrix. -/
inductive Op (M : Type) where
  | add (src dst : Str) (md : Option M)
  | addBoth (src : Str) (dsts : List Str) (md : Option M)
  | pop (id : Str)

/-- The matrix after a history, the oldest operation first. -/
def run {M : Type} : Adjacency M → List (Op M) → Adjacency M
  | a, [] => a
  | a, .add s d md :: ops => run (a.addAsym s d md) ops
  | a, .addBoth s ds md :: ops => run (a.addEdges s ds md) ops
  | a, .pop n :: ops => run (a.pop n).2 ops

/-- The edge from `x` to `y` after a history given newest first: `none` if there is none,
otherwise its metadata.  The last operation that speaks about the edge decides. -/
def edge {M : Type} : List (Op M) → Str → Str → Option (Option M)
  | [], _, _ => none
  | .add s d md :: older, x, y => if x = s ∧ y = d then some md else edge older x y
  | .addBoth s ds md :: older, x, y =>
    if (x = s ∧ y ∈ ds) ∨ (y = s ∧ x ∈ ds) then some md else edge older x y
  | .pop n :: older, x, y => if x = n then none else edge older x y

end Verif.Matrix
