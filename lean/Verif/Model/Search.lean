/-!
# Binary search

`slice::binary_search_by` of the Rust standard library as of the toolchain the
pinned commit uses (before 1.52).  It is not cernan code, but its exact probing
sequence matters to cernan when the order is inconsistent, so it is modelled
rather than assumed.
-/
namespace Verif

/-- `Result<usize, usize>` of a binary search.  Used at src/buckets.rs:147, 159, src/filter/flush_boundary_filter.rs:80 and src/sink/prometheus.rs:178. -/
inductive Found where
  | ok (idx : Nat)
  | err (idx : Nat)
deriving DecidableEq, Repr

/-- The `while size > 1` loop of `binary_search_by`; the first argument is fuel.
`l[mid]?` is never `none` (`bsearchLoop_spec`).  Used at src/buckets.rs:147, 159, src/filter/flush_boundary_filter.rs:80 and src/sink/prometheus.rs:178. -/
def bsearchLoop {α : Type} (f : α → Ordering) (l : List α) : Nat → Nat → Nat → Nat
  | 0, base, _ => base
  | n + 1, base, size =>
    if size > 1 then
      let half := size / 2
      let mid := base + half
      match l[mid]? with
      | some x => bsearchLoop f l n (if f x = .gt then base else mid) (size - half)
      | none => base
    else base

/-- `binary_search_by(f)`.  Used at src/buckets.rs:147, 159, src/filter/flush_boundary_filter.rs:80 and src/sink/prometheus.rs:178. -/
def bsearch {α : Type} (f : α → Ordering) (l : List α) : Found :=
  if l.length = 0 then .err 0
  else
    let base := bsearchLoop f l l.length 0 l.length
    match l[base]? with
    | some x => match f x with
      | .eq => .ok base
      | .lt => .err (base + 1)
      | .gt => .err base
    | none => .err 0

/-- The elements the `while size > 1` loop of `binary_search_by` compares.  Used at src/buckets.rs:147, 159, src/filter/flush_boundary_filter.rs:80 and src/sink/prometheus.rs:178. -/
def bsearchLoopProbes {α : Type} (f : α → Ordering) (l : List α) : Nat → Nat → Nat → List α
  | 0, _, _ => []
  | n + 1, base, size =>
    if size > 1 then
      let half := size / 2
      let mid := base + half
      match l[mid]? with
      | some x => x :: bsearchLoopProbes f l n (if f x = .gt then base else mid) (size - half)
      | none => []
    else []

/-- The elements `binary_search_by(f)` compares, in order: those of the loop, and the one the loop ends at.  Used at src/buckets.rs:147, 159, src/filter/flush_boundary_filter.rs:80 and src/sink/prometheus.rs:178. -/
def bsearchProbes {α : Type} (f : α → Ordering) (l : List α) : List α :=
  bsearchLoopProbes f l l.length 0 l.length ++ l[bsearchLoop f l l.length 0 l.length]?.toList

end Verif
