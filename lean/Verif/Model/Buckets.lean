import Verif.Model.Telemetry
import Verif.Model.Search
/-!
# Bucket store

Models src/buckets.rs.
-/
namespace Verif

/-- `u64::MAX`.  For the counter of src/buckets.rs:13-18. -/
def u64Max : Nat := 2 ^ 64 - 1

/-- `u64::saturating_add`.  Used at src/buckets.rs:111, 162. -/
def satAdd (a b : Nat) : Nat := min (a + b) u64Max

/-- `Buckets` — src/buckets.rs:13-18. -/
structure Buckets (F : Type) [F64 F] where
  keys : List Nat
  values : List (List (Telemetry F))
  count : Nat
  binWidth : Int

namespace Buckets
section
variable {F : Type} [F64 F]

/-- `Buckets::new` / `default` — src/buckets.rs:32-39, 72-76. -/
def new (binWidth : Int) : Buckets F := { keys := [], values := [], count := 0, binWidth := binWidth }

/-- The per-row part of `Buckets::add` — src/buckets.rs:157-177: the new row and
whether a point was inserted.  `none` is a panic: division by zero in `within`
when `bin_width = 0` and a point of the same name and tags is compared, or the
`harden().unwrap()`.  `now` is `time::now()` inside `harden`. -/
def addRow (now : Int) (w : Int) (row : List (Telemetry F)) (value : Telemetry F) :
    Option (List (Telemetry F) × Bool) :=
  if w = 0 ∧ (bsearchProbes (fun probe => probe.within w value) row).any (fun probe =>
      cmpStr probe.name value.name == .eq && cmpTagmap probe.tags value.tags == .eq) then none
  else match bsearch (fun probe => probe.within w value) row with
  | .ok idx => match row[idx]? with
    | some cur => some (row.set idx (cur.addAssign value), false)
    | none => none
  | .err idx =>
    if value.persist && decide (idx > 0) then
      match row[idx - 1]? with
      | some prev =>
        let soft := { ({ prev with timestamp := value.timestamp } : Telemetry F).thaw with
          persist := some true }
        match soft.harden now with
        | .ok cur => some (row.insertIdx idx (cur.addAssign value), true)
        | .error _ => none
      | none => none
    else some (row.insertIdx idx value, true)

/-- `Buckets::add` — src/buckets.rs:146-178.  `hash` is `name_tag_hash`, an
arbitrary function of the data that is hashed.  `none` is a panic. -/
def add (hash : Str × TagMap → Nat) (now : Int) (b : Buckets F) (value : Telemetry F) :
    Option (Buckets F) :=
  let h := hash value.hashInput
  let (keys, values, idx) :=
    match bsearch (fun probe => compare probe h) b.keys with
    | .ok i => (b.keys, b.values, i)
    | .err i => (b.keys.insertIdx i h, b.values.insertIdx i [], i)
  match values[idx]? with
  | none => none
  | some row => match addRow now b.binWidth row value with
    | none => none
    | some (row', inserted) =>
      some { b with keys := keys, values := values.set idx row',
                    count := if inserted then satAdd b.count 1 else b.count }

/-- The row part of `Buckets::reset` — src/buckets.rs:103-114: swap the last point
to the front, truncate, restamp; or clear. -/
def resetRow (now : Int) (v : List (Telemetry F)) : List (Telemetry F) :=
  match v[v.length - 1]? with
  | none => v
  | some last => if last.persist then [{ last with timestamp := now }] else []

/-- The counting part of the loop in `Buckets::reset` — src/buckets.rs:107, 111. -/
def resetCount (c : Nat) (v : List (Telemetry F)) : Nat :=
  match v[v.length - 1]? with
  | some last => if last.persist then satAdd c 1 else c
  | none => c

/-- `Buckets::reset` — src/buckets.rs:100-116.  Simplification: one clock reading
for the whole call. -/
def reset (now : Int) (b : Buckets F) : Buckets F :=
  { b with
    values := b.values.map (resetRow now)
    count := b.values.foldl resetCount 0 }

/-- `Buckets::is_empty` — src/buckets.rs:127-129. -/
def isEmpty (b : Buckets F) : Bool := b.count == 0

/-- `Buckets::len` — src/buckets.rs:203-205. -/
def len (b : Buckets F) : Nat := b.keys.length

/-- `Iter::next` — src/buckets.rs:52-64, from `(key_index, value_index)`; the first
argument is fuel for the `while` loop (at most one step per key).  The outer
`none` is an index panic. -/
def iterNext (b : Buckets F) : Nat → Nat → Nat → Option (Option (Telemetry F × Nat × Nat))
  | 0, _, _ => some none
  | n + 1, k, i =>
    if k < b.keys.length then
      match b.values[k]? with
      | none => none
      | some row => match row[i]? with
        | some t => some (some (t, k, i + 1))
        | none => iterNext b n (k + 1) 0
    else some none

/-- Drive the iterator until `None`; the first argument is fuel.  The iterator is src/buckets.rs:52-64. -/
def iterFrom (b : Buckets F) : Nat → Nat → Nat → Option (List (Telemetry F))
  | 0, _, _ => some []
  | n + 1, k, i => match b.iterNext (b.keys.length + 1) k i with
    | none => none
    | some none => some []
    | some (some (t, k', i')) => match iterFrom b n k' i' with
      | none => none
      | some ts => some (t :: ts)

/-- `buckets.iter()` driven to the end — src/buckets.rs:209-215.  Fuel: one step per
stored point and one for the final `None`. -/
def iter (b : Buckets F) : Option (List (Telemetry F)) :=
  b.iterFrom (b.values.flatten.length + 1) 0 0

end
end Buckets
end Verif
