import Verif.Model.Num
/-!
# Tag maps

Models src/metric/mod.rs (`TagMap`, `cmp_tagmap`, `TagIter`) and the tag methods
shared by src/metric/telemetry.rs and src/metric/logline.rs.
-/
namespace Verif

/-- `pub type TagMap = util::HashMap<String, String>` — src/metric/mod.rs:20.
The list is the iteration order of the hash map; keys are distinct
(`TagMap.Ok`).  Simplification: a newly inserted key is iterated last; the real
position is unspecified, and no theorem depends on it. -/
abbrev TagMap := List (Str × Str)

namespace TagMap

/-- A list represents a hash map iff its keys are distinct.  `TagMap` — src/metric/mod.rs:19. -/
def Ok (m : TagMap) : Prop := (m.map Prod.fst).Nodup

instance (m : TagMap) : Decidable (Ok m) := inferInstanceAs (Decidable (List.Nodup _))

/-- `HashMap::get`.  Used at src/metric/telemetry.rs:604-617. -/
def get : TagMap → Str → Option Str
  | [], _ => none
  | (k, v) :: m, x => if k = x then some v else get m x

/-- `HashMap::insert`: overwrite in place or add.  Used at src/metric/telemetry.rs:623-635. -/
def set : TagMap → Str → Str → TagMap
  | [], x, y => [(x, y)]
  | (k, v) :: m, x, y => if k = x then (k, y) :: m else (k, v) :: set m x y

/-- `HashMap::remove`.  Used at src/metric/telemetry.rs:641-647. -/
def erase : TagMap → Str → TagMap
  | [], _ => []
  | (k, v) :: m, x => if k = x then m else (k, v) :: erase m x

/-- `for (k, v) in map.iter() { tags.insert(k.clone(), v.clone()); }`
— src/metric/telemetry.rs:669-671. -/
def setAll (m : TagMap) (o : TagMap) : TagMap := o.foldl (fun m kv => m.set kv.1 kv.2) m

end TagMap

/-- `TagIter` — src/metric/mod.rs:43-53. -/
inductive TagIter where
  | single (defaults : TagMap)
  | double (seen : List Str) (iters defaults : TagMap) (exhausted : Bool)

/-- The `iters_exhausted` branch of the loop in `TagIter::next`
— src/metric/mod.rs:67-74: skip defaults whose key was already seen
(`HashSet::insert` returns false), yield the first unseen one and record it. -/
def TagIter.nextDefault (seen : List Str) : TagMap → Option (Str × Str) × TagIter
  | [] => (none, .double seen [] [] true)
  | (k, v) :: ds =>
    if k ∈ seen then nextDefault seen ds
    else (some (k, v), .double (k :: seen) [] ds true)

/-- `TagIter::next` — src/metric/mod.rs:58-84. -/
def TagIter.next : TagIter → Option (Str × Str) × TagIter
  | .single [] => (none, .single [])
  | .single (d :: ds) => (some d, .single ds)
  | .double seen _ ds true => nextDefault seen ds
  | .double seen ((k, v) :: its) ds false =>
    (some (k, v), .double (if k ∈ seen then seen else k :: seen) its ds false)
  | .double seen [] ds false => nextDefault seen ds

/-- Upper bound on the number of items an iterator can still yield (fuel).  For src/metric/mod.rs:58-84. -/
def TagIter.fuel : TagIter → Nat
  | .single ds => ds.length + 1
  | .double _ its ds _ => its.length + ds.length + 1

/-- Drive the iterator `n` times, as a `for` loop does, stopping at `None`.  For src/metric/mod.rs:58-84. -/
def TagIter.take : Nat → TagIter → List (Str × Str)
  | 0, _ => []
  | n + 1, it => match it.next with
    | (none, _) => []
    | (some kv, it') => kv :: take n it'

/-- Exhaust the iterator.  `TagIter.fuel` bounds the number of items; that it is
enough is `TagIter.take_collect` in Verif/Lemmas/Tags.lean.  For src/metric/mod.rs:58-84. -/
def TagIter.collect (it : TagIter) : List (Str × Str) := it.take it.fuel

/-- `tags(&self, defaults)` — src/metric/telemetry.rs:588-601 and
src/metric/logline.rs `LogLine::tags` (same body). -/
def tagIter (own : Option TagMap) (defaults : TagMap) : TagIter :=
  match own with
  | some tags => .double [] tags defaults false
  | none => .single defaults

/-- `get_from_tags` — src/metric/telemetry.rs:604-617. -/
def getFromTags (own : Option TagMap) (key : Str) (defaults : TagMap) : Option Str :=
  match own with
  | some tags => match tags.get key with
    | some v => some v
    | none => defaults.get key
  | none => defaults.get key

/-- `insert_tag` — src/metric/telemetry.rs:623-635: returns previous value. -/
def insertTag (own : Option TagMap) (k v : Str) : Option TagMap × Option Str :=
  match own with
  | some tags => (some (tags.set k v), tags.get k)
  | none => (some (TagMap.set [] k v), none)

/-- `remove_tag` — src/metric/telemetry.rs:641-647. -/
def removeTag (own : Option TagMap) (k : Str) : Option TagMap × Option Str :=
  match own with
  | some tags => (some (tags.erase k), tags.get k)
  | none => (none, none)

/-- `overlay_tags_from_map` — src/metric/telemetry.rs:667-676. -/
def overlayTags (own : Option TagMap) (m : TagMap) : Option TagMap :=
  match own with
  | some tags => some (tags.setAll m)
  | none => if m.isEmpty then none else some m

/-- Lexicographic comparison of strings.  Rust compares UTF-8 bytes, which
orders strings as comparing code points does.  Used at src/metric/mod.rs:26-40. -/
def cmpStr : Str → Str → Ordering
  | [], [] => .eq
  | [], _ :: _ => .lt
  | _ :: _, [] => .gt
  | a :: as, b :: bs => (compare a.toNat b.toNat).then (cmpStr as bs)

/-- `l.iter().partial_cmp(r)` on two tag maps: lexicographic over (key, value)
pairs in iteration order — src/metric/mod.rs:35. -/
def cmpPairs : TagMap → TagMap → Ordering
  | [], [] => .eq
  | [], _ :: _ => .lt
  | _ :: _, [] => .gt
  | (k, v) :: as, (k', v') :: bs =>
    ((cmpStr k k').then (cmpStr v v')).then (cmpPairs as bs)

/-- `cmp_tagmap` — src/metric/mod.rs:26-40. -/
def cmpTagmap : Option TagMap → Option TagMap → Ordering
  | some l, some r =>
    if l.length ≠ r.length then compare l.length r.length else cmpPairs l r
  | _, _ => .eq

end Verif
