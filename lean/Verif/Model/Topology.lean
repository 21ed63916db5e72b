import Verif.Model.Matrix
/-!
# Start-up wiring

Models the wiring in `main` (src/bin/cernan.rs:110-791).  A channel's sending half is identified
with the name of the node that reads it.  Nodes of a kind are listed in the order in which they
are started; the code iterates hash maps, so the order within a kind is arbitrary and theorems
hold for every order.  What the nodes do once started is modelled elsewhere.
-/
namespace Verif.Topology
open Matrix

/-- The part of `Args` the wiring looks at: names and forwards.  `sources` starts with the internal
source, then statsd, graphite, avro and file sources — src/bin/cernan.rs:29-59, src/bin/cernan.rs:77-807. -/
structure Config where
  sinks : List Str
  filters : List (Str × List Str)
  natives : List (Str × List Str)
  sources : List (Str × List Str)

/-- How start-up can stop — src/bin/cernan.rs:29-59, src/bin/cernan.rs:77-807. -/
inductive Stop where
  | exit (code : Nat)
  | panic
deriving DecidableEq

/-- Start-up that stopped, and the nodes running by then — src/bin/cernan.rs:29-59, src/bin/cernan.rs:77-807. -/
structure Fail where
  why : Stop
  started : List Str
deriving DecidableEq

/-- What the nodes are started with — src/bin/cernan.rs:29-59, src/bin/cernan.rs:77-807. -/
structure Wiring where
  /-- name and upstream nodes -/
  sinks : List (Str × List Str) := []
  /-- name, upstream nodes and channels -/
  filters : List (Str × List Str × List Str) := []
  /-- name and channels -/
  sources : List (Str × List Str) := []
  /-- the channels of the flush timer -/
  flush : List Str := []
deriving DecidableEq

/-- The nodes running — src/bin/cernan.rs:29-59, src/bin/cernan.rs:77-807. -/
def Wiring.started (w : Wiring) : List Str :=
  w.sinks.map (·.1) ++ w.filters.map (·.1) ++ w.sources.map (·.1)

/-- `senders` — src/bin/cernan.rs:148-341: sinks and filters have a channel. -/
def senders (c : Config) : List Str := c.sinks ++ c.filters.map (·.1)

/-- `config_topology` — src/bin/cernan.rs:148-404: native sources are not entered. -/
def topology (c : Config) : List (Str × List Str) :=
  (c.sinks.map (fun s => (s, [])) ++ c.filters ++ c.sources).foldl
    (fun (m : List (Str × List Str)) (kf : Str × List Str) => Assoc.put m kf.1 kf.2) []

/-- The adjacency matrix before validation — src/bin/cernan.rs:262-404. -/
def matrix (c : Config) : Adjacency Str :=
  (c.filters ++ c.natives ++ c.sources).foldl (fun a nf => a.addEdges nf.1 nf.2 none) {}

/-- The validation — src/bin/cernan.rs:406-420. -/
def validate (c : Config) : Bool :=
  (topology c).all fun kf => kf.2.all fun f => (Assoc.get (topology c) f).isSome

/-- `populate_forwards` — src/bin/cernan.rs:29-59: the new matrix, or `process::exit(0)`. -/
def populate (senders : List Str) (node : Str) : Adjacency Str → List Str → Option (Adjacency Str)
  | a, [] => some a
  | a, f :: fs =>
    if f ∈ senders then populate senders node (a.addAsym node f (some f)) fs else none

/-- Starting the sinks — src/bin/cernan.rs:422-504. -/
def startSinks : Adjacency Str → Wiring → List Str → Adjacency Str × Wiring
  | a, w, [] => (a, w)
  | a, w, s :: ss =>
    let (ups, a') := a.popNodes s
    startSinks a' { w with sinks := w.sinks ++ [(s, ups)] } ss

/-- Starting the filters — src/bin/cernan.rs:506-652. -/
def startFilters (senders : List Str) : Adjacency Str → Wiring → List (Str × List Str) →
    Except Fail (Adjacency Str × Wiring)
  | a, w, [] => .ok (a, w)
  | a, w, (f, fwds) :: fs =>
    match populate senders f a fwds with
    | none => .error ⟨.exit 0, w.started⟩
    | some a1 => match a1.filterNodes f fun kv => kv.2.isNone with
      | none => .error ⟨.panic, w.started⟩
      | some ups =>
        let (downs, a2) := a1.popMetadata f
        startFilters senders a2 { w with filters := w.filters ++ [(f, ups, downs)] } fs

/-- `HashSet::insert` (std, external), repeated — src/bin/cernan.rs:29-59, src/bin/cernan.rs:77-807. -/
def insertAll : List Str → List Str → List Str
  | set, [] => set
  | set, x :: xs => insertAll (if x ∈ set then set else set ++ [x]) xs

/-- Starting the sources — src/bin/cernan.rs:654-762. -/
def startSources (senders : List Str) : Adjacency Str → Wiring → List (Str × List Str) →
    Except Fail (Adjacency Str × Wiring)
  | a, w, [] => .ok (a, w)
  | a, w, (s, fwds) :: ss =>
    match populate senders s a fwds with
    | none => .error ⟨.exit 0, w.started⟩
    | some a1 =>
      let (downs, a2) := a1.popMetadata s
      startSources senders a2
        { w with sources := w.sources ++ [(s, downs)], flush := insertAll w.flush fwds } ss

/-- The wiring — src/bin/cernan.rs:110-785.  The search for the channels of the flush timer (lines
766-780) cannot fail, as `populate_forwards` has found all of them. -/
def wire (c : Config) : Except Fail Wiring :=
  if validate c then
    let (a, w) := startSinks (matrix c) {} c.sinks
    match startFilters (senders c) a w c.filters with
    | .error e => .error e
    | .ok (a, w) => match startSources (senders c) a w (c.natives ++ c.sources) with
      | .error e => .error e
      | .ok (_, w) => .ok w
  else .error ⟨.exit 1, []⟩

end Verif.Topology
