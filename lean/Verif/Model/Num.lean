/-!
# Numbers and sketches

`f64` and the `quantiles` crate are outside the model.  They are represented by
an arbitrary type `F` with operations and **no laws**, so every theorem that
does not ask for laws holds for IEEE doubles.
-/

namespace Verif

/-- Strings are lists of Unicode scalar values.  `String` in all of src; for example src/metric/telemetry.rs:66-79. -/
abbrev Str := List Char

/-- `f64` with the operations cernan uses, and the two sketch types of the
`quantiles` crate (`Histogram<f64>`, `CKMS<f64>`) with the operations used in
src/metric/telemetry.rs.  Simplification: no laws are assumed here. -/
class F64 (F : Type) where
  zero : F
  add : F → F → F
  mul : F → F → F
  div : F → F → F
  /-- `a >= b` -/
  ge : F → F → Bool
  /-- `a == b` -/
  eqb : F → F → Bool
  ofNat : Nat → F
  /-- `quantiles::histogram::Histogram<f64>` -/
  Hist : Type
  /-- `Histogram::new(bounds)`; `none` stands for its `Err` -/
  histNew : List F → Option Hist
  histInsert : Hist → F → Hist
  histMerge : Hist → Hist → Hist
  histCount : Hist → Nat
  histSum : Hist → Option F
  /-- `histo.iter()`: bins in order of their bound, `none` is `Bound::PosInf` -/
  histBins : Hist → List (Option F × Nat)
  /-- `quantiles::ckms::CKMS<f64>` -/
  Ckms : Type
  ckmsNew : F → Ckms
  ckmsInsert : Ckms → F → Ckms
  ckmsMerge : Ckms → Ckms → Ckms
  ckmsCount : Ckms → Nat
  ckmsQuery : Ckms → F → Option F
  ckmsCma : Ckms → Option F
  ckmsIntoVec : Ckms → List F
  /-- sorting used by `SoftTelemetry::bounds` -/
  sort : List F → List F

/-- Assumptions on the `quantiles` crate used by counting theorems: a fresh
sketch is empty, inserting adds one to the count and merging adds counts.  Sketches are in src/metric/telemetry.rs:38-47. -/
class LawfulSketch (F : Type) [F64 F] : Prop where
  ckms_new : ∀ e : F, F64.ckmsCount (F64.ckmsNew e) = 0
  ckms_insert : ∀ (c : F64.Ckms F) x, F64.ckmsCount (F64.ckmsInsert c x) = F64.ckmsCount c + 1
  ckms_merge : ∀ (a b : F64.Ckms F), F64.ckmsCount (F64.ckmsMerge a b) = F64.ckmsCount a + F64.ckmsCount b
  hist_insert : ∀ (h : F64.Hist F) x, F64.histCount (F64.histInsert h x) = F64.histCount h + 1
  hist_merge : ∀ (a b : F64.Hist F), F64.histCount (F64.histMerge a b) = F64.histCount a + F64.histCount b

/-- A concrete histogram used only to show that hypotheses are satisfiable.  Stands for the histogram in src/metric/telemetry.rs:38-47. -/
structure IHist where
  bounds : List Int
  samples : List Int
deriving DecidableEq, Repr

/-- counts of samples per bin: each sample goes to the first bound at or above it.  Stands for the histogram in src/metric/telemetry.rs:38-47. -/
def IHist.bins (h : IHist) : List (Option Int × Nat) :=
  let rec go (lo : Option Int) : List Int → List (Option Int × Nat)
    | [] => [(none, h.samples.countP fun s => match lo with | none => true | some l => decide (l < s))]
    | b :: bs => (some b, h.samples.countP fun s =>
        decide (s ≤ b) && (match lo with | none => true | some l => decide (l < s))) :: go (some b) bs
  go none h.bounds

/-- Integer instance: a witness for `F64`, used in the examples. -/
instance : F64 Int where
  zero := 0
  add := (· + ·)
  mul := (· * ·)
  div := (· / ·)
  ge a b := decide (b ≤ a)
  eqb a b := decide (a = b)
  ofNat n := (n : Int)
  Hist := IHist
  histNew bs := some ⟨bs, []⟩
  histInsert h x := ⟨h.bounds, h.samples ++ [x]⟩
  histMerge a b := ⟨a.bounds, a.samples ++ b.samples⟩
  histCount h := h.samples.length
  histSum h := if h.samples.isEmpty then none else some h.samples.sum
  histBins := IHist.bins
  Ckms := List Int
  ckmsNew _ := []
  ckmsInsert c x := c ++ [x]
  ckmsMerge a b := a ++ b
  ckmsCount := List.length
  ckmsQuery c _ := c.max?
  ckmsCma c := if c.isEmpty then none else some (c.sum / (c.length : Int))
  ckmsIntoVec c := c
  sort l := l.mergeSort (fun a b => decide (a ≤ b))

instance : DecidableEq (F64.Hist Int) := inferInstanceAs (DecidableEq IHist)
instance : DecidableEq (F64.Ckms Int) := inferInstanceAs (DecidableEq (List Int))

instance : LawfulSketch Int where
  ckms_new _ := rfl
  ckms_insert (c : List Int) x := List.length_append (as := c) (bs := [x])
  ckms_merge (a b : List Int) := List.length_append (as := a) (bs := b)
  hist_insert (h : IHist) x := List.length_append (as := h.samples) (bs := [x])
  hist_merge (a b : IHist) := List.length_append (as := a.samples) (bs := b.samples)

end Verif
