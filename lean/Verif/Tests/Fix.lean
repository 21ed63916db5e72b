import Verif.Model.Telemetry
/-!
# Decimal numbers for the transcribed unit tests

The model takes `f64` as an arbitrary type (`F64`).  The unit tests of /repo use decimal
literals; here is an instance with nine exact decimal places in which they can be written and
evaluated by the kernel.  It models no code: it only feeds `Verif/Tests/*`.
-/
namespace Verif.Tests

/-- A decimal number with nine places: `v` billionths. -/
structure Fix where
  v : Int
deriving DecidableEq, Repr

namespace Fix

/-- One, in billionths. -/
def one : Int := 1000000000

instance : OfScientific Fix where
  ofScientific m neg e := ⟨if neg then (m : Int) * one / (10 ^ e : Nat) else (m : Int) * one * (10 ^ e : Nat)⟩

instance (n : Nat) : OfNat Fix n := ⟨⟨(n : Int) * one⟩⟩

instance : Neg Fix := ⟨fun a => ⟨-a.v⟩⟩

/-- A histogram as its bounds and samples. -/
structure Hist where
  bounds : List Int
  samples : List Int
deriving DecidableEq, Repr

/-- Counts per bin: a sample goes to the first bound at or above it
(`quantiles::histogram`). -/
def Hist.bins (h : Hist) : List (Option Fix × Nat) :=
  (IHist.mk h.bounds h.samples).bins.map fun b => (b.1.map Fix.mk, b.2)

/-- What `CKMS::query` answers while the sketch still holds every sample (`c`, sorted, `n` of
them): the first sample whose successor's rank exceeds `q n` by more than a half, or the last. -/
def query (c : List Int) (q : Fix) : Option Fix :=
  let j := ((2 * q.v * c.length - 3 * one) / (2 * one) + 1).toNat
  (c[min j (c.length - 1)]?).map Fix.mk

/-- Sorted insertion. -/
def insert (x : Int) : List Int → List Int
  | [] => [x]
  | y :: ys => if x ≤ y then x :: y :: ys else y :: insert x ys

instance : F64 Fix where
  zero := ⟨0⟩
  add a b := ⟨a.v + b.v⟩
  mul a b := ⟨a.v * b.v / one⟩
  div a b := ⟨a.v * one / b.v⟩
  ge a b := decide (b.v ≤ a.v)
  eqb a b := decide (a = b)
  ofNat n := ⟨(n : Int) * one⟩
  Hist := Hist
  histNew bs := some ⟨bs.map Fix.v, []⟩
  histInsert h x := ⟨h.bounds, h.samples ++ [x.v]⟩
  histMerge a b := ⟨a.bounds, a.samples ++ b.samples⟩
  histCount h := h.samples.length
  histSum h := if h.samples.isEmpty then none else some ⟨h.samples.sum⟩
  histBins := Hist.bins
  Ckms := List Int
  ckmsNew _ := []
  ckmsInsert c x := insert x.v c
  ckmsMerge a b := b.foldl (fun c x => insert x c) a
  ckmsCount := List.length
  ckmsQuery := query
  ckmsCma c := if c.isEmpty then none else some ⟨c.sum / (c.length : Int)⟩
  ckmsIntoVec c := c.map Fix.mk
  sort l := (l.map Fix.v |>.foldr insert []).map Fix.mk

instance : DecidableEq (F64.Hist Fix) := inferInstanceAs (DecidableEq Hist)
instance : DecidableEq (F64.Ckms Fix) := inferInstanceAs (DecidableEq (List Int))

/-- Digits of a natural number, at least `width` of them. -/
def digits (width n : Nat) : Str :=
  let rec go : Nat → Nat → Nat → Str → Str
    | 0, _, _, acc => acc
    | fuel + 1, w, n, acc =>
      if n = 0 ∧ w = 0 then acc
      else go fuel (w - 1) (n / 10) (Char.ofNat (48 + n % 10) :: acc)
  go 40 width n []

/-- A whole number as text. -/
def natText (n : Nat) : Str := digits 1 n

/-- A whole number as text. -/
def intText (n : Int) : Str := if n < 0 then '-' :: natText n.natAbs else natText n.natAbs

/-- As `f64`'s `to_string` shows a decimal: no trailing zeros, no point for a whole number. -/
def text (x : Fix) : Str :=
  let n := x.v.natAbs
  let frac := ((digits 9 (n % 1000000000)).reverse.dropWhile (· = '0')).reverse
  (if x.v < 0 then ['-'] else []) ++ digits 1 (n / 1000000000) ++
    (if frac = [] then [] else '.' :: frac)

/-- A natural number from digits. -/
def parseNat (s : Str) : Option Nat :=
  if s = [] ∨ s.any (fun c => !c.isDigit) then none
  else some (s.foldl (fun n c => n * 10 + (c.toNat - 48)) 0)

/-- As `f64::from_str` reads a decimal of at most nine places. -/
def parse (s : Str) : Option Fix :=
  let (neg, s) := match s with
    | '-' :: s => (true, s)
    | '+' :: s => (false, s)
    | s => (false, s)
  let whole := s.takeWhile (· ≠ '.')
  let frac := (s.dropWhile (· ≠ '.')).drop 1
  match parseNat whole, (if frac = [] then some 0 else parseNat ((frac ++ List.replicate 9 '0').take 9)) with
  | some w, some f =>
    let v : Int := (w : Int) * one + f
    some ⟨if neg then -v else v⟩
  | _, _ => none

end Fix

open Fix

/-- `Telemetry::value`, compiled only for tests — src/metric/telemetry.rs:780-789. -/
def value (t : Telemetry Fix) : Option Fix :=
  match t.value with
  | .set x | .sum x => some x
  | .quantiles c _ => F64.ckmsQuery c (1.0 : Fix)
  | .histogram h => F64.histSum h

/-- `Telemetry::new().name(name).value(x).kind(kind)`. -/
def soft (name : String) (x : Fix) (kind : Kind) : SoftTelemetry Fix :=
  { (Telemetry.new.setValue x) with name := some name.toList, kind := some kind }

/-- `.harden().unwrap()` at time `now`; `none` is the panic. -/
def unwrap {ε α : Type} : Except ε α → Option α
  | .ok a => some a
  | .error _ => none

/-- A point built from name, value and kind as the tests build most of theirs, with the time and
the persistence given. -/
def point (name : String) (x : Fix) (kind : Kind) (ts : Int) (persist : Bool := false) :
    Option (Telemetry Fix) :=
  unwrap (({ soft name x kind with timestamp := some ts, persist := some persist } :
    SoftTelemetry Fix).harden ts)

/-- The hash used in the tests for `name_tag_hash`: a polynomial of the characters. -/
def hash (d : Str × TagMap) : Nat :=
  let step (n : Nat) (c : Char) : Nat := (n * 257 + c.toNat) % 1000000007
  d.2.foldl (fun n kv => (kv.1 ++ '=' :: kv.2).foldl step n) (d.1.foldl step 7)

example : (0.1 : Fix).text = "0.1".toList ∧ (-11.5 : Fix).text = "-11.5".toList ∧
    (3 : Fix).text = "3".toList ∧ Fix.parse "-6.6".toList = some (-6.6) ∧
    Fix.parse "+0.22".toList = some 0.22 ∧ Fix.parse "12x".toList = none := by decide +kernel

end Verif.Tests
