import Verif.Model.Tags
/-!
# Telemetry

Models src/metric/telemetry.rs.  Simplification: `Telemetry::value` is an
`Option<Value>` in Rust that is `None` only inside `add_assign` while the value
is moved; the model keeps the value itself.
-/
namespace Verif

/-- `AggregationMethod` — src/metric/telemetry.rs:19-34. -/
inductive Kind where
  | sum | set | summarize | histogram
deriving DecidableEq, Repr

/-- `Value` — src/metric/telemetry.rs:38-47. -/
inductive Value (F : Type) [F64 F] where
  | set (x : F)
  | sum (x : F)
  | histogram (h : F64.Hist F)
  | quantiles (ckms : F64.Ckms F) (sum : F)

/-- `Telemetry` — src/metric/telemetry.rs:66-79. -/
structure Telemetry (F : Type) [F64 F] where
  name : Str
  value : Value F
  persist : Bool
  tags : Option TagMap
  timestamp : Int
  overrideCount : Option Nat
  overrideSampleSum : Option F

/-- `SoftTelemetry` — src/metric/telemetry.rs:49-61. -/
structure SoftTelemetry (F : Type) [F64 F] where
  name : Option Str := none
  initialValue : Option F := none
  thawedValue : Option (Value F) := none
  kind : Option Kind := none
  error : Option F := none
  bounds : Option (List F) := none
  timestamp : Option Int := none
  tags : Option TagMap := none
  persist : Option Bool := none
  overrideCount : Option Nat := none
  overrideSampleSum : Option F := none

/-- `Error` — src/metric/telemetry.rs:502-510, plus `panicBounds` for the
`Histogram::new(bounds).unwrap()` panic at line 436. -/
inductive HardenError where
  | cannotHaveTwoValues | cannotSetBounds | cannotSetError | noName | noValue
  | summarizeErrorTooLarge
  | panicBounds
deriving DecidableEq, Repr

section
variable {F : Type} [F64 F]

/-- Decidable equality, used only in examples (Rust: `derive(PartialEq)`) — src/metric/telemetry.rs:38-47. -/
instance instDecEqValue [DecidableEq F] [DecidableEq (F64.Hist F)] [DecidableEq (F64.Ckms F)] :
    DecidableEq (Value F)
  | .set x, .set y => decidable_of_iff (x = y) (by simp)
  | .sum x, .sum y => decidable_of_iff (x = y) (by simp)
  | .histogram x, .histogram y => decidable_of_iff (x = y) (by simp)
  | .quantiles c s, .quantiles c' s' => decidable_of_iff (c = c' ∧ s = s') (by simp)
  | .set _, .sum _ => isFalse (by simp)
  | .set _, .histogram _ => isFalse (by simp)
  | .set _, .quantiles _ _ => isFalse (by simp)
  | .sum _, .set _ => isFalse (by simp)
  | .sum _, .histogram _ => isFalse (by simp)
  | .sum _, .quantiles _ _ => isFalse (by simp)
  | .histogram _, .set _ => isFalse (by simp)
  | .histogram _, .sum _ => isFalse (by simp)
  | .histogram _, .quantiles _ _ => isFalse (by simp)
  | .quantiles _ _, .set _ => isFalse (by simp)
  | .quantiles _ _, .sum _ => isFalse (by simp)
  | .quantiles _ _, .histogram _ => isFalse (by simp)

/-- Decidable equality, used only in examples (Rust: `derive(PartialEq)`) — src/metric/telemetry.rs:66-79. -/
instance instDecEqTelemetry [DecidableEq F] [DecidableEq (F64.Hist F)]
    [DecidableEq (F64.Ckms F)] : DecidableEq (Telemetry F) := fun a b =>
  decidable_of_iff (a.name = b.name ∧ a.value = b.value ∧ a.persist = b.persist ∧
      a.tags = b.tags ∧ a.timestamp = b.timestamp ∧ a.overrideCount = b.overrideCount ∧
      a.overrideSampleSum = b.overrideSampleSum) (by cases a; cases b; simp)

/-- `impl Add for Value` — src/metric/telemetry.rs:94-137. -/
def Value.add : Value F → Value F → Value F
  | .set x, .set y | .sum x, .set y => let _ := x; .set y
  | .set x, .sum y | .sum x, .sum y => .sum (F64.add x y)
  | .set x, .histogram y | .sum x, .histogram y => .histogram (F64.histInsert y x)
  | .set x, .quantiles c s | .sum x, .quantiles c s =>
    .quantiles (F64.ckmsInsert c x) (F64.add s x)
  | .histogram _, .set y => .set y
  | .histogram x, .sum y => .sum (F64.add ((F64.histSum x).getD F64.zero) y)
  | .histogram x, .histogram y => .histogram (F64.histMerge x y)
  | .histogram _, .quantiles c s => .quantiles c s
  | .quantiles _ _, .set y => .set y
  | .quantiles _ s, .sum y => .sum (F64.add s y)
  | .quantiles c _, .histogram y =>
    .histogram ((F64.ckmsIntoVec c).foldl F64.histInsert y)
  | .quantiles c s, .quantiles c' s' => .quantiles (F64.ckmsMerge c c') (F64.add s s')

/-- `Value::kind` — src/metric/telemetry.rs:204-211. -/
def Value.kind : Value F → Kind
  | .set _ => .set
  | .sum _ => .sum
  | .histogram _ => .histogram
  | .quantiles _ _ => .summarize

/-- `Value::count` — src/metric/telemetry.rs:180-186. -/
def Value.count : Value F → Nat
  | .set _ | .sum _ => 1
  | .histogram h => F64.histCount h
  | .quantiles c _ => F64.ckmsCount c

namespace Telemetry

/-- `Telemetry::kind` — src/metric/telemetry.rs:575-581. -/
def kind (t : Telemetry F) : Kind := t.value.kind

/-- `impl AddAssign for Telemetry` — src/metric/telemetry.rs:222-231. -/
def addAssign (self rhs : Telemetry F) : Telemetry F :=
  { self with value := self.value.add rhs.value, persist := rhs.persist }

/-- `Telemetry::new` — src/metric/telemetry.rs:531-545. -/
def new : SoftTelemetry F := {}

/-- `Telemetry::default` — src/metric/telemetry.rs:247-259. -/
def default (now : Int) : Telemetry F :=
  { name := [], value := .set F64.zero, persist := false, tags := none, timestamp := now,
    overrideCount := none, overrideSampleSum := none }

/-- `Telemetry::thaw` — src/metric/telemetry.rs:553-568. -/
def thaw (t : Telemetry F) : SoftTelemetry F :=
  { name := some t.name, initialValue := none, thawedValue := some t.value, kind := some t.kind,
    error := none, bounds := none, timestamp := some t.timestamp, tags := t.tags,
    persist := some t.persist, overrideCount := none, overrideSampleSum := none }

/-- `Telemetry::insert` — src/metric/telemetry.rs:682-705; `none` is the
`assert!` panic when an override is present. -/
def insert (t : Telemetry F) (x : F) : Option (Telemetry F) :=
  if t.overrideSampleSum.isSome || t.overrideCount.isSome then none
  else some { t with value := match t.value with
    | .set _ => .set x
    | .sum y => .sum (F64.add y x)
    | .histogram h => .histogram (F64.histInsert h x)
    | .quantiles c s => .quantiles (F64.ckmsInsert c x) (F64.add s x) }

/-- `Telemetry::sum` — src/metric/telemetry.rs:708-714, 152-157. -/
def sum (t : Telemetry F) : Option F := match t.value with | .sum x => some x | _ => none

/-- `Telemetry::set` — src/metric/telemetry.rs:717-723, 159-164. -/
def set (t : Telemetry F) : Option F := match t.value with | .set x => some x | _ => none

/-- `Telemetry::query` — src/metric/telemetry.rs:726-732, 166-171. -/
def query (t : Telemetry F) (p : F) : Option F :=
  match t.value with | .quantiles c _ => F64.ckmsQuery c p | _ => none

/-- `Telemetry::bins` — src/metric/telemetry.rs:735-741, 173-178. -/
def bins (t : Telemetry F) : Option (List (Option F × Nat)) :=
  match t.value with | .histogram h => some (F64.histBins h) | _ => none

/-- `Telemetry::samples_sum` — src/metric/telemetry.rs:744-756. -/
def samplesSum (t : Telemetry F) : Option F :=
  match t.value with
  | .set _ | .sum _ => none
  | .histogram h => F64.histSum h
  | .quantiles _ s => if t.overrideSampleSum.isSome then t.overrideSampleSum else some s

/-- `Telemetry::count` — src/metric/telemetry.rs:759-767. -/
def count (t : Telemetry F) : Nat :=
  match t.overrideCount with
  | some n => n
  | none => t.value.count

/-- `Telemetry::samples` — src/metric/telemetry.rs:797-809. -/
def samples (t : Telemetry F) : List F :=
  match t.value with
  | .set x | .sum x => [x]
  | .quantiles c _ => F64.ckmsIntoVec c
  | .histogram h => (F64.histBins h).map fun b => F64.ofNat b.2

/-- `Telemetry::within` — src/metric/telemetry.rs:816-828.  `i64` division
truncates towards zero (`Int.tdiv`).  Simplification: total; the Rust code
panics when `span = 0`, which `Buckets.add` models. -/
def within (self : Telemetry F) (span : Int) (other : Telemetry F) : Ordering :=
  match cmpStr self.name other.name with
  | .eq => match cmpTagmap self.tags other.tags with
    | .eq => compare (self.timestamp.tdiv span) (other.timestamp.tdiv span)
    | o => o
  | o => o

/-- The data hashed by `name_tag_hash` — src/metric/telemetry.rs:863-873: the
name, then the tag pairs in iteration order (nothing for an absent map). -/
def hashInput (t : Telemetry F) : Str × TagMap := (t.name, t.tags.getD [])

/-- Telemetry tag iteration — src/metric/telemetry.rs:588-601. -/
def iterTags (t : Telemetry F) (defaults : TagMap) : List (Str × Str) :=
  (tagIter t.tags defaults).collect

/-- `overlay_tags_from_map` — src/metric/telemetry.rs:667-676. -/
def overlayTagsFromMap (t : Telemetry F) (m : TagMap) : Telemetry F :=
  { t with tags := overlayTags t.tags m }

/-- `overlay_tag` — src/metric/telemetry.rs:654-660. -/
def overlayTag (t : Telemetry F) (k v : Str) : Telemetry F :=
  { t with tags := (insertTag t.tags k v).1 }

end Telemetry

namespace SoftTelemetry

/-- `SoftTelemetry::value` — src/metric/telemetry.rs:291-295. -/
def setValue (s : SoftTelemetry F) (x : F) : SoftTelemetry F :=
  { s with thawedValue := none, initialValue := some x }

/-- `SoftTelemetry::bounds` — src/metric/telemetry.rs:332-336. -/
def setBounds (s : SoftTelemetry F) (bs : List F) : SoftTelemetry F :=
  { s with bounds := some (F64.sort bs) }

/-- The point every branch of `harden` builds; only the Summarize branch keeps
the overrides — src/metric/telemetry.rs:415-423, 443-451, 465-473, 487-495. -/
def build (s : SoftTelemetry F) (name : Str) (v : Value F) (ts : Int) (keep : Bool) :
    Telemetry F :=
  { name := name, value := v, persist := s.persist.getD false, tags := s.tags, timestamp := ts,
    overrideCount := if keep then s.overrideCount else none,
    overrideSampleSum := if keep then s.overrideSampleSum else none }

/-- `SoftTelemetry::harden` — src/metric/telemetry.rs:366-498.  `now` is
`time::now()`. -/
def harden (now : Int) (s : SoftTelemetry F) : Except HardenError (Telemetry F) :=
  if s.initialValue.isSome && s.thawedValue.isSome then .error .cannotHaveTwoValues
  else if s.initialValue.isNone && s.thawedValue.isNone then .error .noValue
  else match s.name with
  | none => .error .noName
  | some name =>
    let kind := s.kind.getD .set
    let ts := s.timestamp.getD now
    match kind with
    | .summarize =>
      if s.bounds.isSome then .error .cannotSetBounds
      else
        let mk (error : F) : Except HardenError (Telemetry F) :=
          match s.initialValue, s.thawedValue with
          | some iv, _ =>
            .ok (s.build name (.quantiles (F64.ckmsInsert (F64.ckmsNew error) iv) iv) ts true)
          | none, some tv => .ok (s.build name tv ts true)
          | none, none => .error .noValue
        match s.error with
        | some e =>
          if F64.ge e (F64.ofNat 1) then .error .summarizeErrorTooLarge else mk e
        | none => mk (F64.div (F64.ofNat 1) (F64.ofNat 1000))
    | .histogram =>
      if s.error.isSome then .error .cannotSetError
      else match s.initialValue, s.thawedValue with
        | some iv, _ =>
          match F64.histNew (s.bounds.getD
              [F64.ofNat 1, F64.ofNat 10, F64.ofNat 100, F64.ofNat 1000]) with
          | none => .error .panicBounds
          | some h => .ok (s.build name (.histogram (F64.histInsert h iv)) ts false)
        | none, some tv => .ok (s.build name tv ts false)
        | none, none => .error .noValue
    | .set =>
      if s.error.isSome then .error .cannotSetError
      else if s.bounds.isSome then .error .cannotSetBounds
      else match s.initialValue, s.thawedValue with
        | some iv, _ => .ok (s.build name (.set iv) ts false)
        | none, some tv => .ok (s.build name tv ts false)
        | none, none => .error .noValue
    | .sum =>
      if s.error.isSome then .error .cannotSetError
      else if s.bounds.isSome then .error .cannotSetBounds
      else match s.initialValue, s.thawedValue with
        | some iv, _ => .ok (s.build name (.sum iv) ts false)
        | none, some tv => .ok (s.build name tv ts false)
        | none, none => .error .noValue

end SoftTelemetry
end
end Verif
