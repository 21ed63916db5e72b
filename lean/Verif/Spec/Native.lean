import Verif.Model.Native
import Verif.Spec.Proto
import Verif.Spec.Wire
/-! # Specification vocabulary for the native sink and source -/
namespace Verif.Native
open Proto

/-- A natural number that is a double (far below the largest): at most 53 significant bits. -/
def IsDouble (n : Nat) : Prop := ∃ m e, m < 2 ^ 53 ∧ n = m * 2 ^ e

/-- Two lists agree element by element. -/
inductive Each {α β : Type} (R : α → β → Prop) : List α → List β → Prop
  | nil : Each R [] []
  | cons {a b as bs} : R a b → Each R as bs → Each R (a :: as) (b :: bs)

section
variable {F : Type} [F64 F]

/-- The point `t'` is what should arrive for the point `t` sent by a sink with these default tags:
same name, kind, persistence and time; the same tags with the defaults filled in; the same value
for a set or a sum, and for a summary a fresh sketch of exactly the samples sent. -/
structure Arrives (defaults : TagMap) (t t' : Telemetry F) : Prop where
  name : t'.name = t.name
  kind : t'.kind = t.kind
  persist : t'.persist = t.persist
  timestamp : t'.timestamp = t.timestamp
  tags : ∀ k, getFromTags t'.tags k [] = getFromTags t.tags k defaults
  value : match t.value with
    | .set x => t'.value = .set x
    | .sum x => t'.value = .sum x
    | .quantiles c _ => ∃ x xs, F64.ckmsIntoVec c = x :: xs ∧
        t'.value = .quantiles
          (xs.foldl F64.ckmsInsert (F64.ckmsInsert (F64.ckmsNew (F64.div (F64.ofNat 1) (F64.ofNat 1000))) x))
          (xs.foldl F64.add x)
    | .histogram _ => False

/-- The line `l'` is what should arrive for the line `l`. -/
structure LineArrives (defaults : TagMap) (l l' : LogLine) : Prop where
  path : l'.path = l.path
  value : l'.value = l.value
  time : l'.time = l.time
  tags : ∀ k, getFromTags l'.tags k [] = getFromTags l.tags k defaults

/-- The telemetry among events, in order. -/
def telemetries (evs : List (Event F)) : List (Telemetry F) :=
  evs.filterMap fun | .telemetry t => some t | _ => none

/-- The log lines among events, in order. -/
def logs (evs : List (Event F)) : List LogLine :=
  evs.filterMap fun | .log l => some l | _ => none

/-- What should arrive for a batch: its points in order, then its lines in order. -/
def BatchArrives (defaults : TagMap) (sent received : List (Event F)) : Prop :=
  ∃ ts ls, received = ts.map .telemetry ++ ls.map .log ∧
    Each (Arrives defaults) (telemetries sent) ts ∧ Each (LineArrives defaults) (logs sent) ls

/-- Times, in seconds, within 70000 years of 1970. -/
def TimeOk (t : Int) : Prop := -2251799813685 ≤ t ∧ t ≤ 2251799813685

/-- Events the native protocol can carry: whole maps of tags, times within range, points that
are not histograms, with at least one sample and a number of samples whose size is computed
right. -/
def SendOk (bits : Bits F) : Event F → Prop
  | .telemetry t => (∀ m, t.tags = some m → m.Ok) ∧ TimeOk t.timestamp ∧ t.kind ≠ .histogram ∧
      t.samples ≠ [] ∧ GoodCount t.samples.length ∧
      (∀ x ∈ t.samples, bits.ofBits (bits.toBits x) = x)
  | .log l => (∀ m, l.tags = some m → m.Ok) ∧ TimeOk l.time
  | _ => False

/-- The sink, connected, flushes this batch in one write of these bytes. -/
def FlushWrites (bits : Bits F) (tags : TagMap) (batch : List (Event F)) (bs : Bytes) : Prop :=
  ((Sink.mk batch 0 true tags).flush bits [true]).2 = ([.write bs], true)

/-- The source's limit on a payload — src/source/native.rs:71. -/
def maxPayload : Nat := 1048576

end
end Verif.Native
