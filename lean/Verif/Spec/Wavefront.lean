import Verif.Model.Wavefront
import Verif.Spec.Buckets
/-!
# Vocabulary for the Wavefront properties (C44-C46, C71, C72)
-/
namespace Verif.Wavefront
section
variable {F : Type} [F64 F]

/-- Is padding switched on for this kind of point? -/
def pads (pc : PadControl) : Kind → Bool
  | .histogram => pc.histogram
  | .set => pc.set
  | .sum => pc.sum
  | .summarize => pc.summarize

/-- The stored points among what is emitted, without the padding. -/
def storedPoints (out : List (Pad F)) : List (Telemetry F) :=
  out.filterMap fun p => match p with
    | .telem t => some t
    | .zero _ _ => none

/-- A zero of the series of one of these points: its name, tags, persistence and kind, and the value zero (a summary or a histogram of
the single sample zero). -/
def ZeroOf (pts : List (Telemetry F)) (z : Telemetry F) : Prop :=
  ∃ t ∈ pts, z.name = t.name ∧ z.tags = t.tags ∧ z.persist = t.persist ∧ z.kind = t.kind ∧ z.overrideCount = none ∧
    match z.value with
    | .set v | .sum v => v = F64.zero
    | .histogram h => ∃ h0, h = F64.histInsert h0 F64.zero
    | .quantiles c _ => ∃ e, c = F64.ckmsInsert (F64.ckmsNew e) F64.zero

/-- The second list is the first, in order, with zeros of the series of `all` in between. -/
inductive Padded (all : List (Telemetry F)) : List (Telemetry F) → List (Telemetry F) → Prop where
  | nil : Padded all [] []
  | keep {pts shown} (t) : Padded all pts shown → Padded all (t :: pts) (t :: shown)
  | zero {pts shown} (z) : ZeroOf all z → Padded all pts shown → Padded all pts (z :: shown)

/-- The point whose series a pad belongs to. -/
def Pad.origin : Pad F → Telemetry F
  | .zero t _ | .telem t => t

/-- Same name, tags and kind. -/
def SameLine (a b : Telemetry F) : Prop := SameSeries a b ∧ a.kind = b.kind

/-- The 64-bit hash of name, tags and kind happens to distinguish these points. -/
def HashOk (ext : Ext F) (pts : List (Telemetry F)) : Prop :=
  ∀ a ∈ pts, ∀ b ∈ pts, telemHash ext a = telemHash ext b → SameLine a b

/-- Points of one series come one after the other, in increasing time order. -/
def InOrder (pts : List (Telemetry F)) : Prop :=
  pts.Pairwise (fun a c => SameLine a c → a.timestamp < c.timestamp) ∧
  ∀ A x y B, pts = A ++ x :: y :: B → ¬ SameLine x y → ∀ z ∈ B, ¬ SameLine x z

end
end Verif.Wavefront

namespace Verif.Wavefront
section
variable {F : Type} [F64 F]

/-- These values can be compared (none is a NaN), and values that compare equal print
alike.  `rank` is their position in the order. -/
def Ordered (ext : Ext F) (vals : F → Prop) : Prop :=
  ∃ rank : F → Int, ∀ a b, vals a → vals b →
    ext.cmp a b = some (compare (rank a) (rank b)) ∧ (rank a = rank b → ext.showF a = ext.showF b)

/-- One line of the Wavefront format. -/
def wfLine (name value time tags : Str) : Str :=
  name ++ [' '] ++ value ++ [' '] ++ time ++ [' '] ++ tags ++ ['\n']

/-- `key=value` pairs separated by single spaces. -/
def tagText : List (Str × Str) → Str
  | [] => []
  | [(k, v)] => k ++ ['='] ++ v
  | (k, v) :: kv :: rest => k ++ ['='] ++ v ++ [' '] ++ tagText (kv :: rest)

/-- The numbers printed for a point. -/
def printed (percentiles : List (Str × F)) (t : Telemetry F) (x : F) : Prop :=
  match t.value with
  | .set v | .sum v => x = v
  | .histogram h => ∃ b ∈ F64.histBins h, b.1 = some x
  | .quantiles c _ => (∃ p ∈ percentiles, F64.ckmsQuery c p.2 = some x) ∨
      x = (F64.ckmsCma c).getD F64.zero

/-- Every configured percentile has an answer (a summary with no samples has none). -/
def Answers (percentiles : List (Str × F)) (t : Telemetry F) : Prop :=
  match t.value with
  | .quantiles c _ => ∀ p ∈ percentiles, (F64.ckmsQuery c p.2).isSome
  | _ => True

/-- The text of a point: one line for a gauge or a counter, one per bin for a histogram,
one per percentile and two more for a summary. -/
def pointText (ext : Ext F) (percentiles : List (Str × F)) (tags : TagMap) (t : Telemetry F) : Str :=
  let tail := tagText (t.iterTags tags)
  let time := ext.showI t.timestamp
  match t.value with
  | .set v | .sum v => wfLine t.name (ext.showF v) time tail
  | .histogram h => ((F64.histBins h).map fun b =>
      wfLine (t.name ++ ['_'] ++ match b.1 with
        | some x => ext.showF x
        | none => "pos_inf".toList) (ext.showN b.2) time tail).flatten
  | .quantiles c _ =>
      (percentiles.map fun p => match F64.ckmsQuery c p.2 with
        | some q => wfLine (t.name ++ ['.'] ++ p.1) (ext.showF q) time tail
        | none => []).flatten ++
      wfLine (t.name ++ ".count".toList) (ext.showN t.count) time tail ++
      wfLine (t.name ++ ".mean".toList) (ext.showF ((F64.ckmsCma c).getD F64.zero)) time tail

end
end Verif.Wavefront
