import Verif.Model.Event
import Verif.Model.Buckets
/-!
# The console sink

Models src/sink/console.rs.
-/
namespace Verif
namespace Console

/-- External functions: `name_tag_hash`, `ToString` for `f64`, `i64` and `usize`, and `format_time`
(src/sink/console.rs:203-208; `none` is the panic of `NaiveDateTime::from_timestamp` on a time out of
range). -/
structure Ext (F : Type) where
  nameTagHash : Str × TagMap → Nat
  showF : F → Str
  showI : Int → Str
  showN : Nat → Str
  time : Int → Option Str

section
variable {F : Type} [F64 F]

/-- `Console` — src/sink/console.rs:14-19, without the flush interval. -/
structure State (F : Type) [F64 F] where
  aggrs : Buckets F
  buffer : List LogLine
  tags : TagMap

/-- `init` — src/sink/console.rs:68-75. -/
def init (binWidth : Int) (tags : TagMap) : State F :=
  { aggrs := Buckets.new binWidth, buffer := [], tags := tags }

/-- `deliver` — src/sink/console.rs:81-83; `none` is a panic of `Buckets::add`. -/
def deliver (ext : Ext F) (now : Int) (s : State F) (t : Telemetry F) : Option (State F) :=
  (s.aggrs.add ext.nameTagHash now t).map fun a => { s with aggrs := a }

/-- `deliver_line` — src/sink/console.rs:85-87. -/
def deliverLine (s : State F) (l : LogLine) : State F := { s with buffer := s.buffer ++ [l] }

/-- The body of the loop over the lines — src/sink/console.rs:96-100. -/
def printLine (ext : Ext F) (tags : TagMap) (l : LogLine) : Option Str :=
  (ext.time l.time).map fun time =>
    time ++ [' '] ++ l.path ++ [':', ' '] ++ l.value ++
      ((tagIter l.tags tags).collect.flatMap fun kv => [' '] ++ kv.1 ++ ['='] ++ kv.2) ++ ['\n']

/-- The loop over the lines — src/sink/console.rs:95-101. -/
def printLines (ext : Ext F) (tags : TagMap) : List LogLine → Option Str
  | [] => some []
  | l :: ls => match printLine ext tags l, printLines ext tags ls with
    | some a, some b => some (a ++ b)
    | _, _ => none

/-- The four texts collected by `flush` — src/sink/console.rs:106-109. -/
structure Texts where
  sums : Str := []
  sets : Str := []
  summaries : Str := []
  histograms : Str := []

/-- `name(time): ` — src/sink/console.rs:118-133, 140-146, 152-158. -/
def named (ext : Ext F) (name : Str) (time : Int) (value : Str) : Str :=
  [' ', ' ', ' ', ' '] ++ name ++ ['('] ++ ext.showI time ++ [')', ':', ' '] ++ value ++ ['\n']

/-- The quantiles of a summary — src/sink/console.rs:163-170. -/
def stats : List (Str × F) :=
  [("min".toList, F64.ofNat 0), ("max".toList, F64.ofNat 1),
   ("50".toList, F64.div (F64.ofNat 50) (F64.ofNat 100)),
   ("90".toList, F64.div (F64.ofNat 90) (F64.ofNat 100)),
   ("99".toList, F64.div (F64.ofNat 99) (F64.ofNat 100)),
   ("999".toList, F64.div (F64.ofNat 999) (F64.ofNat 1000))]

/-- The name of a bin — src/sink/console.rs:119-128. -/
def binName (ext : Ext F) (name : Str) (bound : Option F) : Str :=
  name ++ ['_'] ++ match bound with
    | some bnd => ext.showF bnd
    | none => "pos_inf".toList

/-- One quantile — src/sink/console.rs:174-180. -/
def quantile (ext : Ext F) (name stat : Str) (f : F) : Str :=
  [' ', ' ', ' ', ' '] ++ name ++ [':', ' '] ++ stat ++ [' '] ++ ext.showF f ++ ['\n']

/-- The body of the loop over the points — src/sink/console.rs:112-184. -/
def collect (ext : Ext F) (x : Texts) (t : Telemetry F) : Texts :=
  match t.kind with
  | .histogram => match t.bins with
    | some bins => bins.foldl (fun x b =>
        let line := named ext (binName ext t.name b.1) t.timestamp (ext.showN b.2)
        { x with histograms := x.histograms ++ line }) x
    | none => x
  | .sum => match t.sum with
    | some f => { x with sums := x.sums ++ named ext t.name t.timestamp (ext.showF f) }
    | none => x
  | .set => match t.set with
    | some f => { x with sets := x.sets ++ named ext t.name t.timestamp (ext.showF f) }
    | none => x
  | .summarize => (stats (F := F)).foldl (fun x p => match t.query p.2 with
    | some f => { x with summaries := x.summaries ++ quantile ext t.name p.1 f }
    | none => x) x

/-- `flush` — src/sink/console.rs:93-196: the new state and what is printed; `none` is a panic.
`stamps` are the two `Utc::now().to_rfc3339()`. -/
def flush (ext : Ext F) (now : Int) (stamps : Str × Str) (s : State F) : Option (State F × Str) :=
  match printLines ext s.tags s.buffer, s.aggrs.iter with
  | some lines, some pts =>
    let x := pts.foldl (collect ext) {}
    some ({ s with buffer := [], aggrs := s.aggrs.reset now },
      "Flushing lines: ".toList ++ stamps.1 ++ ['\n'] ++ lines ++
      "Flushing metrics: ".toList ++ stamps.2 ++ ['\n'] ++
      "  sums:\n".toList ++ x.sums ++ "  sets:\n".toList ++ x.sets ++
      "  summaries:\n".toList ++ x.summaries ++ "  histograms:\n".toList ++ x.histograms)
  | _, _ => none

end
end Console
end Verif
