import Verif.Model.SinkImpls
import Verif.Spec.Sink
import Verif.Spec.Wavefront
/-!
# Specification vocabulary for the sinks under the run-loop (C85-C87)
-/
namespace Verif
variable {F : Type} [F64 F]

/-- The points, lines and raw events among some events. -/
def pointsIn (es : List (Event F)) : List (Telemetry F) :=
  es.filterMap fun e => match e with | .telemetry t => some t | _ => none

def linesIn (es : List (Event F)) : List LogLine :=
  es.filterMap fun e => match e with | .log l => some l | _ => none

def rawsIn (es : List (Event F)) : List RawEvent :=
  es.filterMap fun e => match e with | .raw r => some r | _ => none

/-- Is the event a point or a line? -/
def Event.isPointOrLine : Event F → Bool
  | .telemetry _ | .log _ => true
  | _ => false

/-- The events that had arrived before the first `Shutdown`. -/
def untilShutdown (es : List (Event F)) : List (Event F) := es.takeWhile fun e => !e.isShutdown

/-- One value on the console. -/
def consoleLine (name time value : Str) : Str :=
  [' ', ' ', ' ', ' '] ++ name ++ ['('] ++ time ++ [')', ':', ' '] ++ value ++ ['\n']

/-- The statistics of a summary on the console, with their quantiles. -/
def consoleStats : List (String × F) :=
  [("min", F64.ofNat 0), ("max", F64.ofNat 1), ("50", F64.div (F64.ofNat 50) (F64.ofNat 100)),
   ("90", F64.div (F64.ofNat 90) (F64.ofNat 100)), ("99", F64.div (F64.ofNat 99) (F64.ofNat 100)),
   ("999", F64.div (F64.ofNat 999) (F64.ofNat 1000))]

/-- What a point adds to the section of a kind: nothing to another kind's; its value, its statistics or
its bins to its own. -/
def consoleText (ext : Console.Ext F) (k : Kind) (t : Telemetry F) : Str :=
  match k, t.value with
  | .sum, .sum f | .set, .set f => consoleLine t.name (ext.showI t.timestamp) (ext.showF f)
  | .summarize, .quantiles c _ => consoleStats.flatMap fun p => match F64.ckmsQuery c p.2 with
    | some f => [' ', ' ', ' ', ' '] ++ t.name ++ [':', ' '] ++ p.1.toList ++ [' '] ++ ext.showF f ++ ['\n']
    | none => []
  | .histogram, .histogram h => (F64.histBins h).flatMap fun b =>
    consoleLine (t.name ++ ['_'] ++ (b.1.map ext.showF).getD "pos_inf".toList)
      (ext.showI t.timestamp) (ext.showN b.2)
  | _, _ => []

end Verif

namespace Verif
variable {F : Type} [F64 F]

/-- A flush of the Wavefront sink: the points given to the sink since the flush before it, each with the
time it was given, and the time of the flush. -/
structure WfFlush (F : Type) [F64 F] where
  points : List (Int × Telemetry F)
  time : Int

/-- Is a point given at this time no further off the clock than the sink allows? -/
def youngEnough (age : Option Nat) (p : Int × Telemetry F) : Bool :=
  match age with
  | none => true
  | some a => decide ((p.2.timestamp - p.1).natAbs ≤ a)

/-- The points of a flush that are not too old are added to the store. -/
def WfFlush.adds (age : Option Nat) (b : WfFlush F) : List (BucketOp F) :=
  (b.points.filter (youngEnough age)).map fun p => .add p.1 p.2

/-- What flushes do to the store: add points, then reset it, twice. -/
def wfHistory (age : Option Nat) (bs : List (WfFlush F)) : List (BucketOp F) :=
  bs.flatMap fun b => b.adds age ++ [.reset b.time, .reset b.time]

end Verif
