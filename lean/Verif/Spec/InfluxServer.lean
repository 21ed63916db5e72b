import Verif.Spec.Influxdb
/-!
# A server that takes the line protocol (for C139)

The database is a map from series and time to the field written.  A request is a text; its lines of the form `series field time` are written in order, a
later one over an earlier one of the same series and time.  A request that the sink takes for failed may have been carried out in any part.
-/
namespace Verif
namespace Influx
open Wavefront (Ext)

/-- The pieces of a text between the occurrences of a character. -/
def pieces (c : Char) : Str → List Str
  | [] => [[]]
  | x :: xs => if x = c then [] :: pieces c xs else match pieces c xs with
    | [] => [[x]]
    | p :: ps => (x :: p) :: ps

/-- What a line writes: series, time and field. -/
structure Row where
  series : Str
  time : Str
  field : Str
deriving DecidableEq

/-- A line of the protocol. -/
def rowOf (line : Str) : Option Row := match pieces ' ' line with
  | [series, field, time] => some ⟨series, time, field⟩
  | _ => none

/-- What a request asks to write. -/
def rowsOf (request : Str) : List Row := (pieces '\n' request).filterMap rowOf

/-- What the database shows for a series at a time. -/
abbrev Db := Str → Str → Option Str

/-- Writing rows, in order. -/
def write (db : Db) : List Row → Db
  | [] => db
  | r :: rs => write (fun s t => if s = r.series ∧ t = r.time then some r.field else db s t) rs

section
variable {F : Type} [F64 F]

/-- A step: a point arrives, or a flush is run to its end; with each failure goes what the server nevertheless writes of that request. -/
inductive DbOp (F : Type) [F64 F] where
  | point (t : Telemetry F)
  | flush (failures : List (Outcome × (Row → Bool)))

/-- The requests among the actions of a flush. -/
def requests : List Wire → List Str
  | [] => []
  | .post p :: ws => p :: requests ws
  | .delay _ :: ws => requests ws

/-- The server gets requests, with what it carries out of each. -/
def serve (db : Db) : List (Str × (Row → Bool)) → Db
  | [] => db
  | (p, picks) :: ps => serve (write db ((rowsOf p).filter picks)) ps

/-- Sink and server run over a history. -/
def runDb (ext : Ext F) (s : State F) (db : Db) : List (DbOp F) → Option (State F × Db)
  | [] => some (s, db)
  | .point t :: ops => runDb ext (deliver s t) db ops
  | .flush failures :: ops =>
    match flush ext s (failures.map Prod.fst ++ [.success]) with
    | none => none
    | some (s', wire, _) => runDb ext s' (serve db ((requests wire).zip (failures.map Prod.snd ++ [fun _ => true]))) ops

/-- The same history without what the server does. -/
def DbOp.plain : DbOp F → Op F
  | .point t => .point t
  | .flush fs => .flush (fs.map Prod.fst)

/-- What a point says: name and tags, time, value. One row for a gauge or a counter, one per bin of a histogram, one per answered percentile of a
summary. -/
def pointRows (ext : Ext F) (tags : TagMap) (t : Telemetry F) : List Row :=
  let row := fun (name : Str) (v : F) => (⟨name ++ tagText (t.iterTags tags), ext.showN (nanos t.timestamp), "value=".toList ++ ext.showF v⟩ : Row)
  match t.value with
  | .set v | .sum v => [row t.name v]
  | .histogram h => (F64.histBins h).map fun b => row (t.name ++ ".le_".toList ++ (match b.1 with
      | some x => ext.showF x
      | none => "inf".toList)) (F64.ofNat b.2)
  | .quantiles c _ => (reportedPercentiles.map fun p => match F64.ckmsQuery c p with
      | some q => [row (t.name ++ ['.'] ++ ext.showF p) q]
      | none => []).flatten

/-- Neither spaces nor line ends. -/
def Solid (s : Str) : Prop := ' ' ∉ s ∧ '\n' ∉ s

end
end Influx
end Verif
