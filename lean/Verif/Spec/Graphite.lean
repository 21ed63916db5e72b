import Verif.Model.Graphite
/-! # Specification of the graphite format -/
namespace Verif.Graphite
open Wire

/-- A reading as a client writes it: three words. -/
structure Triple where
  name : Str
  value : Str
  time : Str
deriving DecidableEq

def Triple.words (t : Triple) : List Str := [t.name, t.value, t.time]

section
variable {F : Type} [F64 F]

/-- Its value is a number and its time an integer. -/
def Triple.Valid (ext : Ext F) (t : Triple) : Prop :=
  (ext.parseF t.value).isSome ∧ (ext.parseI t.time).isSome

/-- The point it stands for: a SET point with its name, number and time, not persistent and
without tags. -/
def Triple.point (ext : Ext F) (t : Triple) : Option (Telemetry F) :=
  (ext.parseF t.value).bind fun v => (ext.parseI t.time).map fun ts =>
    { name := t.name, value := .set v, persist := false, tags := none, timestamp := ts,
      overrideCount := none, overrideSampleSum := none }

/-- The points of a line taken by itself. -/
def ownPoints (ext : Ext F) (now : Int) (line : Str) : List (Telemetry F) :=
  match parseGraphite ext now line [] with
  | (.accepted, pts) => pts
  | _ => []

/-- The points of the triples before the first one that cannot be read, and whether all words were read. -/
def pointsBefore (ext : Ext F) : List Str → List (Telemetry F) × Bool
  | [] => ([], true)
  | name :: val :: time :: ws =>
    match Triple.point ext ⟨name, val, time⟩ with
    | some p => (p :: (pointsBefore ext ws).1, (pointsBefore ext ws).2)
    | none => ([], false)
  | _ => ([], false)

/-- Those of a line. -/
def goodPoints (ext : Ext F) (line : Str) : List (Telemetry F) := (pointsBefore ext (splitWhitespace ext.isSpace line)).1

/-- The line is made of triples that can be read. -/
def allGood (ext : Ext F) (line : Str) : Prop := (pointsBefore ext (splitWhitespace ext.isSpace line)).2 = true

end

/-- Words, each followed by white space. -/
def spaced (ws : List (Str × Str)) : Str := ws.flatMap fun w => w.1 ++ w.2

/-- All bytes the socket hands over. -/
def bytesOf : List NetItem → Bytes
  | [] => []
  | .data bs :: s => bs ++ bytesOf s
  | _ :: s => bytesOf s

/-- Bytes cut after every line feed; an unfinished line is not one. -/
def finishedLines : Bytes → List Bytes
  | [] => []
  | b :: r =>
    if b = 10 then [b] :: finishedLines r
    else match finishedLines r with
      | [] => []
      | l :: ls => (b :: l) :: ls

/-- The socket behaves: it does not fail or close in the middle, and whenever it would
block (and at the end) the bytes handed over since it last did are whole characters.  `acc`
collects these bytes. -/
def WholeChars : Bytes → List NetItem → Prop
  | acc, [] => utf8Valid acc = true
  | acc, .data bs :: s => bs ≠ [] ∧ WholeChars (acc ++ bs) s
  | acc, .interrupted :: s => WholeChars acc s
  | acc, .wouldBlock :: s => utf8Valid acc = true ∧ WholeChars [] s
  | _, .failed :: _ => False

/-- What a connection's reads amount to: bytes, reads that find nothing or fail, reads that find the connection closed.  Reads that are interrupted are
repeated. -/
inductive Mark where
  | byte (b : UInt8)
  | blocked
  | closed

/-- The marks of a connection. -/
def marks : List NetItem → List Mark
  | [] => [.closed]
  | .data [] :: s => .closed :: marks s
  | .data (b :: bs) :: s => (b :: bs).map .byte ++ marks s
  | .interrupted :: s => marks s
  | .wouldBlock :: s => .blocked :: marks s
  | .failed :: s => .blocked :: marks s

/-- The lines handed over, when `line` waits and `piece` has come since: a piece ends at a line feed, a block or a close, and counts only if it is UTF-8; a line is
handed over at a line feed or close that ends a piece that counts, unless it is an empty piece before a close. -/
def handedOver : Bytes → Bytes → List Mark → List Bytes
  | _, _, [] => []
  | line, piece, .byte b :: ms =>
    if b = 10 then
      if utf8Valid (piece ++ [b]) then (line ++ (piece ++ [b])) :: handedOver [] [] ms else handedOver line [] ms
    else handedOver line (piece ++ [b]) ms
  | line, piece, .blocked :: ms => handedOver (if utf8Valid piece then line ++ piece else line) [] ms
  | line, piece, .closed :: ms =>
    if piece ≠ [] ∧ utf8Valid piece then (line ++ piece) :: handedOver [] [] ms else handedOver line [] ms

end Verif.Graphite
