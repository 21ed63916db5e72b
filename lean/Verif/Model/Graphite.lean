import Verif.Model.Wire
import Verif.Model.Statsd
/-!
# The graphite parser and source

Models src/protocols/graphite.rs and the line loop of src/source/graphite.rs.
-/
namespace Verif.Graphite
open Wire

section
variable {F : Type} [F64 F]

/-- The external functions the parser calls: `f64::from_str`, `i64::from_str` and
`char::is_whitespace` (std).  Used at src/protocols/graphite.rs:9-47. -/
structure Ext (F : Type) where
  parseF : Str → Option F
  parseI : Str → Option Int
  isSpace : Char → Bool

/-- `str::split_whitespace` (std, external): the non-empty runs between white space.  Used at src/protocols/graphite.rs:9-47. -/
def splitWhitespace (isSpace : Char → Bool) : Str → List Str
  | [] => []
  | c :: s =>
    if isSpace c then splitWhitespace isSpace s
    else match s with
      | [] => [[c]]
      | d :: _ =>
        if isSpace d then [c] :: splitWhitespace isSpace s
        else match splitWhitespace isSpace s with
          | [] => [[c]]
          | w :: ws => (c :: w) :: ws

/-- The point for a triple — src/protocols/graphite.rs:27-39; an error is the `unwrap`
panic. -/
def mkPoint (now : Int) (name : Str) (v : F) (t : Int) : Except HardenError (Telemetry F) :=
  ({ ((Telemetry.default now : Telemetry F).thaw.setValue v) with
      name := some name, kind := some .set, timestamp := some t } : SoftTelemetry F).harden now

/-- The loop of `parse_graphite` over the words — src/protocols/graphite.rs:14-46: the
verdict and `res`. -/
def parseWords (ext : Ext F) (now : Int) : List Str → List (Telemetry F) →
    Statsd.Verdict × List (Telemetry F)
  | [], res => (if res.isEmpty then .rejected else .accepted, res)
  | name :: val :: time :: ws, res =>
    match ext.parseF val with
    | none => (.rejected, res)
    | some v =>
      match ext.parseI time with
      | none => (.rejected, res)
      | some t =>
        match mkPoint now name v t with
        | .ok p => parseWords ext now ws (res ++ [p])
        | .error _ => (.panicked, res)
  | _, res => (.rejected, res)

/-- `parse_graphite` — src/protocols/graphite.rs:9-47. -/
def parseGraphite (ext : Ext F) (now : Int) (source : Str) (res : List (Telemetry F)) :
    Statsd.Verdict × List (Telemetry F) :=
  parseWords ext now (splitWhitespace ext.isSpace source) res

/-- The handling of complete lines — src/source/graphite.rs:79-107: the points sent, in
order, and `res` at the end.  `none` is a panic. -/
def handleLines (ext : Ext F) (now : Int) : List Str → List (Telemetry F) →
    Option (List (Telemetry F) × List (Telemetry F))
  | [], res => some ([], res)
  | l :: ls, res =>
    match parseGraphite ext now l res with
    | (.accepted, ms) => (handleLines ext now ls []).map fun r => (ms ++ r.1, r.2)
    | (.rejected, ms) => handleLines ext now ls ms
    | (.panicked, _) => none

end

/-! ## Reading lines from the socket -/

/-- The ranges the bytes after a lead byte must be in (RFC 3629, table of section 4);
`none` if it cannot start a character.  For `read_line` at src/source/graphite.rs:59-114. -/
def utf8Lead (a : UInt8) : Option (List (UInt8 × UInt8)) :=
  if a < 0x80 then some []
  else if 0xC2 ≤ a && a ≤ 0xDF then some [(0x80, 0xBF)]
  else if a = 0xE0 then some [(0xA0, 0xBF), (0x80, 0xBF)]
  else if a = 0xED then some [(0x80, 0x9F), (0x80, 0xBF)]
  else if 0xE1 ≤ a && a ≤ 0xEF then some [(0x80, 0xBF), (0x80, 0xBF)]
  else if a = 0xF0 then some [(0x90, 0xBF), (0x80, 0xBF), (0x80, 0xBF)]
  else if a = 0xF4 then some [(0x80, 0x8F), (0x80, 0xBF), (0x80, 0xBF)]
  else if 0xF1 ≤ a && a ≤ 0xF3 then some [(0x80, 0xBF), (0x80, 0xBF), (0x80, 0xBF)]
  else none

/-- Is this UTF-8, given that bytes in these ranges must come first?.  For `read_line` at src/source/graphite.rs:59-114. -/
def utf8From : List (UInt8 × UInt8) → Bytes → Bool
  | [], [] => true
  | _ :: _, [] => false
  | [], a :: r => match utf8Lead a with
    | some ranges => utf8From ranges r
    | none => false
  | (lo, hi) :: ranges, b :: r => lo ≤ b && b ≤ hi && utf8From ranges r

/-- `str::from_utf8(bs).is_ok()` (std, external: RFC 3629).  For `read_line` at src/source/graphite.rs:59-114. -/
def utf8Valid (bs : Bytes) : Bool := utf8From [] bs

/-- Split after the first line feed: the text up to and including it, and the rest.  For `read_line` at src/source/graphite.rs:59-114. -/
def splitLine : Bytes → Option (Bytes × Bytes)
  | [] => none
  | b :: r => if b = 10 then some ([b], r) else (splitLine r).map fun p => (b :: p.1, p.2)

/-- `BufRead::read_until(b'\n')` (std, external) on a socket: what it appended, and how it
ended. `staged` is the content of the `BufReader`.  Simplification: the socket hands over a
whole item at a time, that is, items are no longer than the buffer.  For `read_line` at src/source/graphite.rs:59-114. -/
def readUntil : Bytes → List NetItem → Bytes × Except IoErr Unit × Bytes × List NetItem
  | staged, stream =>
    match splitLine staged with
    | some (l, r) => (l, .ok (), r, stream)
    | none =>
      match stream with
      | [] => (staged, .ok (), [], [])
      | .data [] :: s => (staged, .ok (), [], s)
      | .data (b :: bs) :: s =>
        let (l, e, r, s') := readUntil (b :: bs) s
        (staged ++ l, e, r, s')
      | .interrupted :: s =>
        let (l, e, r, s') := readUntil [] s
        (staged ++ l, e, r, s')
      | .wouldBlock :: s => (staged, .error .wouldBlock, [], s)
      | .failed :: s => (staged, .error .other, [], s)

/-- `BufRead::read_line` (std, external): `read_until` into the string's buffer, then the
appended bytes are checked: if they are not UTF-8 they are taken out again and the call
fails; if they are, they stay, even if reading failed.  For `read_line` at src/source/graphite.rs:59-114. -/
def readLine (line : Bytes) (staged : Bytes) (stream : List NetItem) :
    Except IoErr Nat × Bytes × Bytes × List NetItem :=
  let (l, e, r, s) := readUntil staged stream
  if utf8Valid l then
    match e with
    | .ok () => (.ok l.length, line ++ l, r, s)
    | .error err => (.error err, line ++ l, r, s)
  else (match e with | .ok () => .error .other | .error err => .error err, line, r, s)

/-- The connection's loop — src/source/graphite.rs:70-113: lines handed to the parser, as
long as the socket has something to say.  After an error or an end of stream the handler
polls again.  `fuel` bounds the number of `read_line` calls. -/
def readLines : Nat → Bytes → Bytes → List NetItem → List Bytes
  | 0, _, _, _ => []
  | fuel + 1, line, staged, stream =>
    match readLine line staged stream with
    | (.ok 0, line, staged, stream) =>
      if stream.isEmpty && staged.isEmpty then [] else readLines fuel line staged stream
    | (.ok _, line, staged, stream) => line :: readLines fuel [] staged stream
    | (.error _, line, staged, stream) => readLines fuel line staged stream

end Verif.Graphite
