import Verif.Model.Proto
import Verif.Model.Wire
import Verif.Model.Time
/-!
# The native sink and source

Models src/sink/native.rs and src/source/native.rs.  The network is a script of outcomes;
counters are not modelled.
-/
namespace Verif
namespace Native
open Proto

section
variable {F : Type} [F64 F]

/-- The bits of an `f64` and back (std, external).  For the doubles of src/sink/native.rs:117-203 and src/source/native.rs:134-202. -/
structure Bits (F : Type) where
  toBits : F → UInt64
  ofBits : UInt64 → F

/-- `i64` multiplication in a release build.  Used at src/sink/native.rs:146, 166. -/
def mulI64 (a b : Int) : Int := toI64 (ofI64 (a * b))

/-! ## The sink -/

/-- The method of a kind — src/sink/native.rs:126-133. -/
def methodOf : Kind → Method
  | .histogram => .bin
  | .sum => .sum
  | .set => .set
  | .summarize => .summarize

/-- The message for a telemetry — src/sink/native.rs:123-152. -/
def pointOf (bits : Bits F) (tags : TagMap) (t : Telemetry F) : Point :=
  { name := some t.name
    samples := t.samples.map bits.toBits
    persisted := some t.persist
    method := some (methodOf t.kind)
    metadata := TagMap.setAll [] (t.iterTags tags)
    timestampMs := some (mulI64 t.timestamp 1000) }

/-- The message for a log line — src/sink/native.rs:153-169. -/
def lineOf (tags : TagMap) (l : LogLine) : Line :=
  { path := some l.path
    value := some l.value
    metadata := TagMap.setAll [] (tagIter l.tags tags).collect
    timestampMs := some (mulI64 l.time 1000) }

/-- The payload for the buffered events — src/sink/native.rs:118-176. -/
def payloadOf (bits : Bits F) (tags : TagMap) (evs : List (Event F)) : Payload :=
  { points := evs.filterMap fun | .telemetry t => some (pointOf bits tags t) | _ => none
    lines := evs.filterMap fun | .log l => some (lineOf tags l) | _ => none }

/-- `BigEndian::write_u32` (byteorder, external).  Used at src/sink/native.rs:117-203. -/
def be32 (v : Nat) : Bytes :=
  [UInt8.ofNat (v / 16777216), UInt8.ofNat (v / 65536), UInt8.ofNat (v / 256), UInt8.ofNat v]

/-- What is written to the stream for a payload — src/sink/native.rs:183-187. -/
def wire (p : Payload) : Bytes := be32 p.computeSize ++ p.write

/-- One visible action of `flush` — src/sink/native.rs:117-203. -/
inductive Act where
  | write (bs : Bytes)
  | delay (ms : Nat)
  | connect
deriving DecidableEq

/-- `u32::saturating_add(1)`.  Used at src/sink/native.rs:192. -/
def satSucc (n : Nat) : Nat := if n < 4294967295 then n + 1 else n

/-- The loop of `flush` — src/sink/native.rs:178-202.  The script says whether each write is
taken for a success (`attempt` in Verif/Model/NativeWrite.lean) and whether each connection attempt succeeds.  Returns whether connected, the attempts, what was done, and whether
the loop has ended.  Simplification: a failed write is one action; how much of it reached the
peer is unknown. -/
def flushLoop (bs : Bytes) : Bool → Nat → List Bool → Bool × Nat × List Act × Bool
  | connected, attempts, [] => (connected, attempts, [], false)
  | true, attempts, true :: _ => (true, attempts, [.write bs], true)
  | true, attempts, false :: os =>
    let (c, a, w, d) := flushLoop bs false (satSucc attempts) os
    (c, a, .write bs :: w, d)
  | false, attempts, ok :: os =>
    let (c, a, w, d) := flushLoop bs ok attempts os
    (c, a, .delay (delayMs attempts) :: .connect :: w, d)

/-- `Native` — src/sink/native.rs:25-33, without host and port. -/
structure Sink (F : Type) [F64 F] where
  buffer : List (Event F) := []
  attempts : Nat := 0
  connected : Bool
  tags : TagMap

/-- `deliver`, `deliver_line` — src/sink/native.rs:105-111. -/
def Sink.deliver (s : Sink F) (e : Event F) : Sink F := { s with buffer := s.buffer ++ [e] }

/-- `flush` — src/sink/native.rs:117-203. -/
def Sink.flush (bits : Bits F) (s : Sink F) (os : List Bool) : Sink F × List Act × Bool :=
  let (c, a, w, d) := flushLoop (wire (payloadOf bits s.tags s.buffer)) s.connected s.attempts os
  ({ s with buffer := [], connected := c, attempts := a }, w, d)

/-! ## The source -/

/-- The double nearest to a natural number (ties to even), itself a natural number (external:
IEEE 754; numbers here are far below the largest double).  For `as f64` at src/source/native.rs:149, 186. -/
def round53 (p : Nat) : Nat :=
  if p < 9007199254740992 then p
  else
    let e := p.log2 - 52
    let q := p / 2 ^ e
    let r := p % 2 ^ e
    if 2 * r > 2 ^ e ∨ (2 * r = 2 ^ e ∧ q % 2 = 1) then (q + 1) * 2 ^ e else q * 2 ^ e

/-- `(ms as f64 * 0.001) as i64` — src/source/native.rs:149, 186.  The double `0.001` is
1152921504606847 / 2^60; the product is rounded once and truncated towards zero. -/
def milliToSec (ms : Int) : Int :=
  let m : Int := ((round53 (round53 ms.natAbs * 1152921504606847) / 1152921504606846976 : Nat) : Int)
  if ms < 0 then -m else m

/-- The kind of a method — src/source/native.rs:156-169. -/
def kindOf : Method → Kind
  | .set => .set
  | .sum => .sum
  | .summarize => .summarize
  | .bin => .histogram

/-- Inserting the further samples — src/source/native.rs:176-178; `none` is a panic. -/
def insertAll (t : Telemetry F) : List F → Option (Telemetry F)
  | [] => some t
  | x :: xs => (t.insert x).bind fun t => insertAll t xs

/-- A received point — src/source/native.rs:144-179: `some none` if it is skipped, `none` if the
handler panics.  Simplification: tags are overlaid in the order of the metadata. -/
def telemetryOf (bits : Bits F) (now : Int) (p : Point) : Option (Option (Telemetry F)) :=
  match p.samples.map bits.ofBits with
  | [] => some none
  | x :: xs =>
    let soft : SoftTelemetry F :=
      { Telemetry.new.setValue x with
        name := some (p.name.getD [])
        kind := some (kindOf (p.method.getD .summarize))
        persist := some (p.persisted.getD false)
        timestamp := some (milliToSec (p.timestampMs.getD 0)) }
    match soft.harden now with
    | .error _ => none
    | .ok t => (insertAll (p.metadata.foldl (fun t kv => t.overlayTag kv.1 kv.2) t) xs).map some

/-- A received line — src/source/native.rs:182-193. -/
def logOf (now : Int) (l : Line) : LogLine :=
  let line := LogLine.new now (l.path.getD []) (l.value.getD [])
  let line := { line with time := milliToSec (l.timestampMs.getD 0) }
  l.metadata.foldl (fun line kv => { line with tags := (insertTag line.tags kv.1 kv.2).1 }) line

/-- The points of a payload in order; `none` is a panic — src/source/native.rs:134-202. -/
def telemetriesOf (bits : Bits F) (now : Int) : List Point → Option (List (Telemetry F))
  | [] => some []
  | p :: ps => (telemetryOf bits now p).bind fun t =>
      (telemetriesOf bits now ps).map fun ts => t.toList ++ ts

/-- What one payload makes of a connection — src/source/native.rs:134-202. -/
inductive Handled (F : Type) [F64 F] where
  | panic
  | reject
  | events (es : List (Event F))

/-- `handle_stream_payload` — src/source/native.rs:134-202: the events sent, unless the payload
cannot be parsed or the handler panics.  Simplification: events sent before a panic are not
shown. -/
def handlePayload (bits : Bits F) (now : Int) (bs : Bytes) : Handled F :=
  match Payload.parse bs with
  | none => .reject
  | some p => match telemetriesOf bits now p.points with
    | none => .panic
    | some ts => .events (ts.map .telemetry ++ p.lines.map fun l => .log (logOf now l))

/-- How a connection ended, or that it is still open — src/source/native.rs:64-130. -/
inductive End where
  | open | closed (e : Wire.PayloadErr) | rejected | panicked
deriving DecidableEq

/-- `handle_stream` — src/source/native.rs:64-130: the events sent and how it ended.  `fuel` bounds
the number of reads. -/
def serve (bits : Bits F) (now : Int) : Nat → Wire.Reader → List (Event F) × End
  | 0, _ => ([], .open)
  | fuel + 1, r =>
    match r.read with
    | (.ok raw, r') => match handlePayload bits now raw with
      | .panic => ([], .panicked)
      | .reject => ([], .rejected)
      | .events es => let (rest, e) := serve bits now fuel r'; (es ++ rest, e)
    | (.error .wouldBlock, r') => serve bits now fuel r'
    | (.error e, _) => ([], .closed e)

end
end Native
end Verif
