import Verif.Model.Event
/-!
# The native protocol's messages

Models src/protocols/native.rs (generated from resources/protobufs/native.proto): how messages
are sized, written and read.  The `protobuf` crate underneath (tags, varints, strings, maps) is
external and modelled after the encoding's definition; the bits of a double are a `UInt64`.

Simplifications: lengths are natural numbers (the code computes them in `u32`; theorems assume
payloads below 4 GiB); errors are not told apart; fields the schema does not know are skipped
and not kept; groups, which the schema does not use, are rejected.
-/
namespace Verif.Proto

/-- `CodedOutputStream::write_raw_varint64` (external): seven bits at a time, least significant
first, in at most ten bytes.  For the generated code in src/protocols/native.rs. -/
def varintN : Nat → Nat → Bytes
  | 0, _ => []
  | n + 1, v => if v < 128 then [UInt8.ofNat v] else UInt8.ofNat (v % 128 + 128) :: varintN n (v / 128)

/-- For the generated code in src/protocols/native.rs. -/
@[inherit_doc varintN]
def varint (v : Nat) : Bytes := varintN 10 v

/-- `rt::compute_raw_varint32_size` (external).  For the generated code in src/protocols/native.rs. -/
def varintSize (v : Nat) : Nat :=
  if v < 128 then 1 else if v < 16384 then 2 else if v < 2097152 then 3
  else if v < 268435456 then 4 else 5

/-- `rt::compute_raw_varint64_size` (external).  For the generated code in src/protocols/native.rs. -/
def varint64Size (v : Nat) : Nat :=
  if v < 128 then 1 else if v < 16384 then 2 else if v < 2097152 then 3
  else if v < 268435456 then 4 else if v < 34359738368 then 5 else if v < 4398046511104 then 6
  else if v < 562949953421312 then 7 else if v < 72057594037927936 then 8
  else if v < 9223372036854775808 then 9 else 10

/-- The eight bytes of a double, least significant first (external).  For the generated code in src/protocols/native.rs. -/
def leBytes : Nat → Nat → Bytes
  | 0, _ => []
  | n + 1, v => UInt8.ofNat (v % 256) :: leBytes n (v / 256)

/-- Reading it back (external).  For the generated code in src/protocols/native.rs. -/
def leNat : Bytes → Nat
  | [] => 0
  | b :: r => b.toNat + 256 * leNat r

/-- The UTF-8 bytes of a string.  For the generated code in src/protocols/native.rs. -/
def utf8 (s : Str) : Bytes := s.flatMap String.utf8EncodeChar

/-- `String::from_utf8` (std, external).  For the generated code in src/protocols/native.rs. -/
def unUtf8 (bs : Bytes) : Option Str := bs.toByteArray.utf8Decode?.map Array.toList

/-- An `i64` as the `u64` with the same bits.  For the generated code in src/protocols/native.rs. -/
def ofI64 (v : Int) : Nat := (v % 18446744073709551616).toNat

/-- A `u64` as the `i64` with the same bits.  For the generated code in src/protocols/native.rs. -/
def toI64 (n : Nat) : Int :=
  if n < 9223372036854775808 then n else (n : Int) - 18446744073709551616

/-- `AggregationMethod` — src/protocols/native.rs:1076-1081. -/
inductive Method where
  | sum | set | summarize | bin
deriving DecidableEq, Repr

/-- `AggregationMethod::value` — src/protocols/native.rs:1084-1086. -/
def Method.value : Method → Nat
  | .sum => 1 | .set => 2 | .summarize => 3 | .bin => 4

/-- `AggregationMethod::from_i32` — src/protocols/native.rs:1088-1096. -/
def Method.ofI32 : Nat → Option Method
  | 1 => some .sum | 2 => some .set | 3 => some .summarize | 4 => some .bin | _ => none

/-- `Telemetry` — src/protocols/native.rs:603-615. -/
structure Point where
  name : Option Str := none
  samples : List UInt64 := []
  persisted : Option Bool := none
  method : Option Method := none
  metadata : TagMap := []
  timestampMs : Option Int := none
  binBounds : List UInt64 := []
deriving DecidableEq

/-- `LogLine` — src/protocols/native.rs:265-274. -/
structure Line where
  path : Option Str := none
  value : Option Str := none
  metadata : TagMap := []
  timestampMs : Option Int := none
deriving DecidableEq

/-- `Payload` — src/protocols/native.rs:25-32. -/
structure Payload where
  points : List Point := []
  lines : List Line := []
deriving DecidableEq

/-! ## Writing -/

/-- `CodedOutputStream::write_tag` (external).  For the generated code in src/protocols/native.rs. -/
def putTag (field wire : Nat) : Bytes := varint (field * 8 + wire)

/-- `CodedOutputStream::write_string` (external).  For the generated code in src/protocols/native.rs. -/
def putStr (field : Nat) (s : Str) : Bytes :=
  putTag field 2 ++ varint (utf8 s).length ++ utf8 s

/-- `rt::string_size` (external), for fields below 16.  For the generated code in src/protocols/native.rs. -/
def strSize (s : Str) : Nat := 1 + varintSize (utf8 s).length + (utf8 s).length

/-- `CodedOutputStream::write_int64` (external).  For the generated code in src/protocols/native.rs. -/
def putI64 (field : Nat) (v : Int) : Bytes := putTag field 0 ++ varint (ofI64 v)

/-- The length of one map entry (`rt::compute_map_size`, external).  For the generated code in src/protocols/native.rs. -/
def entrySize (kv : Str × Str) : Nat := strSize kv.1 + strSize kv.2

/-- One map entry (`rt::write_map_with_cached_sizes`, external).  For the generated code in src/protocols/native.rs. -/
def putEntry (field : Nat) (kv : Str × Str) : Bytes :=
  putTag field 2 ++ varint (entrySize kv) ++ (putStr 1 kv.1 ++ putStr 2 kv.2)

/-- `rt::write_map_with_cached_sizes` (external).  For the generated code in src/protocols/native.rs. -/
def putMap (field : Nat) (m : TagMap) : Bytes := m.flatMap (putEntry field)

/-- `rt::compute_map_size` (external).  For the generated code in src/protocols/native.rs. -/
def mapSize (m : TagMap) : Nat :=
  (m.map fun kv => 1 + varintSize (entrySize kv) + entrySize kv).sum

/-- An optional field.  For the generated code in src/protocols/native.rs. -/
def putOpt {α : Type} (put : α → Bytes) : Option α → Bytes
  | none => []
  | some a => put a

/-- The size of an optional field.  For the generated code in src/protocols/native.rs. -/
def optSize {α : Type} (size : α → Nat) : Option α → Nat
  | none => 0
  | some a => size a

/-- The packed samples — src/protocols/native.rs:940-947. -/
def putSamples (l : List UInt64) : Bytes :=
  if l.isEmpty then []
  else putTag 2 2 ++ varint (l.length * 8) ++ l.flatMap fun v => leBytes 8 v.toNat

/-- `Telemetry::compute_size` — src/protocols/native.rs:912-934.  The length of the packed
samples is counted with the size of their number, not of their byte count. -/
def Point.computeSize (p : Point) : Nat :=
  optSize strSize p.name
  + (if p.samples.isEmpty then 0 else 1 + varintSize p.samples.length + p.samples.length * 8)
  + optSize (fun _ => 2) p.persisted
  + optSize (fun m => 1 + varintSize m.value) p.method
  + mapSize p.metadata
  + optSize (fun v => 1 + varint64Size (ofI64 v)) p.timestampMs
  + 9 * p.binBounds.length

/-- `Telemetry::write_to_with_cached_sizes` — src/protocols/native.rs:936-964. -/
def Point.write (p : Point) : Bytes :=
  putOpt (putStr 1) p.name
  ++ putSamples p.samples
  ++ putOpt (fun b => putTag 3 0 ++ [if b then 1 else 0]) p.persisted
  ++ putOpt (fun m => putTag 4 0 ++ varint m.value) p.method
  ++ putMap 5 p.metadata
  ++ putOpt (putI64 6) p.timestampMs
  ++ p.binBounds.flatMap fun v => putTag 7 1 ++ leBytes 8 v.toNat

/-- `LogLine::compute_size` — src/protocols/native.rs:478-493. -/
def Line.computeSize (l : Line) : Nat :=
  optSize strSize l.path + optSize strSize l.value + mapSize l.metadata
  + optSize (fun v => 1 + varint64Size (ofI64 v)) l.timestampMs

/-- `LogLine::write_to_with_cached_sizes` — src/protocols/native.rs:495-508. -/
def Line.write (l : Line) : Bytes :=
  putOpt (putStr 1) l.path ++ putOpt (putStr 2) l.value ++ putMap 3 l.metadata
  ++ putOpt (putI64 4) l.timestampMs

/-- `Payload::compute_size` — src/protocols/native.rs:154-167. -/
def Payload.computeSize (p : Payload) : Nat :=
  (p.points.map fun x => 1 + varintSize x.computeSize + x.computeSize).sum
  + (p.lines.map fun x => 1 + varintSize x.computeSize + x.computeSize).sum

/-- `Payload::write_to_with_cached_sizes` — src/protocols/native.rs:169-182. -/
def Payload.write (p : Payload) : Bytes :=
  (p.points.flatMap fun x => putTag 2 2 ++ varint x.computeSize ++ x.write)
  ++ (p.lines.flatMap fun x => putTag 3 2 ++ varint x.computeSize ++ x.write)

/-! ## Reading -/

/-- `CodedInputStream::read_raw_varint64` (external): at most ten bytes.  For the generated code in src/protocols/native.rs. -/
def readVarintN : Nat → Bytes → Option (Nat × Bytes)
  | 0, _ => none
  | _ + 1, [] => none
  | n + 1, b :: r =>
    if b.toNat < 128 then some (b.toNat, r)
    else (readVarintN n r).map fun (v, r) => (b.toNat - 128 + 128 * v, r)

/-- For the generated code in src/protocols/native.rs. -/
@[inherit_doc readVarintN]
def readVarint (bs : Bytes) : Option (Nat × Bytes) :=
  (readVarintN 10 bs).map fun (v, r) => (v % 18446744073709551616, r)

/-- `CodedInputStream::read_raw_varint32` (external).  For the generated code in src/protocols/native.rs. -/
def readVarint32 (bs : Bytes) : Option (Nat × Bytes) :=
  (readVarint bs).map fun (v, r) => (v % 4294967296, r)

/-- Exactly `n` bytes (`push_limit`, `read_raw_bytes`, external).  For the generated code in src/protocols/native.rs. -/
def readBytes (n : Nat) (bs : Bytes) : Option (Bytes × Bytes) :=
  if n ≤ bs.length then some (bs.take n, bs.drop n) else none

/-- A length and that many bytes (external).  For the generated code in src/protocols/native.rs. -/
def readDelimited (bs : Bytes) : Option (Bytes × Bytes) :=
  (readVarint32 bs).bind fun (n, r) => readBytes n r

/-- `CodedInputStream::read_string` (external).  For the generated code in src/protocols/native.rs. -/
def readString (bs : Bytes) : Option (Str × Bytes) :=
  (readDelimited bs).bind fun (s, r) => (unUtf8 s).map fun s => (s, r)

/-- `CodedInputStream::read_double` (external).  For the generated code in src/protocols/native.rs. -/
def readDouble (bs : Bytes) : Option (UInt64 × Bytes) :=
  (readBytes 8 bs).map fun (d, r) => (UInt64.ofNat (leNat d), r)

/-- `CodedInputStream::read_repeated_packed_double_into`: all doubles in a limited section
(external).  `fuel` bounds the number of doubles.  For the generated code in src/protocols/native.rs. -/
def readDoubles : Nat → Bytes → Option (List UInt64)
  | _, [] => some []
  | 0, _ => none
  | fuel + 1, bs => (readDouble bs).bind fun (d, r) => (readDoubles fuel r).map (d :: ·)

/-- `CodedInputStream::read_tag_unpack` (external): field and wire type.  For the generated code in src/protocols/native.rs. -/
def readTag (bs : Bytes) : Option (Nat × Nat × Bytes) :=
  (readVarint32 bs).bind fun (v, r) =>
    if v / 8 = 0 ∨ 5 < v % 8 then none else some (v / 8, v % 8, r)

/-- `rt::read_unknown_or_skip_group` and `skip_field` (external), without groups.  For the generated code in src/protocols/native.rs. -/
def skipField (wire : Nat) (bs : Bytes) : Option Bytes :=
  match wire with
  | 0 => (readVarint bs).map (·.2)
  | 1 => (readBytes 8 bs).map (·.2)
  | 2 => (readDelimited bs).map (·.2)
  | 5 => (readBytes 4 bs).map (·.2)
  | _ => none

/-- The loop of every `merge_from`: until the end of the section, read a tag and then the field.
`fuel` bounds the number of fields.  For the generated code in src/protocols/native.rs. -/
def mergeLoop {α : Type} (step : Nat → Nat → α → Bytes → Option (α × Bytes)) :
    Nat → α → Bytes → Option α
  | 0, _, _ => none
  | _ + 1, a, [] => some a
  | fuel + 1, a, b :: bs => (readTag (b :: bs)).bind fun (f, w, r) =>
      (step f w a r).bind fun (a', r') => mergeLoop step fuel a' r'

/-- A field that must have a given wire type.  For the generated code in src/protocols/native.rs. -/
def expect {α : Type} (wire want : Nat) (x : Option α) : Option α :=
  if wire = want then x else none

/-- An unknown field leaves the message as it is.  For the generated code in src/protocols/native.rs. -/
def unknown {α : Type} (wire : Nat) (a : α) (bs : Bytes) : Option (α × Bytes) :=
  (skipField wire bs).map fun r => (a, r)

/-- One field of a map entry (`rt::read_map_into`, external).  For the generated code in src/protocols/native.rs. -/
def entryStep (f w : Nat) (kv : Str × Str) (bs : Bytes) : Option ((Str × Str) × Bytes) :=
  match f with
  | 1 => expect w 2 ((readString bs).map fun (s, r) => ((s, kv.2), r))
  | 2 => expect w 2 ((readString bs).map fun (s, r) => ((kv.1, s), r))
  | _ => unknown w kv bs

/-- `rt::read_map_into` (external).  For the generated code in src/protocols/native.rs. -/
def readEntry (m : TagMap) (bs : Bytes) : Option (TagMap × Bytes) :=
  (readDelimited bs).bind fun (e, r) =>
    (mergeLoop entryStep (e.length + 1) ([], []) e).map fun kv => (m.set kv.1 kv.2, r)

/-- One field in `Telemetry::merge_from` — src/protocols/native.rs:865-904. -/
def Point.step (f w : Nat) (p : Point) (bs : Bytes) : Option (Point × Bytes) :=
  match f with
  | 1 => expect w 2 ((readString bs).map fun (s, r) => ({ p with name := some s }, r))
  | 2 =>
    if w = 2 then (readDelimited bs).bind fun (d, r) =>
      (readDoubles d.length d).map fun ds => ({ p with samples := p.samples ++ ds }, r)
    else expect w 1 ((readDouble bs).map fun (d, r) => ({ p with samples := p.samples ++ [d] }, r))
  | 3 => expect w 0 ((readVarint32 bs).map fun (v, r) => ({ p with persisted := some (v != 0) }, r))
  | 4 => expect w 0 ((readVarint32 bs).bind fun (v, r) =>
      (Method.ofI32 v).map fun m => ({ p with method := some m }, r))
  | 5 => expect w 2 ((readEntry p.metadata bs).map fun (m, r) => ({ p with metadata := m }, r))
  | 6 => expect w 0 ((readVarint bs).map fun (v, r) => ({ p with timestampMs := some (toI64 v) }, r))
  | 7 =>
    if w = 2 then (readDelimited bs).bind fun (d, r) =>
      (readDoubles d.length d).map fun ds => ({ p with binBounds := p.binBounds ++ ds }, r)
    else expect w 1 ((readDouble bs).map fun (d, r) => ({ p with binBounds := p.binBounds ++ [d] }, r))
  | _ => unknown w p bs

/-- One field in `LogLine::merge_from` — src/protocols/native.rs:448-474. -/
def Line.step (f w : Nat) (l : Line) (bs : Bytes) : Option (Line × Bytes) :=
  match f with
  | 1 => expect w 2 ((readString bs).map fun (s, r) => ({ l with path := some s }, r))
  | 2 => expect w 2 ((readString bs).map fun (s, r) => ({ l with value := some s }, r))
  | 3 => expect w 2 ((readEntry l.metadata bs).map fun (m, r) => ({ l with metadata := m }, r))
  | 4 => expect w 0 ((readVarint bs).map fun (v, r) => ({ l with timestampMs := some (toI64 v) }, r))
  | _ => unknown w l bs

/-- One field in `Payload::merge_from` — src/protocols/native.rs:134-150; a nested message is
read within its declared length (`rt::read_repeated_message_into`, external). -/
def Payload.step (f w : Nat) (p : Payload) (bs : Bytes) : Option (Payload × Bytes) :=
  match f with
  | 2 => expect w 2 ((readDelimited bs).bind fun (m, r) =>
      (mergeLoop Point.step (m.length + 1) {} m).map fun x => ({ p with points := p.points ++ [x] }, r))
  | 3 => expect w 2 ((readDelimited bs).bind fun (m, r) =>
      (mergeLoop Line.step (m.length + 1) {} m).map fun x => ({ p with lines := p.lines ++ [x] }, r))
  | _ => unknown w p bs

/-- `protobuf::parse_from_bytes::<Payload>` (external) over `Payload::merge_from`.  For the generated code in src/protocols/native.rs. -/
def Payload.parse (bs : Bytes) : Option Payload := mergeLoop Payload.step (bs.length + 1) {} bs

end Verif.Proto
