import Verif.Model.Wire
import Verif.Model.Kafka
/-!
# The Avro source

Models src/source/avro.rs.  Whether a blob is a valid Avro container
(`serde_avro::de::Deserializer::from_container`) is a parameter.
-/
namespace Verif.Avro
open Wire

/-- `Cursor::read_exact` into a fresh buffer of `n` bytes (std, external); `none` is the
error at the end of the input.  Used at src/source/avro.rs:116-160. -/
def takeN (n : Nat) (bs : Bytes) : Option (Bytes × Bytes) :=
  if n ≤ bs.length then some (bs.take n, bs.drop n) else none

/-- `read_u8/u16/u32/u64::<BigEndian>` with `n` bytes (byteorder, external).  Used at src/source/avro.rs:80-92 and 116-160. -/
def readUInt (n : Nat) (bs : Bytes) : Option (Nat × Bytes) :=
  (takeN n bs).map fun (a, r) => (beNat a, r)

/-- `Header` — src/source/avro.rs:25-32. -/
structure Header where
  version : Nat
  control : Nat
  id : Nat
  orderBy : Nat
deriving DecidableEq, Repr

/-- `impl From<&mut Cursor> for Header` — src/source/avro.rs:80-91; `none` is the panic of
`unwrap` on a short frame. -/
def Header.parse (bs : Bytes) : Option (Header × Bytes) :=
  (readUInt 4 bs).bind fun (version, bs) =>
  (readUInt 4 bs).bind fun (control, bs) =>
  (readUInt 8 bs).bind fun (id, bs) =>
  (readUInt 8 bs).map fun (orderBy, bs) => (⟨version, control, id, orderBy⟩, bs)

/-- `Header::sync` — src/source/avro.rs:99-101: `control & 1 > 0`. -/
def Header.sync (h : Header) : Bool := decide (h.control &&& 1 > 0)

/-- The `for _ in 0..num_kv` loop — src/source/avro.rs:128-136; `none` is a panic. -/
def readKvs : Nat → Bytes → Metadata → Option (Metadata × Bytes)
  | 0, bs, m => some (m, bs)
  | n + 1, bs, m =>
    (readUInt 1 bs).bind fun (keyLen, bs) =>
    (takeN keyLen bs).bind fun (key, bs) =>
    (readUInt 2 bs).bind fun (valLen, bs) =>
    (takeN valLen bs).bind fun (val, bs) =>
    readKvs n bs (Kafka.insertMeta m (key, val))

/-- `metadata` in `Payload::from` — src/source/avro.rs:120-139; `none` is a panic. -/
def readMetadata (version : Nat) (bs : Bytes) : Option (Option Metadata × Bytes) :=
  if version < 2 then some (none, bs)
  else
    (readUInt 1 bs).bind fun (numKv, bs) =>
    if numKv < 1 then some (none, bs)
    else (readKvs numKv bs []).map fun (m, bs) => (some m, bs)

/-- `Payload` — src/source/avro.rs:104-112. -/
inductive Payload where
  | invalid
  | valid (header : Header) (metadata : Option Metadata) (blob : Bytes)
deriving DecidableEq, Repr

/-- `impl From<Vec<u8>> for Payload` — src/source/avro.rs:114-163; `none` is a panic.
`read_to_end` on a cursor cannot fail. -/
def Payload.parse (avroOk : Bytes → Bool) (bs : Bytes) : Option Payload :=
  (Header.parse bs).bind fun (h, bs) =>
  (readMetadata h.version bs).map fun (m, bs) =>
    if avroOk bs then .valid h m bs else .invalid

/-- How a connection's handler thread ended — src/source/avro.rs:169-262. -/
inductive Ending where
  /-- still streaming when the schedule ended -/
  | streaming
  /-- `streaming = false`; the socket is shut down in an orderly way -/
  | closed
  /-- the thread panicked -/
  | panicked
deriving DecidableEq, Repr

/-- A connection: what it published, what it wrote back, the three counters, and whether
it is over — src/source/avro.rs:169-262, src/source/avro.rs:302-344. -/
structure Conn where
  connectionId : Nat
  published : List RawEvent := []
  written : Bytes := []
  successSum : Nat := 0
  parseFailureSum : Nat := 0
  ioFailureSum : Nat := 0
  ending : Ending := .streaming
deriving DecidableEq

/-- `resp.write_u64::<BigEndian>(id)` (byteorder, external).  Used at src/source/avro.rs:302-344. -/
def u64Bytes (n : Nat) : Bytes :=
  [UInt8.ofNat (n / 256 ^ 7), UInt8.ofNat (n / 256 ^ 6), UInt8.ofNat (n / 256 ^ 5),
   UInt8.ofNat (n / 256 ^ 4), UInt8.ofNat (n / 256 ^ 3), UInt8.ofNat (n / 256 ^ 2),
   UInt8.ofNat (n / 256 ^ 1), UInt8.ofNat (n / 256 ^ 0)]

/-- One payload handled — `handle_avro_payload`, src/source/avro.rs:302-344, and the
reaction to its result in `handle_stream`, 233-263.  Simplifications: the event reaches
its channels (see `send`); a synchronous publish is eventually acknowledged (the waiting
is modelled in `Verif.Ack`); the answer is written in full (see `Wire.writeAll`; a write
failure panics). -/
def Conn.payload (avroOk : Bytes → Bool) (c : Conn) (p : Bytes) : Conn :=
  match Payload.parse avroOk p with
  | none => { c with ending := .panicked }
  | some .invalid => { c with parseFailureSum := c.parseFailureSum + 1, ending := .closed }
  | some (.valid h m blob) =>
    { c with
      published := c.published ++ [⟨h.orderBy, .avro, blob, m, some c.connectionId⟩]
      written := if h.sync then c.written ++ u64Bytes h.id else c.written
      successSum := c.successSum + 1 }

/-- What the poll loop sees next: the system shutdown token, or the result of a
`reader.read()` on the ready socket — src/source/avro.rs:169-262. -/
inductive Item where
  | system
  | read (r : Except PayloadErr Bytes)

/-- One turn of the loops in `handle_stream` — src/source/avro.rs:178-257.  After
`WouldBlock` the thread polls again. -/
def Conn.step (avroOk : Bytes → Bool) (c : Conn) : Item → Conn
  | .system => { c with ending := .closed }
  | .read (.ok p) => c.payload avroOk p
  | .read (.error .wouldBlock) => c
  | .read (.error .eof) => { c with ending := .closed }
  | .read (.error _) => { c with ioFailureSum := c.ioFailureSum + 1, ending := .closed }

/-- `handle_stream` — src/source/avro.rs:169-262. -/
def Conn.run (avroOk : Bytes → Bool) (c : Conn) : List Item → Conn
  | [] => c
  | i :: is =>
    match c.ending with
    | .streaming => (c.step avroOk i).run avroOk is
    | _ => c

/-- The results of the successive `reader.read()` calls of `handle_stream` on a socket —
src/source/avro.rs:190-257: it reads until an error other than `WouldBlock`.  `fuel` bounds
the number of calls. -/
def socketItems : Nat → Reader → List Item
  | 0, _ => []
  | fuel + 1, r =>
    match r.read with
    | (.ok p, r') => .read (.ok p) :: socketItems fuel r'
    | (.error .wouldBlock, r') => .read (.error .wouldBlock) :: socketItems fuel r'
    | (.error e, _) => [.read (.error e)]

end Verif.Avro
