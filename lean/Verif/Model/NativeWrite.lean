import Verif.Model.Native
/-!
# How the native sink writes a batch

src/sink/native.rs:180-196: the bytes go through a `CodedOutputStream` (protobuf 1.7.3, external) into a `BufWriter` (std, external)
over the socket.  Both hold bytes back, neither is flushed by the sink, and both are dropped at the end of the attempt.
-/
namespace Verif.Native

/-- The capacity of either buffer (protobuf's `OUTPUT_STREAM_BUFFER_SIZE`, std's `DEFAULT_BUF_SIZE`).  For the writes at src/sink/native.rs:117-203. -/
def BUF : Nat := 8192

/-- What the socket does with its `n`-th write: accept all of it, or fail after so many bytes (external).  For the writes at src/sink/native.rs:117-203. -/
abbrev Socket := Nat → Option Nat

/-- An attempt under way.  For the writes at src/sink/native.rs:117-203. -/
structure Attempt where
  /-- held by the `CodedOutputStream` -/
  coded : Bytes := []
  /-- held by the `BufWriter` -/
  buf : Bytes := []
  /-- writes to the socket so far -/
  writes : Nat := 0
  /-- what the socket has accepted -/
  sent : Bytes := []
deriving DecidableEq

/-- `BufWriter::flush_buf` (std, external): what was accepted before a failure is not held any longer.  For the writes at src/sink/native.rs:117-203. -/
def Attempt.flushBuf (sock : Socket) (a : Attempt) : Bool × Attempt :=
  if a.buf = [] then (true, a)
  else match sock a.writes with
    | none => (true, { a with buf := [], writes := a.writes + 1, sent := a.sent ++ a.buf })
    | some k => (false, { a with buf := a.buf.drop k, writes := a.writes + 1, sent := a.sent ++ a.buf.take k })

/-- `write_all` on a `BufWriter` (std, external).  For the writes at src/sink/native.rs:117-203. -/
def Attempt.bufWrite (sock : Socket) (a : Attempt) (bs : Bytes) : Bool × Attempt :=
  let (ok, a) := if a.buf.length + bs.length > BUF then a.flushBuf sock else (true, a)
  if ok = false then (false, a)
  else if bs.length < BUF then (true, { a with buf := a.buf ++ bs })
  else match sock a.writes with
    | none => (true, { a with writes := a.writes + 1, sent := a.sent ++ bs })
    | some k => (false, { a with writes := a.writes + 1, sent := a.sent ++ bs.take k })

/-- `CodedOutputStream::refresh_buffer` (protobuf, external).  For the writes at src/sink/native.rs:117-203. -/
def Attempt.refresh (sock : Socket) (a : Attempt) : Bool × Attempt :=
  match a.bufWrite sock a.coded with
  | (true, a) => (true, { a with coded := [] })
  | (false, a) => (false, a)

/-- `CodedOutputStream::write_raw_bytes` (protobuf, external).  For the writes at src/sink/native.rs:117-203. -/
def Attempt.codedWrite (sock : Socket) (a : Attempt) (bs : Bytes) : Bool × Attempt :=
  if a.coded.length + bs.length ≤ BUF then (true, { a with coded := a.coded ++ bs })
  else match a.refresh sock with
    | (false, a) => (false, a)
    | (true, a) => if bs.length < BUF then (true, { a with coded := bs }) else a.bufWrite sock bs

/-- `write_to_with_cached_sizes`, which writes the message in pieces and stops at the first failure — src/protocols/native.rs:169-182. -/
def Attempt.codedWrites (sock : Socket) (a : Attempt) : List Bytes → Bool × Attempt
  | [] => (true, a)
  | p :: ps => match a.codedWrite sock p with
    | (true, a) => a.codedWrites sock ps
    | (false, a) => (false, a)

/-- The end of the scope — src/sink/native.rs:196: both writers are dropped, and errors are ignored.  Whether the `CodedOutputStream`
passes on what it holds when it is dropped (`flushes`) is up to protobuf. -/
def Attempt.drop (flushes : Bool) (sock : Socket) (a : Attempt) : Attempt :=
  let a := if flushes then (a.refresh sock).2 else a
  (a.flushBuf sock).2

/-- One attempt — src/sink/native.rs:181-196: whether `res.is_ok()`, and what the socket has accepted when it is over; `none` is the
panic of `unwrap`.  `head` is the size, `pieces` the message. -/
def attempt (flushes : Bool) (sock : Socket) (head : Bytes) (pieces : List Bytes) : Option (Bool × Bytes) :=
  match ({} : Attempt).codedWrite sock head with
  | (false, _) => none
  | (true, a) =>
    let (ok, a) := a.codedWrites sock pieces
    some (ok, (a.drop flushes sock).sent)

end Verif.Native
