import Verif.Model.Graphite
/-!
# Stream handlers and the readiness of their sockets

Models the event loops of the three TCP stream handlers, graphite (src/source/graphite.rs:58-115), native
(src/source/native.rs:64-130) and Avro (src/source/avro.rs:165-262), together with their registration with the poller
(src/source/tcp.rs:190-204).  The sockets are registered *edge triggered*: `poll` reports a socket once when
something happens on it, and not again before something else happens, whether or not everything was read.
-/
namespace Verif.Stream
open Wire Graphite

/-- What the client has done with the connection (external).  For the handlers: src/source/native.rs:64-130, src/source/graphite.rs:59-114, src/source/avro.rs:169-262. -/
inductive Ending where
  | none | fin | reset
deriving DecidableEq, Repr

/-- The kernel's side of a connection (external): the bytes that arrived and were not read, and whether the client closed or
reset it.  For the handlers: src/source/native.rs:64-130, src/source/graphite.rs:59-114, src/source/avro.rs:169-262. -/
structure Sock where
  kernel : Bytes := []
  ending : Ending := .none
deriving DecidableEq, Repr

/-- What reads on the socket do from here on, if nothing further happens on it (external).  For the handlers: src/source/native.rs:64-130, src/source/graphite.rs:59-114, src/source/avro.rs:169-262. -/
def Sock.items (k : Sock) : List NetItem :=
  (match k.kernel with | [] => [] | b :: bs => [.data (b :: bs)]) ++
    match k.ending with | .none => [.wouldBlock] | .fin => [] | .reset => [.failed]

/-- The bytes of what is left of these reads.  For the handlers: src/source/native.rs:64-130, src/source/graphite.rs:59-114, src/source/avro.rs:169-262. -/
def dataOf : List NetItem → Bytes
  | [] => []
  | .data bs :: s => bs ++ dataOf s
  | _ :: s => dataOf s

/-- The socket after some of these reads were made.  For the handlers: src/source/native.rs:64-130, src/source/graphite.rs:59-114, src/source/avro.rs:169-262. -/
def Sock.after (k : Sock) (left : List NetItem) : Sock := { k with kernel := dataOf left }

/-- What a handler does after one call of its reader: take something and read on, go back to `poll`, or end.  For the handlers: src/source/native.rs:64-130, src/source/graphite.rs:59-114, src/source/avro.rs:169-262. -/
inductive Next (α : Type) where
  | got (a : α)
  | wait
  | stop
deriving DecidableEq, Repr

/-- A handler: what it keeps between calls of its reader, and one such call.  `staged` is what its buffer holds.  For the handlers: src/source/native.rs:64-130, src/source/graphite.rs:59-114, src/source/avro.rs:169-262. -/
structure Handler (σ : Type) where
  start : σ
  read : σ → Sock → Next Bytes × σ × Sock
  staged : σ → Bytes

/-- The native and the Avro handler — src/source/native.rs:84-118, src/source/avro.rs:188-251: a payload is handed to
`handle_stream_payload` / `handle_avro_payload`, here `accepts`; if that refuses it, and at the end of the stream and at any
error, the handler ends; at `WouldBlock` it polls again.  Simplification: Avro's answer on the socket (`write_all`) is part of
`accepts`, its failure being a panic that ends the handler. -/
def framed (accepts : Bytes → Bool) : Handler Reader where
  start := { maxPayloadSize := 1048576 }
  staged r := r.buffer.buf
  read r k :=
    match Reader.read { r with buffer := { r.buffer with stream := k.items } } with
    | (.ok p, r') => (if accepts p then .got p else .stop, r', k.after r'.buffer.stream)
    | (.error .wouldBlock, r') => (.wait, r', k.after r'.buffer.stream)
    | (.error _, r') => (.stop, r', k.after r'.buffer.stream)

/-- The graphite handler — src/source/graphite.rs:79-107: `while let Ok(len) = read_line`: a line is handed to the parser and
`line` cleared; both `Ok(0)` and an error lead back to `poll`.  Kept are `line` and the reader's buffer. -/
def graphite : Handler (Bytes × Bytes) where
  start := ([], [])
  staged s := s.2
  read s k :=
    match readLine s.1 s.2 k.items with
    | (.ok 0, line, staged, left) => (.wait, (line, staged), k.after left)
    | (.ok (_ + 1), line, staged, left) => (.got line, ([], staged), k.after left)
    | (.error _, line, staged, left) => (.wait, (line, staged), k.after left)

/-- Where a handler is: in `poll`, in the loop over its reader (`stop`: the `SYSTEM` event is in the same batch of events and comes
next), or gone.  For the handlers: src/source/native.rs:64-130, src/source/graphite.rs:59-114, src/source/avro.rs:169-262. -/
inductive Phase where
  | polling
  | reading (stop : Bool)
  | ended
deriving DecidableEq, Repr

/-- A handler and its connection.  `edge`: something happened on the socket since `poll` last reported it; `system`: the
readiness of the `SYSTEM` token was set; `taken`: what the reader handed over, in order.  For the handlers: src/source/native.rs:64-130, src/source/graphite.rs:59-114, src/source/avro.rs:169-262. -/
structure State (σ : Type) where
  own : σ
  sock : Sock := {}
  edge : Bool := false
  system : Bool := false
  phase : Phase := .polling
  taken : List Bytes := []
deriving DecidableEq, Repr

/-- What can happen: bytes arrive, the client closes or resets the connection, the poller will report the socket although nothing
happened, shutdown is signalled, and the handler's own steps: `poll` returns (if both events are there, in either order), one
call of the reader.  For the handlers: src/source/native.rs:64-130, src/source/graphite.rs:59-114, src/source/avro.rs:169-262. -/
inductive Label where
  | arrive (bs : Bytes)
  | close
  | reset
  | spurious
  | system
  | poll (systemFirst : Bool)
  | read
deriving DecidableEq, Repr

/-- The handler's own steps.  For the handlers: src/source/native.rs:64-130, src/source/graphite.rs:59-114, src/source/avro.rs:169-262. -/
def Label.own : Label → Bool
  | .poll _ | .read => true
  | _ => false

variable {σ : Type}

/-- One step; `none`: this cannot happen in this state.  `poll` with nothing to report blocks.  Nothing arrives any more once the
client closed.  For the handlers: src/source/native.rs:64-130, src/source/graphite.rs:59-114, src/source/avro.rs:169-262. -/
def step (h : Handler σ) (s : State σ) : Label → Option (State σ)
  | .arrive bs =>
    if s.sock.ending = .none ∧ bs ≠ [] then
      some { s with sock := { s.sock with kernel := s.sock.kernel ++ bs }, edge := true }
    else none
  | .close =>
    if s.sock.ending = .none then some { s with sock := { s.sock with ending := .fin }, edge := true } else none
  | .reset =>
    if s.sock.ending = .none then some { s with sock := { s.sock with ending := .reset }, edge := true } else none
  | .spurious => some { s with edge := true }
  | .system => some { s with system := true }
  | .poll systemFirst =>
    match s.phase with
    | .polling =>
      if s.edge then
        if s.system && systemFirst then some { s with phase := .ended }
        else some { s with phase := .reading s.system, edge := false }
      else if s.system then some { s with phase := .ended }
      else none
    | _ => none
  | .read =>
    match s.phase with
    | .reading stop =>
      match h.read s.own s.sock with
      | (.got a, own, sock) => some { s with own := own, sock := sock, taken := s.taken ++ [a] }
      | (.wait, own, sock) => some { s with own := own, sock := sock, phase := if stop then .ended else .polling }
      | (.stop, own, sock) => some { s with own := own, sock := sock, phase := .ended }
    | _ => none

/-- A sequence of steps.  For the handlers: src/source/native.rs:64-130, src/source/graphite.rs:59-114, src/source/avro.rs:169-262. -/
def run (h : Handler σ) : State σ → List Label → Option (State σ)
  | s, [] => some s
  | s, l :: ls => (step h s l).bind fun s' => run h s' ls

/-- A handler at the time its socket was registered — src/source/tcp.rs:194-204: what arrived before is reported. -/
def init (h : Handler σ) (k : Sock) : State σ :=
  { own := h.start, sock := k, edge := !k.kernel.isEmpty || k.ending != .none }

end Verif.Stream
