import Verif.Model.Wire
/-! # Specification vocabulary for length-prefixed streams -/
namespace Verif.Wire

/-- `v` as `n` bytes, most significant first. -/
def be : Nat → Nat → Bytes
  | 0, _ => []
  | n + 1, v => UInt8.ofNat (v / 256 ^ n) :: be n v

/-- The wire format of a payload: 4-byte length, then the payload. -/
def frame (p : Bytes) : Bytes := be 4 p.length ++ p

/-- What a reader of the socket sees, independent of how bytes are grouped: bytes, and
places where nothing was available. -/
inductive Sym where
  | byte (b : UInt8)
  | block
  | interrupted
  | failed
deriving DecidableEq

def Sym.byte? : Sym → Option UInt8
  | .byte b => some b
  | _ => none

def NetItem.syms : NetItem → List Sym
  | .data bs => bs.map .byte
  | .wouldBlock => [.block]
  | .interrupted => [.interrupted]
  | .failed => [.failed]

/-- The socket's future without the grouping into reads. -/
def symsOf (s : List NetItem) : List Sym := s.flatMap NetItem.syms

/-- `Framed ps s`: the stream `s` consists of the frames of the payloads `ps` in order;
it may block before, between and after frames, and anywhere inside a payload, but not
inside a length prefix. -/
inductive Framed : List Bytes → List Sym → Prop
  | done : Framed [] []
  | block {ps s} : Framed ps s → Framed ps (.block :: s)
  | frame {ps s} (p : Bytes) (body : List Sym) :
      body.filterMap Sym.byte? = p → (∀ x ∈ body, x = .block ∨ ∃ b, x = .byte b) →
      Framed ps s → Framed (p :: ps) ((be 4 p.length).map .byte ++ body ++ s)

/-- What is made of a stream, symbol by symbol: the payloads and how reading ends.  `size` is the size of the payload being read, or `none`
while its 4-byte length is read; `got` is what was read of it.  A stream that would block inside a length makes the bytes of the
length that were read disappear; an interrupted read ends everything inside a payload and is nothing inside a length; a payload of size
zero passes for the end of the stream as soon as anything follows. -/
def decode (max : Nat) : Option Nat → Bytes → List Sym → List Bytes × PayloadErr
  | _, _, [] => ([], .eof)
  | _, _, .failed :: _ => ([], .io)
  | none, got, .interrupted :: s => decode max none got s
  | some _, _, .interrupted :: _ => ([], .io)
  | none, _, .block :: s => decode max none [] s
  | some n, got, .block :: s => decode max (some n) got s
  | none, got, .byte b :: s =>
    if got.length + 1 = 4 then
      if max < beNat (got ++ [b]) then ([], .lengthTooLarge) else decode max (some (beNat (got ++ [b]))) [] s
    else decode max none (got ++ [b]) s
  | some n, got, .byte b :: s =>
    if n = 0 then ([], .eof)
    else if got.length + 1 = n then ((got ++ [b]) :: (decode max none [] s).1, (decode max none [] s).2)
    else decode max (some n) (got ++ [b]) s

/-- No read hands over zero bytes before the end of the stream. -/
def NonEmptyReads (s : List NetItem) : Prop := ∀ bs, .data bs ∈ s → bs ≠ []

end Verif.Wire
