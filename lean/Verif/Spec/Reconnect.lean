import Verif.Spec.Native
/-!
# A native sink and a native source over several connections (for C145)
-/
namespace Verif
namespace Native
open Wire (Sym NetItem frame be symsOf)

/-- What is written on each connection in turn: a new one begins with every attempt to connect.  An attempt that fails gives a connection that carries
nothing, and so does a start without a connection. -/
def sessions : List Act → List (List Bytes)
  | [] => [[]]
  | .write bs :: as => (bs :: (sessions as).headD []) :: (sessions as).tail
  | .delay _ :: as => sessions as
  | .connect :: as => [] :: sessions as

/-- Bytes, and places where nothing is available. -/
def Plain (s : List Sym) : Prop := ∀ x ∈ s, x = .block ∨ ∃ b, x = .byte b

/-- What arrives of a frame that does not arrive whole: some bytes of its length, or its length and some bytes of its payload. -/
inductive Cut (p : Bytes) : List Sym → Prop
  | length (s : List Sym) : Plain s → s.filterMap Sym.byte? <+: be 4 p.length → (s.filterMap Sym.byte?).length < 4 → Cut p s
  | payload (s : List Sym) : Plain s → s.filterMap Sym.byte? <+: p → (s.filterMap Sym.byte?).length < p.length →
      Cut p ((be 4 p.length).map .byte ++ s)

/-- A connection is closed, or it breaks. -/
def Ends (e : List Sym) : Prop := e = [] ∨ e = [.failed]

/-- What the reader of a connection sees of what was written on it.  All writes but the last have succeeded, and they have arrived whole; so has the last one,
unless the sink has seen it fail (`failed`).  A write that failed may have arrived in part or, all the same, whole; the number says whether it has. -/
inductive Seen (failed : Bool) : List Bytes → List Sym → Nat → Prop
  | whole (ps : List Bytes) (s e : List Sym) : Wire.Framed ps s → Ends e →
      Seen failed (ps.map frame) (s ++ e) (if failed && !ps.isEmpty then 1 else 0)
  | cut (ps : List Bytes) (p : Bytes) (s c e : List Sym) : failed = true → Wire.Framed ps s → Cut p c → Ends e →
      Seen failed (ps.map frame ++ [frame p]) (s ++ c ++ e) 0

/-- What is seen of the connections in turn: on each but the last the last write has failed.  The number counts the failed writes that arrived whole. -/
inductive Network : List (List Bytes) → List (List NetItem) → Nat → Prop
  | last {ws net} : Wire.NonEmptyReads net → Seen false ws (symsOf net) 0 → Network [ws] [net] 0
  | next {ws net k wss nets n} : Wire.NonEmptyReads net → Seen true ws (symsOf net) k → Network wss nets n → Network (ws :: wss) (net :: nets) (k + n)

/-- `Repeats xs ys`: the elements of `xs` in order, each at least once, and repetitions follow one another at once. -/
inductive Repeats {α : Type} : List α → List α → Prop
  | nil : Repeats [] []
  | once {x xs ys} : Repeats xs ys → Repeats (x :: xs) (x :: ys)
  | again {x xs ys} : Repeats (x :: xs) ys → Repeats (x :: xs) (x :: ys)

section
variable {F : Type} [F64 F]

/-- The sink is given the batches in turn and flushed after each, with the given outcomes of its writes and attempts to connect: what it did in each flush.
`none` if one of the flushes does not return. -/
def runFlushes (bits : Bits F) : Sink F → List (List (Event F) × List Bool) → Option (List (List (Event F) × List Act))
  | _, [] => some []
  | s, (batch, os) :: rest => match (batch.foldl Sink.deliver s).flush bits os with
    | (s', acts, true) => (runFlushes bits s' rest).map ((batch, acts) :: ·)
    | _ => none

/-- All that a source hears over its connections, taken in turn. -/
def heard (bits : Bits F) (now : Int) (fuel : Nat) (nets : List (List NetItem)) : List (Event F) :=
  nets.flatMap fun net => (serve bits now fuel { maxPayloadSize := maxPayload, buffer := { stream := net } }).1

end
end Native
end Verif
