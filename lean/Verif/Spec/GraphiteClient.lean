import Verif.Spec.Graphite
import Verif.Spec.Stream
/-! # Specification vocabulary for what a graphite client writes (C136) -/
namespace Verif.Graphite
open Wire

/-- A text as the bytes a client sends. -/
def utf8 (s : Str) : Bytes := s.flatMap String.utf8EncodeChar

/-- A line of ASCII characters, with its line feed. -/
def AsciiLine (l : Str) : Prop := (∀ c ∈ l, c.val < 128) ∧ ∃ p, l = p ++ ['\n'] ∧ '\n' ∉ p

section
variable {F : Type} [F64 F]

/-- The line says these readings, and at least one. -/
def Says (ext : Ext F) (l : Str) (ts : List Triple) : Prop :=
  ts ≠ [] ∧ (∀ t ∈ ts, t.Valid ext) ∧ splitWhitespace ext.isSpace l = ts.flatMap Triple.words

/-- The numbers reported under a name, in order. -/
def numbersOf (ext : Ext F) (n : Str) (ts : List Triple) : List F :=
  ts.filterMap fun t => if t.name = n then ext.parseF t.value else none

end

/-- What a client that writes these lines has sent by now: all of it, or a part of it without having closed its connection. -/
def Sending (lines : List Str) (ls : List Stream.Label) (k : Stream.Sock) : Prop :=
  Stream.sent ls <+: utf8 lines.flatten ∧ (k.ending = .fin → Stream.sent ls = utf8 lines.flatten)

end Verif.Graphite
