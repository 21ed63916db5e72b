import Verif.Model.FileBytes
import Verif.Spec.Graphite
import Verif.Spec.File
/-! # Specification of tailing a file of bytes -/
namespace Verif.FileBytes
open Graphite (finishedLines utf8Valid)

/-- Nothing, or bytes that end with a line feed. -/
def Whole (bs : Bytes) : Prop := ∀ b, bs.getLast? = some b → b = 10

/-- A line: some bytes without line feed, and a line feed. -/
def IsLine (l : Bytes) : Prop := ∃ p, l = p ++ [10] ∧ (10 : UInt8) ∉ p

/-- The pieces a step appends. -/
def Step.pieces : Step → List Bytes
  | .append bs => [bs]
  | .read during => during

/-- All that is appended. -/
def written (steps : List Step) : Bytes := (steps.flatMap Step.pieces).flatten

/-- The pieces an event appends. -/
def Event.pieces : Event → List Bytes
  | .append bs => [bs]
  | .pass durings => durings.flatten

/-- All that is appended in the course of these events. -/
def Event.written (events : List Event) : Bytes := (events.flatMap Event.pieces).flatten

/-- Of these lines, the ones that are text and not blank, without their line feeds. -/
def shown (ls : List Bytes) : List Bytes := (ls.filter fun l => utf8Valid l && l != [10]).map List.dropLast

/-- Text, in UTF-8. -/
def encode (t : File.Text) : Bytes := t.flatMap String.utf8EncodeChar

/-- The file system of these texts, as bytes. -/
def encodeFS (fs : File.FS) : FS := { files := fun i => encode (fs.files i), paths := fs.paths }

/-- From one time to the next every file was appended to, or was rewritten to something smaller. -/
def AppendedOrCut (fs fs' : File.FS) : Prop :=
  ∀ i, fs.files i <+: fs'.files i ∨ File.size (fs'.files i) < File.size (fs.files i)

/-- The outcomes and buffers of `n` successive calls of `read_line` on an empty buffer; the file system does not change in the course
of a call. -/
def reads (fuel : Nat) : Nat → (Nat → FS) → Watcher → List (Outcome × Bytes)
  | 0, _, _ => []
  | n + 1, fss, w =>
    let (o, b, w') := w.readLine fuel (fun _ => fss 0) []
    (o, b) :: reads fuel n (fun k => fss (k + 1)) w'

/-- What a watcher of bytes hands over while these things happen to the files of a world of text. -/
def tail (fuel : Nat) : File.World → Watcher → List File.Step → List Bytes
  | _, _, [] => []
  | w, v, .read :: steps =>
    match v.readLine fuel (fun _ => encodeFS w.fs) [] with
    | (.ok (_ + 1), b, v') => b :: tail fuel (w.step .read) v' steps
    | (_, _, v') => tail fuel (w.step .read) v' steps
  | w, v, s :: steps => tail fuel (w.step s) v steps

end Verif.FileBytes
