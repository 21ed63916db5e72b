import Verif.Spec.FileBytes
/-!
# Specification: a file of bytes over restarts and kills of the file source (C153)
-/
namespace Verif.FileBytes
open Graphite (finishedLines)

/-- One life of the file source, as seen from one file of bytes: what is appended to it before it is watched, the limit on the bytes of a pass, what happens while it is watched, and how many
lines the source has sent of it when it comes to its end. -/
structure Life where
  missed : Bytes
  max : Nat
  events : List Event
  ends : Nat

/-- The bytes appended in this life. -/
def Life.appended (l : Life) : Bytes := l.missed ++ Event.written l.events

/-- All that is appended in it, is appended in whole lines. -/
def Life.Lines (l : Life) : Prop := Whole l.missed ∧ ∀ e ∈ l.events, ∀ p ∈ e.pieces, Whole p

/-- The source comes to its end only after as many passes, behind the last of the writes, as there are lines. -/
def Life.Settled (l : Life) : Prop :=
  ∃ events m, l.events = events ++ List.replicate m (.pass []) ∧ (finishedLines (Event.written l.events)).length ≤ m ∧
    (finishedLines (Event.written l.events)).length ≤ l.ends

/-- What is sent of the file in these lives, one after the other, each of which finds what the earlier ones left in the file. -/
def sentOver (path : Str) : Bytes → List Life → List Bytes
  | _, [] => []
  | content, l :: ls =>
    let w := (World.start (content ++ l.missed) path).serve l.max l.events
    w.delivered.take l.ends ++ sentOver path w.content ls

end Verif.FileBytes
