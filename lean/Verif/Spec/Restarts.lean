import Verif.Spec.Files
/-!
# Specification: a file source that is stopped, killed and started again (C153)
-/
namespace Verif.File

/-- One life of a file source, as seen from one file: the lines appended to it before the pattern first matches it, the passes before that, that pass, the later passes with the lines appended
before each of them, and how many lines (of any files) the source has sent when it comes to its end, be it in the middle of a pass. -/
structure Life where
  missed : List Text
  before : List (FS × List Str)
  first : FS × List Str
  later : List ((FS × List Str) × List Text)
  ends : Nat

/-- The lines appended in this life while the file is watched. -/
def Life.watched (l : Life) : List Text := l.later.flatMap (·.2)

/-- The lines appended in this life. -/
def Life.appended (l : Life) : List Text := l.missed ++ l.watched

/-- What the source has done by the end of its passes, started afresh. -/
def Life.server (max : Nat) (l : Life) : Server := (Server.mk max [] 1 []).passes (l.before ++ l.first :: l.later.map (·.1))

/-- What the source has sent of the file when it comes to its end. -/
def Life.sentOf (max : Nat) (p : Str) (l : Life) : List Text := { l.server max with sent := (l.server max).sent.take l.ends }.sentOf p

/-- One life after the other, in which the path names the file `i`, whose first text is the one given, and to which the lines of each life are appended, whole. -/
def Lives (p : Str) (i : Nat) : Text → List Life → Prop
  | _, [] => True
  | t, l :: ls => (∀ x ∈ l.missed, '\n' ∉ x) ∧ (∀ x ∈ l.before, p ∉ x.2) ∧ p ∈ l.first.2 ∧ Sees p i (t ++ joinLines l.missed) l.first ∧
      Grows p i (t ++ joinLines l.missed) l.later ∧ Lives p i (t ++ joinLines l.appended) ls

end Verif.File
