import Verif.Spec.File
/-! # Specification: several watched files (C122) -/
namespace Verif.File

/-- The lines the server has sent of the file of this path, in order. -/
def Server.sentOf (s : Server) (p : Str) : List Text := (s.sent.filter fun x => x.1 = p).map (·.2)

/-- A pass meets the path naming the file `i`, and this text in it.  Nothing is said about other paths and files, nor about what
the pattern matches. -/
def Sees (p : Str) (i : Nat) (t : Text) (x : FS × List Str) : Prop := x.1.paths p = some i ∧ x.1.files i = t

/-- Each of these passes meets the path naming the file `i`, to which its own lines have been appended since the pass before. -/
def Grows (p : Str) (i : Nat) : Text → List ((FS × List Str) × List Text) → Prop
  | _, [] => True
  | t, x :: xs => (∀ l ∈ x.2, '\n' ∉ l) ∧ Sees p i (t ++ joinLines x.2) x.1 ∧ Grows p i (t ++ joinLines x.2) xs

end Verif.File
