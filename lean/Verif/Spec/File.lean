import Verif.Model.File
/-! # Specification vocabulary for file tailing -/
namespace Verif.File

/-- Lines as they stand in a file. -/
def joinLines (ls : List Text) : Text := ls.flatMap fun l => l ++ ['\n']

/-- A line with content. -/
def Line (l : Text) : Prop := l ≠ [] ∧ '\n' ∉ l

/-- What happens to one watched path: text is appended to the file it names, the path is
renamed away and a new file with some text takes its place, or the watcher reads. -/
inductive Step where
  | append (t : Text)
  | rotate (t : Text)
  | read
deriving DecidableEq

/-- The world of one watched path: the file system, the next unused file id, the watcher
and the lines delivered (results of reads that returned something). -/
structure World where
  fs : FS
  next : Nat
  watcher : Watcher
  delivered : List Text := []

/-- One step of the world. -/
def World.step (w : World) : Step → World
  | .append t =>
    match w.fs.paths w.watcher.path with
    | some i => { w with fs := { w.fs with files := fun j => if j = i then w.fs.files i ++ t else w.fs.files j } }
    | none => w
  | .rotate t =>
    { w with
      fs := { files := fun j => if j = w.next then t else w.fs.files j
              paths := fun p => if p = w.watcher.path then some w.next else w.fs.paths p }
      next := w.next + 1 }
  | .read =>
    match w.watcher.readLine w.fs with
    | ((sz, buffer), w') =>
      { w with watcher := w', delivered := if sz > 0 then w.delivered ++ [buffer] else w.delivered }

def World.run (w : World) (steps : List Step) : World := steps.foldl World.step w

/-- The text a step writes. -/
def Step.text : Step → Text
  | .append t => t
  | .rotate t => t
  | .read => []

/-- The text written, in order. -/
def written (steps : List Step) : Text := steps.flatMap Step.text

/-- Text that consists of whole lines with content. -/
def Whole (t : Text) : Prop := ∃ ls, t = joinLines ls ∧ ∀ l ∈ ls, Line l

/-- The first line of some text, with its line feed; all of the text if there is no line feed in it. -/
def firstLine (t : Text) : Text := t.takeWhile (· ≠ '\n') ++ (t.dropWhile (· ≠ '\n')).take 1

/-- What the reads of a file that grows take from it, one after the other, if `unread` is what is there and not yet
read: the first line, or as much of it as was written by then. -/
def taken (unread : Text) : List Step → List Text
  | [] => []
  | .read :: steps => firstLine unread :: taken (unread.drop (firstLine unread).length) steps
  | s :: steps => taken (unread ++ s.text) steps

/-- Only appends and reads. -/
def Step.grows : Step → Prop
  | .rotate _ => False
  | _ => True

/-- A path is being watched that names an existing file, all of which was there before. -/
def World.start (content : Text) (path : Str) : World :=
  let fs : FS := { files := fun i => if i = 0 then content else [], paths := fun _ => some 0 }
  { fs := fs, next := 1, watcher := Watcher.new fs path }

/-- The watcher has the file open that the path names. -/
def World.caughtUp (w : World) : Prop :=
  ∃ i pos, w.watcher.reader = some (i, pos) ∧ w.fs.paths w.watcher.path = some i

instance (w : World) : Decidable w.caughtUp :=
  match h : w.watcher.reader with
  | none => isFalse (by simp [World.caughtUp, h])
  | some (i, pos) => decidable_of_iff (w.fs.paths w.watcher.path = some i) (by
      simp [World.caughtUp, h])

/-- Rotations happen only when the watcher has opened the current file. -/
def Unhurried (w : World) : List Step → Prop
  | [] => True
  | s :: steps => (∀ t, s = .rotate t → w.caughtUp) ∧ Unhurried (w.step s) steps

/-- What of the text written is not passed over: a file that is rotated away before the watcher has opened it is passed over, with all that was
written to it; `current` is what has been written to the file that the path names. -/
def notSkipped (w : World) (current : Text) : List Step → Text
  | [] => current
  | .append t :: steps => notSkipped (w.step (.append t)) (current ++ t) steps
  | .rotate t :: steps => (if w.caughtUp then current else []) ++ notSkipped (w.step (.rotate t)) t steps
  | .read :: steps => notSkipped (w.step .read) current steps

/-- The results of `n` successive reads, `fss k` being the file system at the `k`-th. -/
def reads : Nat → (Nat → FS) → Watcher → List (Nat × Text)
  | 0, _, _ => []
  | n + 1, fss, w => (w.readLine (fss 0)).1 :: reads n (fun k => fss (k + 1)) (w.readLine (fss 0)).2

/-- Bytes in some lines. -/
def total (ls : List Text) : Nat := (ls.map size).sum

/-- The state after a number of passes of the server, each with the file system and the
glob matches it met. -/
def Server.passes (s : Server) (ps : List (FS × List Str)) : Server :=
  ps.foldl (fun s p => (s.pass p.1 p.2).1) s

/-- Every one of these passes sends nothing. -/
def Server.Idle (s : Server) : List (FS × List Str) → Prop
  | [] => True
  | p :: ps => (s.pass p.1 p.2).1.sent = s.sent ∧ Server.Idle (s.pass p.1 p.2).1 ps

end Verif.File
