import Verif.Model.Event
/-!
# The file source

Models src/source/file/file_watcher.rs and src/source/file/file_server.rs over an
abstract file system.  Simplifications: file contents are valid UTF-8, read and written
at character boundaries (a line that is not UTF-8 makes `read_line` fail and is outside
the model); `BufReader` does not stage bytes, that is, reads see the file as it is at that
moment (`Model/FileBytes.lean` does without these two, and `C103_refines` says when they
make no difference); opening fails only if the path does not exist.
-/
namespace Verif.File

/-- File contents.  Read by src/source/file/file_watcher.rs:118-184. -/
abbrev Text := List Char

/-- Size in bytes.  Used at src/source/file/file_watcher.rs:79-107. -/
def size (t : Text) : Nat := (t.map Char.utf8Size).sum

/-- The file system (external): contents by file id (device and inode), and which file a
path names.  Asked at src/source/file/file_watcher.rs:29-37. -/
structure FS where
  files : Nat → Text
  paths : Str → Option Nat

/-- `file_id` — src/source/file/file_watcher.rs:29-37. -/
def FS.fileId (fs : FS) (path : Str) : Option Nat := fs.paths path

/-- `FileWatcher` — src/source/file/file_watcher.rs:16-22.  `reader` is the open file and
the position in it, in characters. -/
structure Watcher where
  path : Str
  reader : Option (Nat × Nat)
  fileId : Option Nat
  previousSize : Nat
  reopen : Bool
deriving DecidableEq

/-- `FileWatcher::new` — src/source/file/file_watcher.rs:45-77: starts at the end. -/
def Watcher.new (fs : FS) (path : Str) : Watcher :=
  match fs.paths path with
  | some i => ⟨path, some (i, (fs.files i).length), some i, 0, false⟩
  | none => ⟨path, none, none, 0, false⟩

/-- `FileWatcher::open_at_start` — src/source/file/file_watcher.rs:79-107. -/
def Watcher.openAtStart (fs : FS) (w : Watcher) : Watcher :=
  match fs.paths w.path with
  | some i => { w with fileId := some i
                       previousSize := size (fs.files i)
                       reader := some (i, 0)
                       reopen := false }
  | none => { w with reader := none, fileId := none, reopen := false }

/-- `FileWatcher::dead` — src/source/file/file_watcher.rs:109-111. -/
def Watcher.dead (w : Watcher) : Bool := w.reader.isNone && w.fileId.isNone

/-- `BufRead::read_line` (std, external): the text up to and including the next line feed,
or all of it if there is none.  Used at src/source/file/file_watcher.rs:118-184. -/
def takeLine : Text → Text
  | [] => []
  | c :: t => if c = '\n' then [c] else c :: takeLine t

/-- `String::pop` (std, external).  Used at src/source/file/file_watcher.rs:118-184. -/
def pop (t : Text) : Text := t.dropLast

/-- `FileWatcher::read_line` — src/source/file/file_watcher.rs:118-184, called with an empty
buffer (the server clears it after every line); returns the number of bytes in the buffer
and the buffer. -/
def Watcher.readLine (fs : FS) (w : Watcher) : (Nat × Text) × Watcher :=
  let w := if w.reopen then w.openAtStart fs else w
  match w.reader with
  | none => ((0, []), w.openAtStart fs)
  | some (i, pos) =>
    let currentSize := size (fs.files i)
    let pos := if w.previousSize > currentSize then 0 else pos
    let w := { w with previousSize := currentSize }
    let line := takeLine ((fs.files i).drop pos)
    if line = [] then
      ((0, []), { w with reader := some (i, pos)
                         reopen := w.reopen || decide (fs.fileId w.path ≠ w.fileId) })
    else
      ((size (pop line), pop line), { w with reader := some (i, pos + line.length) })

/-- The line polling loop for one file — src/source/file/file_server.rs:107-122.  `fss n`
is the file system at the time of the `n`-th `read_line` call: writers go on during the
pass.  Returns the lines read and their total size.  `fuel` bounds the iterations. -/
def pollFile (maxReadBytes : Nat) : Nat → (Nat → FS) → Watcher → Nat → List Text →
    List Text × Nat × Watcher
  | 0, _, w, bytesRead, lines => (lines, bytesRead, w)
  | fuel + 1, fss, w, bytesRead, lines =>
    match w.readLine (fss 0) with
    | ((sz, buffer), w') =>
      if sz > 0 then
        if bytesRead + sz > maxReadBytes then (lines ++ [buffer], bytesRead + sz, w')
        else pollFile maxReadBytes fuel (fun n => fss (n + 1)) w' (bytesRead + sz) (lines ++ [buffer])
      else (lines, bytesRead, w')

/-- The file server between passes — src/source/file/file_server.rs:78-84: the watchers,
the backoff cap and the lines sent so far (path and text). -/
structure Server where
  maxReadBytes : Nat
  watchers : List Watcher := []
  backoffCap : Nat := 1
  sent : List (Str × Text) := []

/-- The glob poll — src/source/file/file_server.rs:95-104: a watcher for every path the
pattern matches that has none yet.  `found` is what `glob` returned (external). -/
def globPoll (fs : FS) : List Str → List Watcher → List Watcher
  | [], ws => ws
  | p :: ps, ws =>
    globPoll fs ps (if ws.any (fun w => w.path = p) then ws else ws ++ [Watcher.new fs p])

/-- The line polling over all watchers — src/source/file/file_server.rs:106-138: the lines
read, the bytes read, and the watchers that are still alive. -/
def pollAll (maxReadBytes : Nat) (fs : FS) : List Watcher → List (Str × Text) × Nat × List Watcher
  | [] => ([], 0, [])
  | w :: ws =>
    let (ls, n, w') := pollFile maxReadBytes (maxReadBytes + 2) (fun _ => fs) w 0 []
    let (ls', n', ws') := pollAll maxReadBytes fs ws
    (ls.map (w.path, ·) ++ ls', n + n', if w'.dead then ws' else w' :: ws')

/-- `backoff_cap` after a pass that read `n` bytes — src/source/file/file_server.rs:150-159. -/
def nextCap (cap n : Nat) : Nat :=
  if n = 0 then (if cap * 2 > 2048 then 2048 else cap * 2) else 1

/-- One turn of the loop in `FileServer::run` — src/source/file/file_server.rs:92-164: the
new state and the timeout passed to `poll`.  Simplification: the file system does not
change within a pass (`pollFile` alone covers that). -/
def Server.pass (s : Server) (fs : FS) (found : List Str) : Server × Nat :=
  let (lines, n, ws) := pollAll s.maxReadBytes fs (globPoll fs found s.watchers)
  let cap := nextCap s.backoffCap n
  ({ s with watchers := ws, backoffCap := cap, sent := s.sent ++ lines }, cap - n)

end Verif.File
