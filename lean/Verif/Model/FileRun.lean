import Verif.Model.FileBytes
/-!
# The file source over everything its pattern matches

Models `FileServer::run`, src/source/file/file_server.rs:77-177, with what `Model/File.lean` and `Model/FileBytes.lean` leave out: paths are bytes, which
need not be UTF-8; what a path names need not be a regular file; the line buffer is shared between the files; and the panics of the loop.
Reading a regular file is `FileBytes.Watcher.readLine`.  Simplification: what is opened by `open_at_start` is a regular file or a directory (a
path that becomes a pipe is met by `FileWatcher::new` in the next turn).
-/
namespace Verif.FileRun
open FileBytes Graphite

/-- What a path names that cannot be tailed (external): something `seek` fails on (a pipe that has a writer, a terminal), a pipe
without a writer, whose `open` does not return, or something that may not be opened.  For src/source/file/file_watcher.rs:45-77. -/
inductive Special where
  | noSeek
  | blocks
  | denied
deriving DecidableEq, Repr

/-- The text by which the model of the watcher knows a path: one character for each byte.  For src/source/file/file_watcher.rs:16-22. -/
def key (path : Bytes) : Str := path.map fun b => Char.ofNat b.toNat

/-- The file system at one moment (external): files and paths, which of the files are directories, and which paths are special.  For
src/source/file/file_watcher.rs:45-184. -/
structure Disk where
  fs : FS
  isDir : Nat → Bool := fun _ => false
  special : Bytes → Option Special := fun _ => none

/-- How `FileWatcher::new` ends.  For src/source/file/file_watcher.rs:45-77. -/
inductive New where
  | ok (w : Watcher)
  | err
  | panics
  | blocks

/-- `FileWatcher::new` — src/source/file/file_watcher.rs:45-77: `assert!(rdr.seek(…).is_ok())`; a path that is not there gets a watcher
without a reader; any other error is handed back. -/
def new (d : Disk) (path : Bytes) : New :=
  match d.special path with
  | some .noSeek => .panics
  | some .blocks => .blocks
  | some .denied => .err
  | none => .ok (Watcher.new d.fs (key path))

/-- `FileWatcher::read_line` — src/source/file/file_watcher.rs:118-184: as in `FileBytes`, but that reading a directory is an error, after which
`reopen` is as it was. -/
def readLine (fuel : Nat) (disks : Nat → Disk) (w : Watcher) (buffer : Bytes) : Outcome × Bytes × Watcher :=
  let opened := if w.reopen then w.openAtStart (disks 0).fs else w
  match opened.reader with
  | some r =>
    if (disks 0).isDir r.file then
      let size := ((disks 0).fs.files r.file).length
      (.error, buffer, { opened with previousSize := size, reader := some (if opened.previousSize > size then r.rewind else r) })
    else w.readLine fuel (fun k => (disks k).fs) buffer
  | none => w.readLine fuel (fun k => (disks k).fs) buffer

/-- The line polling of one file — src/source/file/file_server.rs:107-122: `none` is a panic; otherwise the lines, the bytes
counted, the buffer and the watcher. -/
def pollFile (maxReadBytes fuel : Nat) : Nat → (Nat → Nat → Disk) → Watcher → Bytes → Nat → List Bytes →
    Option (List Bytes × Nat × Bytes × Watcher)
  | 0, _, w, buffer, bytesRead, lines => some (lines, bytesRead, buffer, w)
  | turns + 1, calls, w, buffer, bytesRead, lines =>
    match readLine fuel (calls 0) w buffer with
    | (.ok sz, buffer, w') =>
      if sz > 0 then
        if bytesRead + sz > maxReadBytes then some (lines ++ [buffer], bytesRead + sz, [], w')
        else pollFile maxReadBytes fuel turns (fun n => calls (n + 1)) w' [] (bytesRead + sz) (lines ++ [buffer])
      else some (lines, bytesRead, buffer, w')
    | (.error, buffer, w') => some (lines, bytesRead, buffer, w')
    | (.hangs, buffer, w') => some (lines, bytesRead, buffer, w')
    | (.panic, _, _) => none

/-- What is around the source during one turn of its loop (external): the paths `glob` comes up with (entries that are errors are
passed over), the file system when each is opened, the iteration order of the map, the file systems during the calls of `read_line` for
each path, and what `poll` returns.  For src/source/file/file_server.rs:92-177. -/
structure Turn where
  found : List Bytes
  disk : Bytes → Disk
  order : List (Bytes × Watcher) → List (Bytes × Watcher) := id
  during : Bytes → Nat → Nat → Disk
  fuel : Nat
  calls : Nat
  polled : Option Bool := some false

/-- Where the source is.  For src/source/file/file_server.rs:77-177. -/
inductive Phase where
  | running
  | returned
  | panicked
  | blocked
deriving DecidableEq, Repr

/-- The source between turns — src/source/file/file_server.rs:78-84; `sent` are the lines sent, each with the path it is said to come
from. -/
structure State where
  phase : Phase := .running
  watchers : List (Bytes × Watcher) := []
  buffer : Bytes := []
  backoffCap : Nat := 1
  sent : List (Bytes × Bytes) := []

/-- The glob poll — src/source/file/file_server.rs:95-104: `FileWatcher::new` is called also for paths that are watched already. -/
def globPoll (disk : Bytes → Disk) : List Bytes → List (Bytes × Watcher) → Except Phase (List (Bytes × Watcher))
  | [], ws => .ok ws
  | p :: ps, ws =>
    match new (disk p) p with
    | .ok w => globPoll disk ps (if p ∈ ws.map (·.1) then ws else ws ++ [(p, w)])
    | .err => globPoll disk ps ws
    | .panics => .error .panicked
    | .blocks => .error .blocked

/-- The line polling — src/source/file/file_server.rs:106-138: `path.to_str().expect(…)` when a line is read, and after each file; watchers that are
dead are dropped.  `none` is a panic. -/
def pollAll (max : Nat) (t : Turn) : List (Bytes × Watcher) → Bytes → List (Bytes × Bytes) → Nat → List (Bytes × Watcher) →
    Option (List (Bytes × Bytes) × Nat × Bytes × List (Bytes × Watcher))
  | [], buffer, lines, total, alive => some (lines, total, buffer, alive)
  | (p, w) :: ws, buffer, lines, total, alive =>
    match pollFile max t.fuel t.calls (t.during p) w buffer 0 [] with
    | none => none
    | some (ls, n, buffer, w') =>
      if utf8Valid p then
        pollAll max t ws buffer (lines ++ ls.map fun l => (p, l)) (total + n)
          (if w'.reader.isNone && w'.fileId.isNone then alive else alive ++ [(p, w')])
      else none

/-- One turn of the loop — src/source/file/file_server.rs:92-177. -/
def turn (max : Nat) (s : State) (t : Turn) : State :=
  match s.phase with
  | .running =>
    match globPoll t.disk t.found s.watchers with
    | .error ph => { s with phase := ph }
    | .ok ws =>
      match pollAll max t (t.order ws) s.buffer [] 0 [] with
      | none => { s with phase := .panicked }
      | some (lines, n, buffer, alive) =>
        let s := { s with watchers := alive, buffer := buffer, backoffCap := File.nextCap s.backoffCap n, sent := s.sent ++ lines }
        match t.polled with
        | none => { s with phase := .panicked }
        | some false => s
        | some true => { s with phase := .returned }
  | _ => s

/-- `FileServer::run` — src/source/file/file_server.rs:77-177 — with a pattern that is UTF-8 and that `glob` takes, or not
(`glob(self.pattern.to_str().expect(…)).expect(…)`). -/
def run (patternOk : Bool) (max : Nat) (turns : List Turn) : State :=
  if patternOk then turns.foldl (turn max) {} else match turns with
    | [] => {}
    | _ :: _ => { phase := .panicked }

end Verif.FileRun
