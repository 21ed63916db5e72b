import Verif.Model.File
import Verif.Model.Graphite
/-!
# The file source, byte by byte

Models src/source/file/file_watcher.rs and the polling of one file in src/source/file/file_server.rs:107-122 once more, with
what `Model/File.lean` leaves out: contents are bytes, which need not be UTF-8, and `std::io::BufReader` stages up to 8192 of
them.  Writers may act between any two system calls.  Simplifications: opening fails only if the path does not exist; paths are
text (one that is not UTF-8 panics the source).
-/
namespace Verif.FileBytes
open Graphite (splitLine utf8Valid)

/-- The file system (external): contents by file id, and which file a path names.  For src/source/file/file_watcher.rs:118-184. -/
structure FS where
  files : Nat → Bytes
  paths : Str → Option Nat

/-- `io::BufReader<fs::File>`: the open file, its position and the bytes staged.  For src/source/file/file_watcher.rs:118-184. -/
structure Reader where
  file : Nat
  pos : Nat := 0
  staged : Bytes := []
deriving DecidableEq, Repr

/-- `BufRead::fill_buf` (std, external) on a regular file: with nothing staged, read up to 8192 bytes.  For src/source/file/file_watcher.rs:118-184. -/
def Reader.fill (fs : FS) (r : Reader) : Reader :=
  match r.staged with
  | [] =>
    let bs := ((fs.files r.file).drop r.pos).take 8192
    { r with pos := r.pos + bs.length, staged := bs }
  | _ :: _ => r

/-- `BufRead::read_until(b'\n')` (std, external): `fss k` is the file system at the `k`-th `fill_buf`.  Returns what was read, the
reader, and the number of `fill_buf` calls; `none` if `fuel` iterations did not suffice.  For src/source/file/file_watcher.rs:118-184. -/
def Reader.readUntil : Nat → (Nat → FS) → Reader → Bytes → Nat → Option (Bytes × Reader × Nat)
  | 0, _, _, _, _ => none
  | fuel + 1, fss, r, acc, k =>
    let r := r.fill (fss k)
    if r.staged = [] then some (acc, r, k + 1)
    else match splitLine r.staged with
      | some (l, rest) => some (acc ++ l, { r with staged := rest }, k + 1)
      | none => readUntil fuel fss { r with staged := [] } (acc ++ r.staged) (k + 1)

/-- `String::pop` (std, external) on the bytes of a string: the last character's bytes go.  For src/source/file/file_watcher.rs:118-184. -/
def popChar (bs : Bytes) : Bytes := ((bs.reverse.dropWhile fun b => 0x80 ≤ b && b ≤ 0xBF).drop 1).reverse

/-- `FileWatcher` — src/source/file/file_watcher.rs:16-22. -/
structure Watcher where
  path : Str
  reader : Option Reader
  fileId : Option Nat
  previousSize : Nat
  reopen : Bool
deriving DecidableEq, Repr

/-- `FileWatcher::new` — src/source/file/file_watcher.rs:45-77: starts at the end. -/
def Watcher.new (fs : FS) (path : Str) : Watcher :=
  match fs.paths path with
  | some i => ⟨path, some { file := i, pos := (fs.files i).length }, some i, 0, false⟩
  | none => ⟨path, none, none, 0, false⟩

/-- `FileWatcher::open_at_start` — src/source/file/file_watcher.rs:79-107. -/
def Watcher.openAtStart (fs : FS) (w : Watcher) : Watcher :=
  match fs.paths w.path with
  | some i => { w with fileId := some i, previousSize := (fs.files i).length, reader := some { file := i }, reopen := false }
  | none => { w with reader := none, fileId := none, reopen := false }

/-- How a call of `read_line` ends: with a number of bytes, an error, or a panic (`hangs`: it has not ended within the fuel).  For src/source/file/file_watcher.rs:118-184. -/
inductive Outcome where
  | ok (n : Nat)
  | error
  | panic
  | hangs
deriving DecidableEq, Repr

/-- `BufReader::seek(SeekFrom::Start(0))` (std, external): what is staged is dropped.  For src/source/file/file_watcher.rs:118-184. -/
def Reader.rewind (r : Reader) : Reader := { r with pos := 0, staged := [] }

/-- `FileWatcher::read_line` — src/source/file/file_watcher.rs:118-184, on a buffer: the outcome, the buffer and the watcher.
`fss 0` is the file system when the file is opened and its size taken, `fss (k + 1)` at the `k`-th `fill_buf` and after it.  A line that is not
UTF-8 is taken from the reader and dropped (`append_to_string` restores the buffer), and the call fails. -/
def Watcher.readLine (fuel : Nat) (fss : Nat → FS) (w : Watcher) (buffer : Bytes) : Outcome × Bytes × Watcher :=
  let w := if w.reopen then w.openAtStart (fss 0) else w
  match w.reader with
  | none => (.ok 0, buffer, w.openAtStart (fss 0))
  | some r =>
    let currentSize := ((fss 0).files r.file).length
    let r := if w.previousSize > currentSize then r.rewind else r
    let w := { w with previousSize := currentSize, reader := some r }
    match r.readUntil fuel fss [] 1 with
    | none => (.hangs, buffer, w)
    | some (l, r', k) =>
      let w := { w with reader := some r' }
      if utf8Valid l then
        if l = [] then
          (.ok 0, buffer, { w with reopen := w.reopen || decide ((fss k).paths w.path ≠ w.fileId) })
        else if l.length = (buffer ++ l).length then
          let buffer := popChar (buffer ++ l)
          (.ok buffer.length, buffer, w)
        else (.panic, buffer ++ l, w)
      else (.error, buffer, w)

/-- The line polling loop for one file — src/source/file/file_server.rs:107-122: `while let Ok(sz)`, so an error ends it like an end of
file does.  `calls n` is the file system during the `n`-th call.  Returns how it ended (`true`: no panic), the lines, the bytes counted, the
buffer and the watcher. -/
def pollFile (maxReadBytes : Nat) (fuel : Nat) : Nat → (Nat → Nat → FS) → Watcher → Bytes → Nat → List Bytes →
    Bool × List Bytes × Nat × Bytes × Watcher
  | 0, _, w, buffer, bytesRead, lines => (true, lines, bytesRead, buffer, w)
  | turns + 1, calls, w, buffer, bytesRead, lines =>
    match w.readLine fuel (calls 0) buffer with
    | (.ok sz, buffer, w') =>
      if sz > 0 then
        if bytesRead + sz > maxReadBytes then (true, lines ++ [buffer], bytesRead + sz, [], w')
        else pollFile maxReadBytes fuel turns (fun n => calls (n + 1)) w' [] (bytesRead + sz) (lines ++ [buffer])
      else (true, lines, bytesRead, buffer, w')
    | (.error, buffer, w') => (true, lines, bytesRead, buffer, w')
    | (.hangs, buffer, w') => (true, lines, bytesRead, buffer, w')
    | (.panic, buffer, w') => (false, lines, bytesRead, buffer, w')

/-! ## One file that grows -/

/-- What happens to the file and its watcher: bytes are appended, or the watcher reads; `during` is what gets appended before the
second, third, … `fill_buf` of that call.  For src/source/file/file_watcher.rs:118-184. -/
inductive Step where
  | append (bs : Bytes)
  | read (during : List Bytes)
deriving DecidableEq, Repr

/-- A file, its watcher and the lines it has handed over (the server sends what `read_line` returns `Ok(n)` for, `n > 0`).  The watcher is src/source/file/file_watcher.rs:16-22. -/
structure World where
  content : Bytes
  watcher : Watcher
  delivered : List Bytes := []
deriving DecidableEq, Repr

/-- The file system with this one file.  For src/source/file/file_watcher.rs:118-184. -/
def fsOf (content : Bytes) : FS := { files := fun _ => content, paths := fun _ => some 0 }

/-- The file while it is read from.  For src/source/file/file_watcher.rs:118-184. -/
def growing (content : Bytes) (during : List Bytes) (k : Nat) : FS := fsOf (content ++ (during.take (k - 1)).flatten)

/-- A watcher is made for a file — src/source/file/file_watcher.rs:45-77. -/
def World.start (content : Bytes) (path : Str) : World :=
  { content := content, watcher := Watcher.new (fsOf content) path }

/-- What the server does with what `read_line` returned — src/source/file/file_server.rs:109-118. -/
def World.took (w : World) (after : Bytes) : Outcome × Bytes × Watcher → World
  | (.ok (_ + 1), buffer, watcher) => { content := after, watcher := watcher, delivered := w.delivered ++ [buffer] }
  | (_, _, watcher) => { w with content := after, watcher := watcher }

/-- One step.  The buffer is empty whenever `read_line` is called (see `C103_buffer`).  For src/source/file/file_watcher.rs:118-184. -/
def World.step (w : World) : Step → World
  | .append bs => { w with content := w.content ++ bs }
  | .read during =>
    let after := w.content ++ during.flatten
    w.took after (w.watcher.readLine (after.length + 2) (growing w.content during) [])

/-- Steps in order.  For src/source/file/file_watcher.rs:118-184. -/
def World.run (w : World) (steps : List Step) : World := steps.foldl World.step w

/-- The file systems during the calls of a pass; `durings` holds, for each call, what gets appended before its second, third, …
`fill_buf`.  For src/source/file/file_server.rs:77-177. -/
def duringPass (content : Bytes) (durings : List (List Bytes)) (n : Nat) : Nat → FS :=
  growing (content ++ (durings.take n).flatten.flatten) (durings.getD n [])

/-- A pass of the server over the file — src/source/file/file_server.rs:106-122 — while it grows (what `durings` holds beyond the
calls the pass makes is appended after it). -/
def World.pass (max : Nat) (w : World) (durings : List (List Bytes)) : World :=
  let after := w.content ++ durings.flatten.flatten
  let (_, lines, _, _, watcher) := pollFile max (after.length + 2) (max + 2) (duringPass w.content durings) w.watcher [] 0 []
  { content := after, watcher := watcher, delivered := w.delivered ++ lines }

/-- What happens to the file and the server: bytes are appended, or there is a pass.  For src/source/file/file_server.rs:77-177. -/
inductive Event where
  | append (bs : Bytes)
  | pass (durings : List (List Bytes))
deriving DecidableEq, Repr

/-- Events in order.  For src/source/file/file_server.rs:77-177. -/
def World.serve (max : Nat) (w : World) (events : List Event) : World :=
  events.foldl (fun w e => match e with
    | .append bs => { w with content := w.content ++ bs }
    | .pass durings => w.pass max durings) w

/-! ## Passes over one file -/

/-- A file and its watcher between the server's passes, with the backoff — src/source/file/file_server.rs:78-160. -/
structure Server where
  watcher : Watcher
  backoffCap : Nat := 1
  sent : List Bytes := []
deriving DecidableEq, Repr

/-- One pass over the one file, which does not change meanwhile: the new state and the timeout passed to `poll`.  For src/source/file/file_server.rs:77-177. -/
def Server.pass (maxReadBytes : Nat) (content : Bytes) (s : Server) : Server × Nat :=
  let (_, lines, n, _, w) := pollFile maxReadBytes (content.length + 2) (maxReadBytes + 2) (fun _ _ => fsOf content) s.watcher [] 0 []
  let cap := File.nextCap s.backoffCap n
  ({ watcher := w, backoffCap := cap, sent := s.sent ++ lines }, cap - n)

/-- Several passes; the timeouts, in order.  For src/source/file/file_server.rs:77-177. -/
def Server.passes (maxReadBytes : Nat) (content : Bytes) : Nat → Server → Server × List Nat
  | 0, s => (s, [])
  | n + 1, s =>
    let (s1, t) := s.pass maxReadBytes content
    let (s2, ts) := passes maxReadBytes content n s1
    (s2, t :: ts)

end Verif.FileBytes
