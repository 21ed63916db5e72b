import Verif.Model.FileBytes
/-!
# The file watcher against the project's own model of a file

Transcribes the randomised tests of src/source/file/mod.rs: `FWFile`, the authors' model of a file, and the two experiments that
drive it and a `FileWatcher` side by side.  A failing assertion, a panic and `unreachable!` are `none`.
Simplification: every new file has a new number for its id (a file system may use an id again, but not that of a file that is held
open, which is the one the watcher compares with).
-/
namespace Verif.FileBytes
open Graphite (utf8Valid)

/-- `FWAction` — src/source/file/mod.rs:29-37. -/
inductive Action where
  | writeLine (s : Bytes)
  | rotate
  | delete
  | truncate
  | read
  | pause
  | exit
deriving DecidableEq, Repr

/-- `FWFile` — src/source/file/mod.rs:45-50. -/
structure FWFile where
  contents : Bytes := []
  readIdx : Nat := 0
  previousReadSize : Nat := 0
  readsAvailable : Nat := 0
deriving DecidableEq, Repr

/-- `FWFile::truncate` — src/source/file/mod.rs:73-76. -/
def FWFile.truncate (f : FWFile) : FWFile := { f with readsAvailable := 0, contents := [] }

/-- `FWFile::write_line` — src/source/file/mod.rs:78-82. -/
def FWFile.writeLine (f : FWFile) (s : Bytes) : FWFile :=
  { f with contents := f.contents ++ s ++ [10], readsAvailable := f.readsAvailable + 1 }

/-- What `FWFile::read_line` does: it panics, has nothing, or has a line. -/
inductive Pull where
  | panic
  | nothing
  | line (l : Bytes)
deriving DecidableEq, Repr

/-- Looking for the end of the line — src/source/file/mod.rs:128-134: the bytes before it, `some none` if there is no end, `none` for
an index out of range. -/
def seekEnd : Bytes → Option (Option Bytes)
  | [] => none
  | b :: r => if b = 10 then some (some []) else if r = [] then some none else (seekEnd r).map (·.map (b :: ·))

/-- `FWFile::read_line` from a place on — src/source/file/mod.rs:128-150. -/
def FWFile.readFrom (f : FWFile) (start : Nat) : Pull × FWFile :=
  match seekEnd (f.contents.drop start) with
  | none => (.panic, f)
  | some none => (.nothing, f)
  | some (some ret) =>
    if utf8Valid ret = false ∨ f.readsAvailable = 0 then (.panic, f)
    else
      let f := { f with readIdx := start + ret.length + 1, readsAvailable := f.readsAvailable - 1, previousReadSize := f.contents.length }
      (if ret = [] then .nothing else .line ret, f)

/-- `FWFile::read_line` — src/source/file/mod.rs:85-150. -/
def FWFile.readLine (f : FWFile) : Pull × FWFile :=
  if f.contents = [] ∧ f.readsAvailable = 0 then (.nothing, { f with readIdx := 0, previousReadSize := 0 })
  else if f.previousReadSize > f.contents.length then { f with readIdx := 0 }.readFrom 0
  else if f.readIdx = f.contents.length then (.nothing, f)
  else f.readFrom f.readIdx

/-- The variables of the experiments — src/source/file/mod.rs:203-216, 304-312: the files on disk, which of them the path names,
the watcher, the models of the files with the newest first, and the counts. -/
structure Experiment where
  files : Nat → Bytes := fun _ => []
  cur : Nat := 0
  watcher : Watcher
  models : List FWFile := [{}]
  readIndex : Nat := 0
  bytes : Nat := 0
  writes : Nat := 0
  sutReads : Nat := 0
  modelReads : Nat := 0

/-- The file system. -/
def Experiment.fs (e : Experiment) : FS := { files := e.files, paths := fun _ => some e.cur }

/-- The file is created, then the watcher. -/
def Experiment.start : Experiment := { watcher := Watcher.new { files := fun _ => [], paths := fun _ => some 0 } [] }

/-- `fw.read_line(&mut buf)` with an empty buffer. -/
def Experiment.call (e : Experiment) : Outcome × Bytes × Watcher := e.watcher.readLine (e.bytes + 2) (fun _ => e.fs) []

/-- `fwfiles[read_index].read_line()`; `none` is a panic. -/
def Experiment.pull (e : Experiment) : Option (Option Bytes × Experiment) :=
  match e.models[e.readIndex]? with
  | none => none
  | some m => match m.readLine with
    | (.panic, _) => none
    | (.nothing, m') => some (none, { e with models := e.models.set e.readIndex m' })
    | (.line l, m') => some (some l, { e with models := e.models.set e.readIndex m' })

/-- The inner `loop` of both experiments — src/source/file/mod.rs:275-286, 358-367: the model's file, and if it has nothing the newest one.
`some (none, _)`: the newest has nothing either. -/
def Experiment.next (e : Experiment) : Option (Option Bytes × Experiment) :=
  match e.pull with
  | some (none, e) => if e.readIndex = 0 then some (none, e) else { e with readIndex := 0 }.pull
  | r => r

/-- `FWAction::Read` without truncations — src/source/file/mod.rs:342-375, with the attempts left. -/
def Experiment.readExact : Nat → Experiment → Option Experiment
  | 0, e => some e
  | attempts + 1, e =>
    match e.call with
    | (.ok 0, _, w) => match e.pull with
      | some (none, e) => readExact attempts { e with watcher := w, readIndex := 0 }
      | _ => none
    | (.ok (n + 1), buf, w) => match e.next with
      | some (some l, e) =>
        if l = buf ∧ n + 1 = buf.length then some { e with watcher := w, sutReads := e.sutReads + 1, modelReads := e.modelReads + 1 }
        else none
      | _ => none
    | _ => none

/-- `FWAction::Read` with truncations — src/source/file/mod.rs:260-291. -/
def Experiment.readCounting : Nat → Experiment → Option Experiment
  | 0, e => some e
  | attempts + 1, e =>
    match e.call with
    | (.ok 0, _, w) => readCounting attempts { e with watcher := w, readIndex := 0 }
    | (.ok (_ + 1), _, w) => match e.next with
      | some (some _, e) => some { e with watcher := w, sutReads := e.sutReads + 1, modelReads := e.modelReads + 1 }
      | some (none, e) => some { e with watcher := w, sutReads := e.sutReads + 1 }
      | none => none
    | _ => none

/-- What a write does: to the newest file and its model — src/source/file/mod.rs:239-245, 323-328. -/
def Experiment.write (e : Experiment) (s : Bytes) : Experiment :=
  { e with
    files := fun i => if i = e.cur then e.files i ++ s ++ [10] else e.files i
    models := match e.models with | m :: ms => m.writeLine s :: ms | [] => []
    bytes := e.bytes + s.length + 1
    writes := e.writes + 1 }

/-- What a rotation does: the path names a new, empty file — src/source/file/mod.rs:246-259, 329-341. -/
def Experiment.rotate (e : Experiment) : Experiment :=
  { e with cur := e.cur + 1, models := {} :: e.models, readIndex := e.readIndex + 1 }

/-- What a truncation does — src/source/file/mod.rs:224-236. -/
def Experiment.truncate (e : Experiment) : Experiment :=
  { e with
    files := fun i => if i = e.cur then [] else e.files i
    models := match e.models with | m :: ms => m.truncate :: ms | [] => [] }

/-- `experiment_no_truncations` — src/source/file/mod.rs:303-378. -/
def Experiment.exact : List Action → Experiment → Option Experiment
  | [], e => some e
  | .writeLine s :: as, e => exact as (e.write s)
  | .rotate :: as, e => exact as e.rotate
  | .read :: as, e => match e.readExact 10 with
    | some e => exact as e
    | none => none
  | .truncate :: as, e => exact as e
  | .pause :: as, e => exact as e
  | .delete :: _, e => some e
  | .exit :: _, e => some e

/-- `experiment` — src/source/file/mod.rs:202-296, up to the comparison of the counts. -/
def Experiment.counting : List Action → Experiment → Option Experiment
  | [], e => some e
  | .writeLine s :: as, e => counting as (e.write s)
  | .rotate :: as, e => counting as e.rotate
  | .read :: as, e => match e.readCounting 10 with
    | some e => counting as e
    | none => none
  | .truncate :: as, e => counting as e.truncate
  | .pause :: as, e => counting as e
  | .delete :: _, e => some e
  | .exit :: _, e => some e

end Verif.FileBytes
