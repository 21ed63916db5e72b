import Verif.Lemmas.WatchingCount
/-!
# C105: the file watcher against the project's own model of a file

src/source/file/mod.rs holds two randomised tests, which drive a `FileWatcher` and a model of a file side by side.  Here they are
transcribed (`Spec/Watching.lean`) and shown to pass on every history, not on a sample of them.
-/
namespace Verif
open FileBytes
open Graphite (utf8Valid)

private theorem exact_all : ∀ (actions : List Action) (e : Experiment), Together e →
    (∀ s, Action.writeLine s ∈ actions → s ≠ [] ∧ (10 : UInt8) ∉ s ∧ utf8Valid s = true) → ∃ e', Experiment.exact actions e = some e'
  | [], e, _, _ => ⟨e, rfl⟩
  | .writeLine s :: as, e, h, hw => exact_all as (e.write s) (together_write e s (hw s (by simp)) h) fun s hs => hw s (by simp [hs])
  | .rotate :: as, e, h, hw => exact_all as e.rotate (together_rotate e h) fun s hs => hw s (by simp [hs])
  | .read :: as, e, h, hw => by
    obtain ⟨e', h1, h2⟩ := readExact_together e 8 h
    simp only [Experiment.exact, h1]
    exact exact_all as e' h2 fun s hs => hw s (by simp [hs])
  | .truncate :: as, e, h, hw => exact_all as e h fun s hs => hw s (by simp [hs])
  | .pause :: as, e, h, hw => exact_all as e h fun s hs => hw s (by simp [hs])
  | .delete :: _, e, _, _ => ⟨e, rfl⟩
  | .exit :: _, e, _, _ => ⟨e, rfl⟩

/-- C105.  On every history of writes, rotations and reads the watcher gives, read by read, exactly the line the model gives, and
nothing when it has nothing: no assertion of the experiment fails. -/
theorem C105_exact (actions : List Action)
    (hw : ∀ s, Action.writeLine s ∈ actions → s ≠ [] ∧ (10 : UInt8) ∉ s ∧ utf8Valid s = true) :
    (Experiment.exact actions Experiment.start).isSome = true := by
  obtain ⟨e', h⟩ := exact_all actions _ together_start hw
  rw [h]; rfl

private def history : List Action :=
  [.read, .writeLine [97, 98], .writeLine [99], .read, .rotate, .writeLine [0xC3, 0xA9], .read, .rotate, .writeLine [100], .read, .read, .writeLine [101], .pause, .read]

/-- A history with two rotations: the line of the file that was never the newest at a read is not seen, the four others are. -/
example : (∀ s, Action.writeLine s ∈ history → s ≠ [] ∧ (10 : UInt8) ∉ s ∧ utf8Valid s = true) ∧
    (Experiment.exact history Experiment.start).map (fun e => (e.writes, e.sutReads, e.modelReads)) = some (5, 4, 4) := by
  refine ⟨?_, by decide +kernel⟩
  intro s hs
  simp [history] at hs
  rcases hs with rfl | rfl | rfl | rfl | rfl <;> decide +kernel

private theorem counting_all : ∀ (actions : List Action) (e : Experiment), Bounded e →
    (∀ s, Action.writeLine s ∈ actions → (10 : UInt8) ∉ s ∧ ∀ b ∈ s, b < 128) → ∃ e', Experiment.counting actions e = some e' ∧ Bounded e'
  | [], e, h, _ => ⟨e, rfl, h⟩
  | .writeLine s :: as, e, h, hw =>
    counting_all as (e.write s) (bounded_write e s (hw s (by simp)).1 (hw s (by simp)).2 h) fun s hs => hw s (by simp [hs])
  | .rotate :: as, e, h, hw => counting_all as e.rotate (bounded_rotate e h) fun s hs => hw s (by simp [hs])
  | .read :: as, e, h, hw => by
    obtain ⟨e', h1, h2⟩ := readCounting_bounded 10 e h
    simp only [Experiment.counting, h1]
    exact counting_all as e' h2 fun s hs => hw s (by simp [hs])
  | .truncate :: as, e, h, hw => counting_all as e.truncate (bounded_truncate e h) fun s hs => hw s (by simp [hs])
  | .pause :: as, e, h, hw => counting_all as e h fun s hs => hw s (by simp [hs])
  | .delete :: _, e, h, _ => ⟨e, rfl, h⟩
  | .exit :: _, e, h, _ => ⟨e, rfl, h⟩

/-- C105.  On every history of writes of ASCII lines, rotations, truncations and reads the watcher never fails, it gives no more
lines than were written, and no fewer than the model. -/
theorem C105_counts (actions : List Action)
    (hw : ∀ s, Action.writeLine s ∈ actions → (10 : UInt8) ∉ s ∧ ∀ b ∈ s, b < 128) :
    ∃ e, Experiment.counting actions Experiment.start = some e ∧ e.sutReads ≤ e.writes ∧ e.modelReads ≤ e.sutReads := by
  obtain ⟨e, h1, -, ⟨r, h2⟩, -, h3⟩ := counting_all actions _ bounded_start hw
  exact ⟨e, h1, by have := h2.count; omega, h3⟩

private def truncations : List Action :=
  [.writeLine [97, 98], .writeLine [99], .writeLine [100], .read, .truncate, .read, .writeLine [101], .read, .read, .truncate,
   .writeLine [102, 103, 104], .read, .rotate, .writeLine [105], .truncate, .read, .writeLine [106], .read]

/-- A history with truncations: what is written to the file while it is shorter than before is read from its beginning. -/
example : (Experiment.counting truncations Experiment.start).map (fun e => (e.writes, e.sutReads, e.modelReads)) = some (7, 4, 4) := by
  decide +kernel

/-- The bound needs that files change between the calls only.  Here the file is truncated and written again between the moment a call
takes its size and the moment it reads: `y` was written once and is delivered twice. -/
theorem C105_race_false :
    ∃ (w : Watcher) (before after : Bytes),
      let fs : Bytes → FS := fun b => { files := fun _ => b, paths := fun _ => some 0 }
      -- the watcher has read `a`, the file's only line then; now there are four
      (∃ w', (Watcher.new (fs []) []).readLine 20 (fun _ => fs [97, 10]) [] = (.ok 1, [97], w') ∧ w' = w) ∧
      before = [97, 10, 98, 10, 99, 10, 100, 10] ∧ after = [120, 10, 121, 10] ∧
      ∃ w1, w.readLine 20 (fun k => if k = 0 then fs before else fs after) [] = (.ok 1, [121], w1) ∧
      ∃ w2, w1.readLine 20 (fun _ => fs after) [] = (.ok 1, [120], w2) ∧
      ∃ w3, w2.readLine 20 (fun _ => fs after) [] = (.ok 1, [121], w3) := by
  refine ⟨⟨[], some { file := 0, pos := 2 }, some 0, 2, false⟩, _, _, ⟨_, by rfl, rfl⟩, rfl, rfl, ?_⟩
  exact ⟨⟨[], some { file := 0, pos := 4 }, some 0, 8, false⟩, by decide +kernel,
    ⟨[], some { file := 0, pos := 4, staged := [121, 10] }, some 0, 4, false⟩, by decide +kernel,
    ⟨[], some { file := 0, pos := 4 }, some 0, 4, false⟩, by decide +kernel⟩

end Verif
