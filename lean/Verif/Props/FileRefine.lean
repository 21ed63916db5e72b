import Verif.Lemmas.FileRefine
import Verif.Props.File
/-!
# C103 — files of text, read as bytes

The watcher of bytes, with its buffer, does what the watcher of `Model/File.lean` does, which reads text character by character
from the file as it is: so what C37 to C39 say of that one holds of this one.
-/
namespace Verif
open FileBytes

/-- **C103 (refinement).**  The files hold text.  They may be renamed, removed and created at any time, and between two calls each is appended
to, or cut or rewritten to something smaller (only appended to before the first call).  Then the calls of `read_line` on the
bytes, through the buffer, return what they return on the text. -/
theorem C103_refines (fuel n : Nat) (path : Str) (fss : Nat → File.FS) (h0 : ∀ i, (fss 0).files i <+: (fss 1).files i)
    (hc : ∀ k, AppendedOrCut (fss (k + 1)) (fss (k + 2))) (hf : ∀ k i, File.size ((fss k).files i) + 2 ≤ fuel) :
    reads fuel n (fun k => encodeFS (fss (k + 1))) (Watcher.new (encodeFS (fss 0)) path) =
      (File.reads n (fun k => fss (k + 1)) (File.Watcher.new (fss 0) path)).map fun r => (.ok r.1, encode r.2) := by
  have key : ∀ (n : Nat) (fss : Nat → File.FS) (w : File.Watcher) (v : Watcher), Sim (fss 0) w v →
      (∀ k, AppendedOrCut (fss k) (fss (k + 1))) → (∀ k i, File.size ((fss k).files i) + 2 ≤ fuel) →
      reads fuel n (fun k => encodeFS (fss k)) v = (File.reads n fss w).map fun r => (.ok r.1, encode r.2) := by
    intro n
    induction n with
    | zero => intros; rfl
    | succ n ih =>
      intro fss w v hs hc hf
      obtain ⟨v', h1, h2, h3, -⟩ := sim_read fuel (fss 0) w v hs (hf 0)
      simp only [reads, File.reads, h1, List.map_cons]
      rw [ih (fun k => fss (k + 1)) _ v' (sim_step _ _ _ _ h2 h3 (hc 0)) (fun k => hc (k + 1)) (fun k => hf (k + 1))]
  exact key n (fun k => fss (k + 1)) _ _ (sim_new _ _ path h0) (fun k => hc k) (fun k => hf (k + 1))

/-- A file with two lines, of which the first two-byte character is the last of a line; it grows, is cut, and is replaced. -/
private def turning : Nat → File.FS
  | 0 => { files := fun _ => [], paths := fun _ => some 0 }
  | 1 => { files := fun i => if i = 0 then "é\nab".toList else [], paths := fun _ => some 0 }
  | 2 => { files := fun i => if i = 0 then "é\nabc\nd\n".toList else [], paths := fun _ => some 0 }
  | 3 => { files := fun i => if i = 0 then "x\n".toList else [], paths := fun _ => some 0 }
  | _ => { files := fun i => if i = 0 then "x\n".toList else "y\n".toList, paths := fun _ => some 1 }

example : reads 20 6 (fun k => encodeFS (turning (k + 1))) (Watcher.new (encodeFS (turning 0)) []) =
    [(.ok 2, [195, 169]), (.ok 3, [97, 98, 99]), (.ok 1, [120]), (.ok 0, []), (.ok 1, [121]), (.ok 0, [])] := by decide +kernel

/-- **C103 (refinement, passes).**  Under the same conditions a pass of the server over such a file takes the same lines and counts the same
bytes. -/
theorem C103_refines_pass (max fuel turns : Nat) (path : Str) (fss : Nat → File.FS) (h0 : ∀ i, (fss 0).files i <+: (fss 1).files i)
    (hc : ∀ k, AppendedOrCut (fss (k + 1)) (fss (k + 2))) (hf : ∀ k i, File.size ((fss k).files i) + 2 ≤ fuel) :
    let a := pollFile max fuel turns (fun n _ => encodeFS (fss (n + 1))) (Watcher.new (encodeFS (fss 0)) path) [] 0 []
    let b := File.pollFile max turns (fun n => fss (n + 1)) (File.Watcher.new (fss 0) path) 0 []
    a.1 = true ∧ a.2.1 = b.1.map encode ∧ a.2.2.1 = b.2.1 := by
  have key : ∀ (turns : Nat) (fss : Nat → File.FS) (w : File.Watcher) (v : Watcher) (bytes : Nat) (lines : List File.Text),
      Sim (fss 0) w v → (∀ k, AppendedOrCut (fss k) (fss (k + 1))) → (∀ k i, File.size ((fss k).files i) + 2 ≤ fuel) →
      (pollFile max fuel turns (fun n _ => encodeFS (fss n)) v [] bytes (lines.map encode)).1 = true ∧
      (pollFile max fuel turns (fun n _ => encodeFS (fss n)) v [] bytes (lines.map encode)).2.1 =
        (File.pollFile max turns fss w bytes lines).1.map encode ∧
      (pollFile max fuel turns (fun n _ => encodeFS (fss n)) v [] bytes (lines.map encode)).2.2.1 =
        (File.pollFile max turns fss w bytes lines).2.1 := by
    intro turns
    induction turns with
    | zero => intros; exact ⟨rfl, rfl, rfl⟩
    | succ turns ih =>
      intro fss w v bytes lines hs hc hf
      obtain ⟨v', h1, h2, h3, h4⟩ := sim_read fuel (fss 0) w v hs (hf 0)
      simp only [pollFile, File.pollFile, h1]
      by_cases hz : (w.readLine (fss 0)).1.1 > 0
      · simp only [hz, if_true]
        by_cases hm : bytes + (w.readLine (fss 0)).1.1 > max
        · simp only [hm, if_true]
          simp
        · simp only [hm, if_false]
          have := ih (fun k => fss (k + 1)) _ v' (bytes + (w.readLine (fss 0)).1.1) (lines ++ [(w.readLine (fss 0)).1.2])
            (sim_step _ _ _ _ h2 h3 (hc 0)) (fun k => hc (k + 1)) (fun k => hf (k + 1))
          simpa using this
      · simp only [hz, if_false]
        simp
  exact key turns (fun k => fss (k + 1)) _ _ 0 [] (sim_new _ _ path h0) (fun k => hc k) (fun k => hf (k + 1))

example : (pollFile 100 20 10 (fun n _ => encodeFS (turning (n + 1))) (Watcher.new (encodeFS (turning 0)) []) [] 0 []).2.1 =
    [[195, 169], [97, 98, 99], [120]] := by decide +kernel

private theorem size_append (a b : File.Text) : File.size (a ++ b) = File.size a + File.size b := by simp [File.size]

/-- what is handed over, over any steps that append, rotate and read -/
private theorem tail_eq (fuel : Nat) : ∀ (steps : List File.Step) (w : File.World) (v : Watcher), Sim w.fs w.watcher v →
    (∀ i pos, w.watcher.reader = some (i, pos) → w.watcher.previousSize ≤ File.size (w.fs.files i)) →
    (∀ i, w.next ≤ i → w.fs.files i = []) → (∀ p j, w.fs.paths p = some j → j < w.next) →
    (∀ i, File.size (w.fs.files i) + File.size (File.written steps) + 2 ≤ fuel) →
    (w.run steps).delivered.map encode = w.delivered.map encode ++ tail fuel w v steps := by
  intro steps
  induction steps with
  | nil => intro w v _ _ _ _ _; simp [File.World.run, tail]
  | cons s steps ih =>
    intro w v hs hp hn hpa hf
    have hrun : w.run (s :: steps) = (w.step s).run steps := rfl
    have hwr : File.written (s :: steps) = s.text ++ File.written steps := rfl
    -- growth
    have grow : ∀ fs' : File.FS, (∀ i, w.fs.files i <+: fs'.files i) → Sim fs' w.watcher v ∧
        (∀ i pos, w.watcher.reader = some (i, pos) → w.watcher.previousSize ≤ File.size (fs'.files i)) := by
      intro fs' hg
      refine ⟨sim_later _ _ _ _ hs (fun i _ _ _ => Or.inl (hg i)) (fun i pos h => Nat.not_lt.2 (hp i pos h)), ?_⟩
      intro i pos h
      obtain ⟨D, hD⟩ := hg i
      rw [← hD, size_append]
      exact Nat.le_trans (hp i pos h) (Nat.le_add_right _ _)
    rw [hrun]
    cases s with
    | append t =>
      show _ = _ ++ tail fuel (w.step (.append t)) v steps
      cases hq : w.fs.paths w.watcher.path with
      | none =>
        have hst : w.step (.append t) = w := by simp only [File.World.step, hq]
        rw [hst]
        refine ih w v hs hp hn hpa fun i => ?_
        have := hf i
        rw [hwr, size_append] at this
        omega
      | some j =>
        have hst : w.step (.append t) = { w with fs := { w.fs with files := fun k => if k = j then w.fs.files j ++ t else w.fs.files k } } := by
          simp only [File.World.step, hq]
        have hj := hpa _ _ hq
        obtain ⟨g1, g2⟩ := grow { w.fs with files := fun k => if k = j then w.fs.files j ++ t else w.fs.files k } (by
          intro i
          by_cases hi : i = j
          · subst hi; simp
          · simp [hi])
        rw [hst]
        refine ih _ v g1 g2 ?_ hpa ?_
        · intro i hi
          simp only at hi
          simp only [show i ≠ j by omega, if_false]
          exact hn i hi
        · intro i
          have := hf i
          rw [hwr, size_append] at this
          simp only [File.Step.text] at this
          simp only
          by_cases hi : i = j
          · subst hi; simp only [if_true, size_append]; omega
          · simp only [hi, if_false]; omega
    | rotate t =>
      show _ = _ ++ tail fuel (w.step (.rotate t)) v steps
      obtain ⟨g1, g2⟩ := grow { files := fun j => if j = w.next then t else w.fs.files j
                                paths := fun p => if p = w.watcher.path then some w.next else w.fs.paths p } (by
          intro i
          by_cases hi : i = w.next
          · subst hi; simp [hn w.next (Nat.le_refl _)]
          · simp [hi])
      refine ih (w.step (.rotate t)) v g1 g2 ?_ ?_ ?_
      · intro i hi
        simp only [File.World.step] at hi ⊢
        simp only [show i ≠ w.next by omega, if_false]
        exact hn i (by omega)
      · intro q j h
        simp only [File.World.step] at h ⊢
        split at h
        · simp only [Option.some.injEq] at h; omega
        · have := hpa q j h; omega
      · intro i
        have h1 := hf i
        rw [hwr, size_append] at h1
        simp only [File.Step.text] at h1
        simp only [File.World.step]
        by_cases hi : i = w.next
        · simp only [hi, if_true]; omega
        · simp only [hi, if_false]; omega
    | read =>
      have hfi : ∀ i, File.size (w.fs.files i) + 2 ≤ fuel := fun i => by have := hf i; omega
      obtain ⟨v', h1, h2, h3, h4⟩ := sim_read fuel w.fs w.watcher v hs hfi
      have hst : (w.step .read).fs = w.fs ∧ (w.step .read).next = w.next ∧ (w.step .read).watcher = (w.watcher.readLine w.fs).2 ∧
          (w.step .read).delivered = if (w.watcher.readLine w.fs).1.1 > 0 then w.delivered ++ [(w.watcher.readLine w.fs).1.2] else w.delivered :=
        ⟨rfl, rfl, rfl, rfl⟩
      obtain ⟨s1, s2, s3, s4⟩ := hst
      rw [ih (w.step .read) v' (by rw [s1, s3]; exact h2) (by
          rw [s1, s3]; intro i pos h; rw [h3 i pos h]; exact Nat.le_refl _) (by rw [s1, s2]; exact hn) (by rw [s1, s2]; exact hpa)
          (by rw [s1]; intro i; have := hf i; rw [hwr, size_append] at this; omega), s4]
      simp only [tail, h1]
      cases hz : (w.watcher.readLine w.fs).1.1 with
      | zero => simp
      | succ n => simp

/-- **C103 (rotation; part).**  As C38, for the watcher of bytes: lines of text are appended, the file is rotated away once the watcher has opened
it, and the watcher reads, in any order; what it hands over are the lines written, in order, none twice, and after enough further reads
all of them.  Missing from the full statement: rotations in quick succession and lines that are not text. -/
theorem C103_rotation_partial (content : File.Text) (path : Str) (steps : List File.Step)
    (hs : ∀ s ∈ steps, File.Whole s.text) (hu : File.Unhurried (File.World.start content path) steps) :
    let fuel := File.size content + File.size (File.written steps) + 2
    let v := Watcher.new (encodeFS (File.World.start content path).fs) path
    ∃ lines pending : List File.Text, File.written steps = File.joinLines (lines ++ pending) ∧
      (∀ l ∈ lines ++ pending, File.Line l) ∧ tail fuel (File.World.start content path) v steps = lines.map encode ∧
      ∀ n, pending.length + 1 ≤ n →
        tail fuel (File.World.start content path) v (steps ++ List.replicate n .read) = (lines ++ pending).map encode := by
  intro fuel v
  have start : ∀ ss : List File.Step, File.written ss = File.written steps →
      ((File.World.start content path).run ss).delivered.map encode = tail fuel (File.World.start content path) v ss := by
    intro ss hw
    have := tail_eq fuel ss (File.World.start content path) v (sim_new _ _ path fun i => List.prefix_refl _) (by
        intro i pos _
        have : (File.World.start content path).watcher.previousSize = 0 := rfl
        omega) (by
        intro i hi
        have hi : 1 ≤ i := hi
        show (if i = 0 then content else []) = []
        rw [if_neg (by omega)]) (by
        intro p j h
        have h : some 0 = some j := h
        simp only [Option.some.injEq] at h
        show j < 1
        omega) (by
        intro i
        rw [hw]
        show File.size (if i = 0 then content else []) + _ + 2 ≤ fuel
        split
        · exact Nat.le_refl _
        · simp only [fuel, File.size, List.map_nil, List.sum_nil]; omega)
    simpa [File.World.start] using this
  obtain ⟨pending, h1, h2, h3⟩ := C38_rotation_partial content path steps hs hu
  refine ⟨_, pending, h1, h2, (start steps rfl).symm, ?_⟩
  intro n hn
  rw [← start (steps ++ List.replicate n File.Step.read) (by
    have : ∀ n, (List.replicate n File.Step.read).flatMap File.Step.text = [] := by
      intro n
      induction n with
      | zero => rfl
      | succ n ih => rw [List.replicate_succ, List.flatMap_cons, ih]; rfl
    simp [File.written, this]), ← h3 n hn]
  simp [File.World.run, List.foldl_append]

/-- Two rotations. -/
example : tail 30 (File.World.start "old
".toList []) (Watcher.new (encodeFS (File.World.start "old
".toList []).fs) [])
    [.append "é
b
".toList, .read, .rotate "c
".toList, .append "d
".toList, .read, .read, .read, .read, .rotate "e
".toList, .read,
     .read, .read] = [[195, 169], [98], [99], [100], [101]] := by decide +kernel

end Verif
