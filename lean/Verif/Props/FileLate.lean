import Verif.Model.FileBytes
/-!
# C38: lines written to a file after it was rotated away

A process that has the old file open may go on writing to it after the rotation.
-/
namespace Verif
open FileBytes

/-- The results of the calls of `read_line` on an empty buffer, one after the other; `calls n k` is the file system at the `k`-th moment of the `n`-th call. -/
def FileBytes.Watcher.results (fuel : Nat) : Nat → (Nat → Nat → FS) → Watcher → List (Outcome × Bytes)
  | 0, _, _ => []
  | n + 1, calls, w =>
    let r := w.readLine fuel (calls 0) []
    (r.1, r.2.1) :: results fuel n (fun m => calls (m + 1)) r.2.2

/-- Two file systems that differ at most in the content of a file which no path names. -/
def FileBytes.SameBut (i : Nat) (a b : FS) : Prop := (∀ j, j ≠ i → a.files j = b.files j) ∧ a.paths = b.paths ∧ ∀ p, a.paths p ≠ some i

private theorem fill_same (i : Nat) (a b : FS) (h : SameBut i a b) (r : Reader) (hr : r.file ≠ i) : r.fill a = r.fill b := by
  simp only [Reader.fill, h.1 r.file hr]

private theorem fill_file (a : FS) (r : Reader) : (r.fill a).file = r.file := by
  simp only [Reader.fill]; split <;> rfl

private theorem readUntil_same (i : Nat) (a b : Nat → FS) (h : ∀ k, SameBut i (a k) (b k)) :
    ∀ (fuel : Nat) (r : Reader) (acc : Bytes) (k : Nat), r.file ≠ i → r.readUntil fuel a acc k = r.readUntil fuel b acc k ∧
      ∀ l r' k', r.readUntil fuel a acc k = some (l, r', k') → r'.file = r.file := by
  intro fuel
  induction fuel with
  | zero => intro r acc k _; exact ⟨rfl, by simp [Reader.readUntil]⟩
  | succ fuel ih =>
    intro r acc k hr
    simp only [Reader.readUntil, fill_same i (a k) (b k) (h k) r hr]
    have hf := fill_file (b k) r
    by_cases hs : (r.fill (b k)).staged = []
    · simp only [if_pos hs, true_and]
      intro l r' k' he
      simp only [Option.some.injEq, Prod.mk.injEq] at he
      rw [← he.2.1, hf]
    · simp only [if_neg hs]
      cases Graphite.splitLine (r.fill (b k)).staged with
      | some p =>
        obtain ⟨l, rest⟩ := p
        simp only [true_and]
        intro l r' k' he
        simp only [Option.some.injEq, Prod.mk.injEq] at he
        rw [← he.2.1, ← hf]
      | none =>
        have := ih { r.fill (b k) with staged := [] } (acc ++ (r.fill (b k)).staged) (k + 1) (by rw [← hf] at hr; exact hr)
        refine ⟨this.1, fun l r' k' he => ?_⟩
        rw [this.2 l r' k' he, ← hf]

/-- the watcher is done with file `i` -/
private def Done (i : Nat) (w : Watcher) : Prop := w.reopen = true ∨ ∀ r, w.reader = some r → r.file ≠ i

private theorem open_same (i : Nat) (a b : FS) (h : SameBut i a b) (w : Watcher) :
    w.openAtStart a = w.openAtStart b ∧ (w.openAtStart b).reopen = false ∧ ∀ r, (w.openAtStart b).reader = some r → r.file ≠ i := by
  have h3 := h.2.2 w.path
  simp only [Watcher.openAtStart, h.2.1] at h3 ⊢
  cases hp : b.paths w.path with
  | none => exact ⟨rfl, rfl, by simp⟩
  | some j =>
    rw [hp] at h3
    have hj : j ≠ i := fun hj => h3 (by rw [hj])
    refine ⟨by simp only [h.1 j hj], rfl, fun r hr => ?_⟩
    simp only [Option.some.injEq] at hr
    rw [← hr]; exact hj

private theorem call_same (i fuel : Nat) (a b : Nat → FS) (h : ∀ k, SameBut i (a k) (b k)) (w : Watcher) (hw : Done i w) :
    w.readLine fuel a [] = w.readLine fuel b [] ∧ Done i (w.readLine fuel b []).2.2 := by
  have key : ∀ w : Watcher, w.reopen = false → (∀ r, w.reader = some r → r.file ≠ i) →
      w.readLine fuel a [] = w.readLine fuel b [] ∧ Done i (w.readLine fuel b []).2.2 := by
    intro w ho hr
    simp only [Watcher.readLine, ho, Bool.false_eq_true, if_false]
    cases hrd : w.reader with
    | none =>
      obtain ⟨g1, g2, g3⟩ := open_same i (a 0) (b 0) (h 0) w
      exact ⟨by simp only [g1], Or.inr g3⟩
    | some r =>
      have hf := hr r hrd
      simp only [(h 0).1 r.file hf]
      have hr0 : (if w.previousSize > ((b 0).files r.file).length then r.rewind else r).file = r.file := by split <;> rfl
      generalize hrr : (if w.previousSize > ((b 0).files r.file).length then r.rewind else r) = r0
      rw [hrr] at hr0
      obtain ⟨g1, g2⟩ := readUntil_same i a b h fuel r0 [] 1 (by rw [hr0]; exact hf)
      rw [g1] at g2
      simp only [g1]
      cases hu : r0.readUntil fuel b [] 1 with
      | none =>
        refine ⟨rfl, Or.inr fun r' hr' => ?_⟩
        simp only [Option.some.injEq] at hr'
        rw [← hr', hr0]; exact hf
      | some p =>
        obtain ⟨l, r', k⟩ := p
        have hfile := g2 l r' k hu
        simp only [(h k).2.1, true_and]
        have hd : ∀ x, some r' = some x → x.file ≠ i := by
          intro x hx
          simp only [Option.some.injEq] at hx
          rw [← hx, hfile, hr0]; exact hf
        split
        · split
          · exact Or.inr hd
          · split <;> exact Or.inr hd
        · exact Or.inr hd
  cases ho : w.reopen with
  | false =>
    rcases hw with hw | hw
    · rw [ho] at hw; exact absurd hw (by simp)
    · exact key w ho hw
  | true =>
    obtain ⟨g1, g2, g3⟩ := open_same i (a 0) (b 0) (h 0) w
    have hop : ∀ fss : Nat → FS, (w.openAtStart (fss 0)).reopen = false → w.readLine fuel fss [] = (w.openAtStart (fss 0)).readLine fuel fss [] := by
      intro fss hq
      simp only [Watcher.readLine, ho, hq, if_true, Bool.false_eq_true, if_false]
    rw [hop a (by rw [g1]; exact g2), hop b g2, g1]
    exact key _ g2 g3

private theorem results_same (i fuel : Nat) : ∀ (n : Nat) (a b : Nat → Nat → FS), (∀ m k, SameBut i (a m k) (b m k)) → ∀ w : Watcher, Done i w →
    w.results fuel n a = w.results fuel n b
  | 0, _, _, _, _, _ => rfl
  | n + 1, a, b, h, w, hw => by
    obtain ⟨h1, h2⟩ := call_same i fuel (a 0) (b 0) (h 0) w hw
    simp only [Watcher.results, h1]
    rw [results_same i fuel n (fun m => a (m + 1)) (fun m => b (m + 1)) (fun m k => h (m + 1) k) _ h2]

/-- C38 is false of the code for late lines.  The watcher holds file `i` and has read all of it, and no path names it any more (it was rotated away).  The next
call finds nothing; from then on, whatever is written to file `i` and whenever, also during the calls, changes nothing in what the calls
return: such lines are never delivered.  The other files may change in any way, as long as no path names file `i` again. -/
theorem C38_late_lines_false (i n fuel : Nat) (fs : FS) (w : Watcher) (hr : w.reader = some { file := i, pos := (fs.files i).length })
    (ho : w.reopen = false) (hid : w.fileId = some i) (hs : w.previousSize ≤ (fs.files i).length) (hp : ∀ p, fs.paths p ≠ some i)
    (calls : Nat → Nat → FS) (hc : ∀ m k p, (calls m k).paths p ≠ some i) (late : Nat → Nat → Bytes) :
    ∃ w', w.readLine (fuel + 1) (fun _ => fs) [] = (.ok 0, [], w') ∧
      w'.results (fuel + 1) n (fun m k => { calls m k with files := fun j => if j = i then late m k else (calls m k).files j }) =
        w'.results (fuel + 1) n calls := by
  refine ⟨{ w with previousSize := (fs.files i).length, reopen := true }, ?_, ?_⟩
  · have h1 : ∀ j, Reader.readUntil (fuel + 1) (fun _ => fs) { file := i, pos := (fs.files i).length } [] j =
        some ([], { file := i, pos := (fs.files i).length }, j + 1) := by
      intro j; simp [Reader.readUntil, Reader.fill]
    have h2 : fs.paths w.path ≠ w.fileId := by rw [hid]; exact hp _
    have h3 : Graphite.utf8Valid [] = true := rfl
    simp only [Watcher.readLine, ho, hr, Bool.false_eq_true, if_false, gt_iff_lt, if_neg (Nat.not_lt.2 hs), h1, h3, if_true, ne_eq, h2, not_false_eq_true,
      decide_true, Bool.or_true]
  · have hd : Done i { w with previousSize := (fs.files i).length, reopen := true } := Or.inl rfl
    exact results_same i (fuel + 1) n (fun m k => { calls m k with files := fun j => if j = i then late m k else (calls m k).files j }) calls (fun m k => ⟨fun j hj => by simp [hj], rfl, hc m k⟩) _ hd

/-- Such a history: `a` is read from file 0, the path is given to file 1, the watcher notices, and a process that still has file 0 open
writes `late`; only the line of file 1 comes. -/
example :
    let old : FS := { files := fun _ => [97, 10], paths := fun _ => some 0 }
    let w := ((Watcher.new { old with files := fun _ => [] } []).readLine 9 (fun _ => old) []).2.2
    let new : FS := { files := fun i => if i = 0 then [97, 10] else [98, 10], paths := fun _ => some 1 }
    let w' := (w.readLine 9 (fun _ => new) []).2.2
    w.reader = some { file := 0, pos := 2 } ∧ w.reopen = false ∧ w.fileId = some 0 ∧ w.previousSize = 2 ∧
    w'.results 9 3 (fun _ _ => { new with files := fun i => if i = 0 then [97, 10, 108, 97, 116, 101, 10] else [98, 10] }) =
      [(.ok 1, [98]), (.ok 0, []), (.ok 0, [])] := by decide +kernel

end Verif
