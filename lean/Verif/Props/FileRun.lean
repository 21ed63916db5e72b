import Verif.Lemmas.FileRun
import Verif.Lemmas.Utf8
/-!
# C133: a file source and whatever its pattern matches
-/
namespace Verif
open FileRun FileBytes
open Graphite (valid_iff)

private theorem fit_start : Fit {} := ⟨rfl, by simp, by simp⟩

private theorem fold_phase (max : Nat) : ∀ (turns : List Turn) (s : State), s.phase = .running → Fit s → (∀ t ∈ turns, Orders t) →
    (turns.foldl (turn max) s).phase = ((turns.map fate).find? (· != .running)).getD .running ∧
    ((turns.map fate).find? (· != .running) = none → Fit (turns.foldl (turn max) s)) := by
  intro turns
  induction turns with
  | nil => intro s hr hf _; exact ⟨by simp [hr], fun _ => hf⟩
  | cons t ts ih =>
    intro s hr hf ho
    obtain ⟨hp, hf'⟩ := turn_fate max s t hr hf (ho t (by simp))
    rw [List.foldl_cons, List.map_cons, List.find?_cons]
    by_cases hrun : fate t = .running
    · simp only [hrun, bne_self_eq_false]
      exact ih _ (by rw [hp, hrun]) hf' (fun t h => ho t (by simp [h]))
    · have hb : (fate t != .running) = true := by simpa using hrun
      simp only [hb, Option.getD_some]
      rw [turn_ended max _ (by rw [hp]; exact hrun)]
      exact ⟨hp, by simp⟩

/-- **C133 (exactly; part).**  Whatever the pattern matches in each turn, whatever the files do meanwhile and in whatever order they are
read, the source is as the first turn leaves it whose fate is not to go on: blocked for ever at the first path that is a pipe without a writer, if no
path that cannot be seeked in comes before it; panicked at such a path, or at a path that is not text, or when `poll` fails; returned when it is told to.
Missing from the full statement: the source does not survive every path (`C133_pipe_false`, `C133_name_false`). -/
theorem C133_exact_partial (max : Nat) (turns : List Turn) (ho : ∀ t ∈ turns, Orders t) :
    (run true max turns).phase = ((turns.map fate).find? (· != .running)).getD .running :=
  (fold_phase max turns {} rfl fit_start ho).1

/-- **C133 (survival; part).**  If no path that the pattern matches is a pipe or the like, each that may be opened has a name that is text, and `poll` does not
fail, the source goes on until it is told to end — with directories, files that may not be read, files that come and go, and files that
are not text among the matches. -/
theorem C133_survives_partial (max : Nat) (turns : List Turn) (ho : ∀ t ∈ turns, Orders t)
    (hs : ∀ t ∈ turns, ∀ p ∈ t.found, (t.disk p).special p = some .denied ∨
      ((t.disk p).special p = none ∧ ∃ name : Str, p = name.flatMap String.utf8EncodeChar))
    (hp : ∀ t ∈ turns, t.polled ≠ none) :
    (run true max turns).phase = if ∃ t ∈ turns, t.polled = some true then .returned else .running := by
  rw [C133_exact_partial max turns ho]
  clear ho
  induction turns with
  | nil => rfl
  | cons t ts ih =>
    have hd : t.found.find? (Deadly t) = none := by
      refine List.find?_eq_none.2 fun p hq => ?_
      rcases hs t (by simp) p hq with h | h
      · simp [Deadly, h]
      · simp [Deadly, h.1]
    have hu : t.found.any (Unnamed t) = false := by
      refine List.any_eq_false.2 fun p hq => ?_
      rcases hs t (by simp) p hq with h | h
      · simp [Unnamed, h]
      · simp [Unnamed, (valid_iff p).2 h.2]
    have hf : fate t = match t.polled with
      | none => .panicked
      | some true => .returned
      | some false => .running := by simp only [fate, hd, hu]; rfl
    rw [List.map_cons, List.find?_cons, hf]
    cases hq : t.polled with
    | none => exact absurd hq (hp t (by simp))
    | some b =>
      cases b with
      | true =>
        have hb : (Phase.returned != Phase.running) = true := by decide
        simp [hq, hb]
      | false =>
        have := ih (fun t h => hs t (by simp [h])) (fun t h => hp t (by simp [h]))
        simp only [bne_self_eq_false]
        rw [this]
        simp [hq]

/-- **C133 (what is lost).**  A turn that ends before its lines are sent sends nothing: not the lines that were read, in the same turn, from files
there is nothing wrong with. -/
theorem C133_lost (max : Nat) (before after : List Turn) (t : Turn) (ho : ∀ u ∈ before ++ t :: after, Orders u)
    (h : ∃ p ∈ t.found, Deadly t p = true ∨ Unnamed t p = true) :
    (run true max (before ++ t :: after)).sent = (run true max before).sent := by
  simp only [run, if_true, List.foldl_append, List.foldl_cons]
  have hb := fold_phase max before {} rfl fit_start (fun u hu => ho u (by simp [hu]))
  by_cases hr : (before.foldl (turn max) {}).phase = .running
  · have hf : Fit (before.foldl (turn max) {}) := by
      refine hb.2 ?_
      rw [hr] at hb
      cases hq : (before.map fate).find? (· != .running) with
      | none => rfl
      | some ph =>
        have := List.find?_some hq
        rw [hq] at hb
        simp only [Option.getD_some] at hb
        rw [← hb.1] at this
        simp at this
    have hd : t.found.find? (Deadly t) ≠ none ∨ t.found.any (Unnamed t) = true := by
      obtain ⟨p, hp, h | h⟩ := h
      · left; intro hn
        exact absurd h (by simpa using List.find?_eq_none.1 hn p hp)
      · right; exact List.any_eq_true.2 ⟨p, hp, h⟩
    have hfate : fate t ≠ .running := by
      simp only [fate]
      cases hq : t.found.find? (Deadly t) with
      | some q => by_cases hb : (t.disk q).special q = some .blocks <;> simp [hb]
      | none => simp [hd.resolve_left (fun h => h hq)]
    rw [turn_dies max _ t hr hf (ho t (by simp)) hd, turn_ended max _ hfate]
  · rw [← List.foldl_cons (f := turn max), turn_ended max _ hr]

/-- Two states of which the second knows but one path. -/
private structure Part (p : Bytes) (s s' : State) : Prop where
  phase : s'.phase = s.phase
  watchers : s'.watchers = s.watchers.filter fun x => x.1 == p
  sent : s'.sent = s.sent.filter fun x => x.1 == p

private theorem short_of_nodup (p : Bytes) : ∀ ws : List (Bytes × Watcher), (ws.map (·.1)).Nodup → (ws.filter fun x => x.1 == p).length ≤ 1 := by
  intro ws
  induction ws with
  | nil => intro _; simp
  | cons x ws ih =>
    intro h
    simp only [List.map_cons, List.nodup_cons] at h
    by_cases hx : x.1 = p
    · have : (ws.filter fun x => x.1 == p) = [] := by
        refine List.filter_eq_nil_iff.2 fun y hy he => h.1 ?_
        rw [hx, ← beq_iff_eq.1 he]
        exact List.mem_map_of_mem hy
      simp [hx, this]
    · simpa [hx] using ih h.2

private theorem perm_short {α : Type} {a b : List α} (h : a.Perm b) (hb : b.length ≤ 1) : a = b := by
  cases b with
  | nil => exact List.perm_nil.1 h
  | cons x b =>
    cases b with
    | nil => exact List.perm_singleton.1 h
    | cons y b => simp at hb

private theorem flatMap_only (max : Nat) (t : Turn) (p : Bytes) : ∀ ws : List (Bytes × Watcher),
    (ws.filter fun x => x.1 == p).flatMap (linesOf max t) = (ws.flatMap (linesOf max t)).filter fun x => x.1 == p := by
  intro ws
  induction ws with
  | nil => rfl
  | cons x ws ih =>
    rw [List.flatMap_cons, List.filter_append]
    by_cases hx : x.1 = p
    · have : (linesOf max t x).filter (fun y => y.1 == p) = linesOf max t x := by
        refine List.filter_eq_self.2 fun y hy => ?_
        simp only [linesOf, List.mem_map] at hy
        obtain ⟨l, _, rfl⟩ := hy
        simpa using hx
      simp only [hx, beq_self_eq_true, List.filter_cons_of_pos, List.flatMap_cons, this, ih]
    · have : (linesOf max t x).filter (fun y => y.1 == p) = [] := by
        refine List.filter_eq_nil_iff.2 fun y hy => ?_
        simp only [linesOf, List.mem_map] at hy
        obtain ⟨l, _, rfl⟩ := hy
        simpa using hx
      have hb : (x.1 == p) = false := by simpa using hx
      rw [this, List.filter_cons, hb, List.nil_append, ← ih]; rfl

private theorem keep_only (max : Nat) (t : Turn) (p : Bytes) : ∀ ws : List (Bytes × Watcher),
    (ws.filter fun x => x.1 == p).filterMap (keep max t) = (ws.filterMap (keep max t)).filter fun x => x.1 == p := by
  intro ws
  induction ws with
  | nil => rfl
  | cons x ws ih =>
    by_cases hx : x.1 = p
    · have hb : (x.1 == p) = true := by simpa using hx
      rw [List.filter_cons, hb]
      simp only [if_true, List.filterMap_cons]
      cases hk : keep max t x with
      | none => exact ih
      | some y =>
        simp only
        rw [List.filter_cons, keep_key hk, hb, ih]; rfl
    · have hb : (x.1 == p) = false := by simpa using hx
      rw [List.filter_cons, hb]
      simp only [Bool.false_eq_true, if_false, List.filterMap_cons]
      cases hk : keep max t x with
      | none => exact ih
      | some y =>
        simp only
        rw [List.filter_cons, keep_key hk, hb]
        exact ih

private theorem part_turn (max : Nat) (p : Bytes) (t : Turn) (ho : Orders t) (s s' : State) (hp : Part p s s') (hr : s.phase = .running) (hf : Fit s) (hf' : Fit s')
    (hd : t.found.find? (Deadly t) = none) (hu : t.found.any (Unnamed t) = false) :
    Part p (turn max s t) (turn max s' (only p t)) ∧ Fit (turn max s t) ∧ Fit (turn max s' (only p t)) := by
  have hd' : (only p t).found.find? (Deadly (only p t)) = none := by
    refine List.find?_eq_none.2 fun q hq => ?_
    exact List.find?_eq_none.1 hd q (List.mem_filter.1 hq).1
  have hu' : (only p t).found.any (Unnamed (only p t)) = false := by
    refine List.any_eq_false.2 fun q hq => ?_
    exact List.any_eq_false.1 hu q (List.mem_filter.1 hq).1
  have hfate : fate (only p t) = fate t := by
    simp only [fate, hd, hu, hd', hu']
    rfl
  obtain ⟨c, e, _, hnd⟩ := turn_through max s t hr hf ho hd hu
  obtain ⟨c', e', _, _⟩ := turn_through max s' (only p t) (by rw [hp.phase, hr]) hf' ho hd' hu'
  have hws : (only p t).order (addAll (only p t).disk (only p t).found s'.watchers) =
      (t.order (addAll t.disk t.found s.watchers)).filter fun x => x.1 == p := by
    have h1 : addAll (only p t).disk (only p t).found s'.watchers = (addAll t.disk t.found s.watchers).filter fun x => x.1 == p := by
      rw [hp.watchers]; exact addAll_only t.disk p t.found s.watchers
    rw [h1]
    have hl := short_of_nodup p _ (nodup_addAll t.disk t.found _ hf.nodup)
    have e1 : t.order ((addAll t.disk t.found s.watchers).filter fun x => x.1 == p) = (addAll t.disk t.found s.watchers).filter fun x => x.1 == p :=
      perm_short (ho _) hl
    have e2 : (t.order (addAll t.disk t.found s.watchers)).filter (fun x => x.1 == p) = (addAll t.disk t.found s.watchers).filter fun x => x.1 == p :=
      perm_short ((ho _).filter _) hl
    rw [e2]; exact e1
  refine ⟨?_, (turn_fate max s t hr hf ho).2, (turn_fate max s' (only p t) (by rw [hp.phase, hr]) hf' ho).2⟩
  rw [e, e', hws, hfate]
  refine ⟨rfl, ?_, ?_⟩
  · exact keep_only max t p _
  · show s'.sent ++ _ = (s.sent ++ _).filter _
    rw [List.filter_append, ← hp.sent, ← flatMap_only]; rfl

/-- **C133 (each file on its own).**  While the source is alive, the lines sent from a path are those it would send if its pattern matched
nothing else: neither the directories, unreadable files and files that are not text among the matches, nor how much there is to read in other files, nor the
order of reading, nor the buffer they share, adds a line to a file's lines, or takes or changes one. -/
theorem C133_isolated (max : Nat) (p : Bytes) (turns : List Turn) (ho : ∀ t ∈ turns, Orders t)
    (ha : (run true max turns).phase = .running ∨ (run true max turns).phase = .returned) :
    (run true max (turns.map (only p))).sent = (run true max turns).sent.filter fun x => x.1 == p := by
  have key : ∀ (turns : List Turn) (s s' : State), (∀ t ∈ turns, Orders t) → Part p s s' → Fit s → Fit s' →
      ((turns.foldl (turn max) s).phase = .running ∨ (turns.foldl (turn max) s).phase = .returned) →
      Part p (turns.foldl (turn max) s) ((turns.map (only p)).foldl (turn max) s') := by
    intro turns
    induction turns with
    | nil => intro s s' _ h _ _ _; exact h
    | cons t ts ih =>
      intro s s' ho hp hf hf' ha
      by_cases hr : s.phase = .running
      · by_cases hd : t.found.find? (Deadly t) ≠ none ∨ t.found.any (Unnamed t) = true
        · exfalso
          have hfate : fate t ≠ .running ∧ fate t ≠ .returned := by
            simp only [fate]
            cases hq : t.found.find? (Deadly t) with
            | some q => by_cases hb : (t.disk q).special q = some .blocks <;> simp [hb]
            | none => simp [hd.resolve_left (fun h => h hq)]
          rw [List.foldl_cons, turn_dies max s t hr hf (ho t (by simp)) hd, turn_ended max _ hfate.1] at ha
          exact ha.elim hfate.1 hfate.2
        · have h1 : t.found.find? (Deadly t) = none := Classical.byContradiction fun h => hd (.inl h)
          have h2 : t.found.any (Unnamed t) = false := by
            cases h : t.found.any (Unnamed t) with
            | false => rfl
            | true => exact absurd (.inr h) hd
          obtain ⟨a, b, c⟩ := part_turn max p t (ho t (by simp)) s s' hp hr hf hf' h1 h2
          exact ih _ _ (fun t h => ho t (by simp [h])) a b c ha
      · rw [turn_ended max s hr, turn_ended max s' (by rw [hp.phase]; exact hr)]
        exact hp
  simp only [run, if_true] at ha ⊢
  exact (key turns {} {} ho ⟨rfl, rfl, rfl⟩ fit_start fit_start ha).sent

private theorem readLine_file (fuel : Nat) (disks : Nat → Disk) (hd : ∀ i, (disks 0).isDir i = false) (w : Watcher) (b : Bytes) :
    FileRun.readLine fuel disks w b = w.readLine fuel (fun k => (disks k).fs) b := by
  simp only [FileRun.readLine]
  generalize (if w.reopen = true then w.openAtStart (disks 0).fs else w) = w1
  cases w1.reader with
  | none => rfl
  | some r => simp [hd]

private theorem pollFile_file (max fuel turns : Nat) : ∀ (calls : Nat → Nat → Disk), (∀ n i, (calls n 0).isDir i = false) →
    ∀ (w : Watcher) (b : Bytes) (bytes : Nat) (lines : List Bytes), FileRun.pollFile max fuel turns calls w b bytes lines =
      (if (FileBytes.pollFile max fuel turns (fun n k => (calls n k).fs) w b bytes lines).1 then
        some (FileBytes.pollFile max fuel turns (fun n k => (calls n k).fs) w b bytes lines).2 else none) := by
  induction turns with
  | zero => intro calls _ w b bytes lines; rfl
  | succ turns ih =>
    intro calls hc w b bytes lines
    simp only [FileRun.pollFile, FileBytes.pollFile, readLine_file fuel (calls 0) (hc 0)]
    rcases w.readLine fuel (fun k => (calls 0 k).fs) b with ⟨o, b', w'⟩
    cases o with
    | panic => rfl
    | error => rfl
    | hangs => rfl
    | ok n =>
      by_cases hn : n > 0
      · simp only [hn, if_true]
        by_cases hm : bytes + n > max
        · simp only [hm, if_true]
        · simp only [hm, if_false]; exact ih _ (fun n => hc (n + 1)) _ _ _ _
      · simp only [hn, if_false, if_true]

/-- **C133 (what is read).**  What a turn sends from a file that is watched is what the polling of that file alone, of which C103 speaks, hands over, however many
files were read before it in the turn. -/
theorem C133_lines (max : Nat) (before : List Turn) (t : Turn) (ho : ∀ u ∈ before ++ [t], Orders u) (p : Bytes) (w : Watcher)
    (hw : (p, w) ∈ (run true max before).watchers) (hd : ∀ n i, (t.during p n 0).isDir i = false)
    (ha : (run true max (before ++ [t])).phase = .running ∨ (run true max (before ++ [t])).phase = .returned) (hr : (run true max before).phase = .running) :
    (run true max (before ++ [t])).sent.filter (fun x => x.1 == p) = (run true max before).sent.filter (fun x => x.1 == p) ++
      (FileBytes.pollFile max t.fuel t.calls (fun n k => (t.during p n k).fs) w [] 0 []).2.1.map fun l => (p, l) := by
  simp only [run, if_true, List.foldl_append, List.foldl_cons, List.foldl_nil] at hw ha hr ⊢
  have hb := fold_phase max before {} rfl fit_start (fun u hu => ho u (by simp [hu]))
  have hf : Fit (before.foldl (turn max) {}) := by
    refine hb.2 ?_
    rw [hr] at hb
    cases hq : (before.map fate).find? (· != .running) with
    | none => rfl
    | some ph =>
      have := List.find?_some hq
      rw [hq] at hb
      simp only [Option.getD_some] at hb
      rw [← hb.1] at this
      simp at this
  generalize before.foldl (turn max) {} = s at hw ha hr hf ⊢
  have hot := ho t (by simp)
  by_cases hdd : t.found.find? (Deadly t) ≠ none ∨ t.found.any (Unnamed t) = true
  · exfalso
    have hfate : fate t ≠ .running ∧ fate t ≠ .returned := by
      simp only [fate]
      cases hq : t.found.find? (Deadly t) with
      | some q => by_cases hb : (t.disk q).special q = some .blocks <;> simp [hb]
      | none => simp [hdd.resolve_left (fun h => h hq)]
    rw [turn_dies max s t hr hf hot hdd] at ha
    exact ha.elim hfate.1 hfate.2
  · have h1 : t.found.find? (Deadly t) = none := Classical.byContradiction fun h => hdd (.inl h)
    have h2 : t.found.any (Unnamed t) = false := by
      cases h : t.found.any (Unnamed t) with
      | false => rfl
      | true => exact absurd (.inr h) hdd
    obtain ⟨c, e, _, hnd⟩ := turn_through max s t hr hf hot h1 h2
    rw [e]
    show (s.sent ++ _).filter _ = _
    rw [List.filter_append]
    congr 1
    rw [← flatMap_only]
    have hmem : ∀ (found : List Bytes) (ws : List (Bytes × Watcher)), (p, w) ∈ ws → (p, w) ∈ addAll t.disk found ws := by
      intro found
      induction found with
      | nil => intro ws h; exact h
      | cons q qs ih =>
        intro ws h
        refine ih _ ?_
        dsimp only
        by_cases hs : (t.disk q).special q = none
        · by_cases hm : q ∈ ws.map (·.1)
          · rw [if_pos hs, if_pos hm]; exact h
          · rw [if_pos hs, if_neg hm]; simp [h]
        · rw [if_neg hs]; exact h
    have hin : (p, w) ∈ (t.order (addAll t.disk t.found s.watchers)).filter fun x => x.1 == p :=
      List.mem_filter.2 ⟨(hot _).mem_iff.2 (hmem _ _ hw), by simp⟩
    have hl := short_of_nodup p _ hnd
    have hone : (t.order (addAll t.disk t.found s.watchers)).filter (fun x => x.1 == p) = [(p, w)] := by
      revert hin hl
      generalize (t.order (addAll t.disk t.found s.watchers)).filter (fun x => x.1 == p) = l
      intro hin hl
      match l, hin, hl with
      | [x], hin, _ => rw [List.mem_singleton.1 hin]
      | _ :: _ :: _, _, hl => simp at hl
    rw [hone]
    have hfine := C103_buffer max t.fuel t.calls (fun n k => (t.during p n k).fs) w 0 []
    have := one_eq max t p w
    rw [pollFile_file max t.fuel t.calls (t.during p) hd, hfine.1] at this
    simp only [if_true, Option.some.injEq] at this
    simp only [List.flatMap_cons, List.flatMap_nil, List.append_nil, linesOf]
    rw [this]

/-- A pattern that is not UTF-8, or that `glob` does not take, ends the source in its first turn. -/
theorem C133_pattern_false (max : Nat) (t : Turn) (ts : List Turn) : (run false max (t :: ts)).phase = .panicked ∧ (run false max (t :: ts)).sent = [] :=
  ⟨rfl, rfl⟩

/-! ## Cases -/

private def quiet : FS := { files := fun _ => [97, 10], paths := fun _ => none }
private def written : FS := { files := fun _ => [97, 10], paths := fun _ => some 0 }
private def longer : FS := { files := fun _ => [97, 10, 98, 10], paths := fun _ => some 0 }
private def seen (found : List Bytes) (now during : Disk) : Turn := { found := found, disk := fun _ => now, during := fun _ _ _ => during, fuel := 10, calls := 5 }

/-- **C133 is false of pipes.**  A matched pipe ends the source, and a line that was written to a proper file is not sent; a pipe that nobody writes to blocks it for
good. -/
theorem C133_pipe_false :
    (run true 100 [seen [[97]] { fs := written } { fs := written }, seen [[97]] { fs := longer } { fs := longer }]).sent = [([97], [98])] ∧
    (run true 100 [seen [[97]] { fs := written } { fs := written },
      seen [[97], [98]] { fs := longer, special := fun p => if p = [98] then some .noSeek else none } { fs := longer }]).phase = .panicked ∧
    (run true 100 [seen [[97]] { fs := written } { fs := written },
      seen [[97], [98]] { fs := longer, special := fun p => if p = [98] then some .noSeek else none } { fs := longer }]).sent = [] ∧
    (run true 100 [seen [[97]] { fs := written } { fs := written },
      seen [[97], [98]] { fs := longer, special := fun p => if p = [98] then some .blocks else none } { fs := longer }]).phase = .blocked := by
  decide +kernel

/-- **C133 is false of names that are not text.**  A matched file whose name is not UTF-8 ends the source, even if there is nothing in it, and a line
that was written to another file is not sent. -/
theorem C133_name_false :
    (run true 100 [seen [[255]] { fs := quiet } { fs := quiet }]).phase = .panicked ∧
    (run true 100 [seen [[97]] { fs := written } { fs := written }, seen [[97], [255]] { fs := longer } { fs := longer }]).phase = .panicked ∧
    (run true 100 [seen [[97]] { fs := written } { fs := written }, seen [[97], [255]] { fs := longer } { fs := longer }]).sent = [] := by
  decide +kernel

/-- A file that may not be opened is passed over, and so is a directory: the other file is read. -/
example : (run true 100 [seen [[97], [98]] { fs := written, special := fun p => if p = [98] then some .denied else none } { fs := written },
      seen [[97], [98]] { fs := longer, special := fun p => if p = [98] then some .denied else none } { fs := longer }]).sent = [([97], [98])] ∧
    (run true 100 [seen [[98]] { fs := written, isDir := fun _ => true } { fs := written, isDir := fun _ => true },
      seen [[98]] { fs := longer, isDir := fun _ => true } { fs := longer, isDir := fun _ => true }]).phase = .running ∧
    (run true 100 [seen [[98]] { fs := written, isDir := fun _ => true } { fs := written, isDir := fun _ => true },
      seen [[98]] { fs := longer, isDir := fun _ => true } { fs := longer, isDir := fun _ => true }]).sent = [] := by
  decide +kernel

/-- Two files, read in either order. -/
example : (run true 100 [seen [[97], [98]] { fs := written } { fs := written },
      { seen [[97], [98]] { fs := longer } { fs := longer } with order := List.reverse }]).sent = [([98], [98]), ([97], [98])] := by
  decide +kernel

example : Orders { seen [[97], [98]] { fs := longer } { fs := longer } with order := List.reverse } := fun ws => List.reverse_perm ws

end Verif
