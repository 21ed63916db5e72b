import Verif.Lemmas.File
import Verif.Spec.Files
import Verif.Props.SinkImpls
/-!
# C122 — from several watched files to the sinks
-/
namespace Verif
open File

variable {F : Type} [F64 F]

private theorem readLine_path (fs : FS) (w : Watcher) : (w.readLine fs).2.path = w.path := by
  have ho : ∀ v : Watcher, (v.openAtStart fs).path = v.path := by
    intro v; unfold Watcher.openAtStart; split <;> rfl
  simp only [Watcher.readLine]
  have h1 : (if w.reopen = true then w.openAtStart fs else w).path = w.path := by
    split
    · exact ho w
    · rfl
  generalize (if w.reopen = true then w.openAtStart fs else w) = w1 at h1
  cases w1.reader with
  | none => simp only; rw [ho]; exact h1
  | some ip =>
    simp only
    split <;> split <;> exact h1

private theorem pollFile_path (max fuel : Nat) : ∀ (fss : Nat → FS) (w : Watcher) (n : Nat) (ls : List Text),
    (pollFile max fuel fss w n ls).2.2.path = w.path := by
  induction fuel with
  | zero => intro fss w n ls; rfl
  | succ fuel ih =>
    intro fss w n ls
    have hp := readLine_path (fss 0) w
    rcases hrl : w.readLine (fss 0) with ⟨⟨sz, buf⟩, w1⟩
    rw [hrl] at hp
    simp only [pollFile, hrl]
    split
    · split
      · exact hp
      · rw [ih]; exact hp
    · exact hp

/-- no two watchers of a path -/
private def Single (ws : List Watcher) : Prop := (ws.map (·.path)).Nodup

private theorem globPoll_single (fs : FS) (found : List Str) : ∀ ws, Single ws → Single (globPoll fs found ws) := by
  induction found with
  | nil => intro ws h; exact h
  | cons q found ih =>
    intro ws h
    simp only [globPoll]
    apply ih
    split
    · exact h
    · next hn =>
      have hq : ∀ w ∈ ws, w.path ≠ q := by
        intro w hw he; exact hn (List.any_eq_true.2 ⟨w, hw, by simpa using he⟩)
      have hnew : (Watcher.new fs q).path = q := by unfold Watcher.new; split <;> rfl
      simp only [Single, List.map_append, List.map_cons, List.map_nil, hnew]
      rw [List.nodup_append]
      refine ⟨h, by simp, ?_⟩
      intro a ha b hb
      simp only [List.mem_singleton] at hb
      obtain ⟨w, hw, rfl⟩ := List.mem_map.1 ha
      rw [hb]; exact hq w hw

private theorem globPoll_find (fs : FS) (p : Str) (found : List Str) : ∀ ws,
    (globPoll fs found ws).find? (fun w => w.path = p) =
      (ws.find? (fun w => w.path = p)).or (if p ∈ found then some (Watcher.new fs p) else none) := by
  induction found with
  | nil => intro ws; simp [globPoll]
  | cons q found ih =>
    intro ws
    have hnew : ∀ q, (Watcher.new fs q).path = q := by intro q; unfold Watcher.new; split <;> rfl
    simp only [globPoll]
    rw [ih]
    by_cases hany : ws.any (fun w => w.path = q) = true
    · rw [if_pos hany]
      by_cases hpq : p = q
      · subst hpq
        obtain ⟨w, hw⟩ : ∃ w, ws.find? (fun w => w.path = p) = some w := by
          rw [← Option.isSome_iff_exists, List.find?_isSome]
          obtain ⟨w, h1, h2⟩ := List.any_eq_true.1 hany
          exact ⟨w, h1, h2⟩
        simp [hw]
      · simp [hpq]
    · rw [if_neg hany, List.find?_append]
      by_cases hpq : p = q
      · subst hpq
        have : ws.find? (fun w => w.path = p) = none := by
          rw [List.find?_eq_none]
          intro w hw he
          exact hany (List.any_eq_true.2 ⟨w, hw, he⟩)
        simp [this, hnew]
      · have : ¬ (Watcher.new fs q).path = p := by rw [hnew]; exact fun e => hpq e.symm
        simp [this, hpq]

/-- one pass over one watcher -/
private def one (max : Nat) (fs : FS) (w : Watcher) : List Text × Nat × Watcher := pollFile max (max + 2) (fun _ => fs) w 0 []

private theorem pollAll_one (max : Nat) (fs : FS) (p : Str) : ∀ ws, Single ws →
    Single (pollAll max fs ws).2.2 ∧ (∀ w ∈ (pollAll max fs ws).2.2, ∃ v ∈ ws, v.path = w.path) ∧
    ((pollAll max fs ws).1.filter fun x => x.1 = p).map (·.2) =
      (match ws.find? (fun w => w.path = p) with | some w => (one max fs w).1 | none => []) ∧
    (pollAll max fs ws).2.2.find? (fun w => w.path = p) =
      (match ws.find? (fun w => w.path = p) with
       | some w => if (one max fs w).2.2.dead then none else some (one max fs w).2.2
       | none => none) := by
  intro ws
  induction ws with
  | nil => intro _; simp [pollAll, Single]
  | cons w ws ih =>
    intro hs
    obtain ⟨hn, hs'⟩ := List.nodup_cons.1 (show (w.path :: ws.map (·.path)).Nodup from hs)
    obtain ⟨i1, i2, i3, i4⟩ := ih hs'
    have hpath : (one max fs w).2.2.path = w.path := pollFile_path _ _ _ _ _ _
    have hmem : ∀ v ∈ (pollAll max fs ws).2.2, v.path ≠ w.path := by
      intro v hv he
      obtain ⟨u, hu, hue⟩ := i2 v hv
      exact hn (List.mem_map.2 ⟨u, hu, by rw [hue, he]⟩)
    have hall : pollAll max fs (w :: ws) = ((one max fs w).1.map (w.path, ·) ++ (pollAll max fs ws).1,
        (one max fs w).2.1 + (pollAll max fs ws).2.1,
        if (one max fs w).2.2.dead then (pollAll max fs ws).2.2 else (one max fs w).2.2 :: (pollAll max fs ws).2.2) := rfl
    rw [hall]
    simp only
    refine ⟨?_, ?_, ?_, ?_⟩
    · split
      · exact i1
      · refine List.nodup_cons.2 ⟨?_, i1⟩
        intro hm
        obtain ⟨v, hv, he⟩ := List.mem_map.1 hm
        exact hmem v hv (he.trans hpath)
    · intro v hv
      split at hv
      · obtain ⟨u, hu, hue⟩ := i2 v hv; exact ⟨u, by simp [hu], hue⟩
      · rcases List.mem_cons.1 hv with rfl | hv
        · exact ⟨w, by simp, hpath.symm⟩
        · obtain ⟨u, hu, hue⟩ := i2 v hv; exact ⟨u, by simp [hu], hue⟩
    · rw [List.filter_append, List.map_append, i3]
      by_cases hp : w.path = p
      · have hnone : ws.find? (fun w => w.path = p) = none := by
          rw [List.find?_eq_none]
          intro v hv he
          exact hn (List.mem_map.2 ⟨v, hv, by rw [hp]; simpa using he⟩)
        rw [hnone]
        rw [List.find?_cons_of_pos (by simpa using hp)]
        simp only [List.append_nil]
        rw [List.filter_eq_self.2 (by intro x hx; obtain ⟨y, -, rfl⟩ := List.mem_map.1 hx; simpa using hp)]
        simp [List.map_map, Function.comp_def]
      · rw [List.find?_cons_of_neg (by simpa using hp)]
        have : ((one max fs w).1.map (w.path, ·)).filter (fun x => x.1 = p) = [] := by
          rw [List.filter_eq_nil_iff]
          intro x hx
          obtain ⟨y, -, rfl⟩ := List.mem_map.1 hx
          simpa using hp
        rw [this]
        simp
    · by_cases hp : w.path = p
      · have hnone : ws.find? (fun w => w.path = p) = none := by
          rw [List.find?_eq_none]
          intro v hv he
          exact hn (List.mem_map.2 ⟨v, hv, by rw [hp]; simpa using he⟩)
        rw [List.find?_cons_of_pos (by simpa using hp)]
        rw [hnone] at i4
        simp only at i4 ⊢
        by_cases hd : (one max fs w).2.2.dead = true
        · rw [if_pos hd, if_pos hd]; exact i4
        · rw [if_neg hd, if_neg hd, List.find?_cons_of_pos (by rw [hpath]; simpa using hp)]
      · rw [List.find?_cons_of_neg (by simpa using hp), ← i4]
        split
        · rfl
        · rw [List.find?_cons_of_neg (by rw [hpath]; simpa using hp)]

/-- the watcher of a path after the glob poll -/
private def watcherOf (s : Server) (p : Str) (x : FS × List Str) : Option Watcher :=
  (s.watchers.find? (fun w => w.path = p)).or (if p ∈ x.2 then some (Watcher.new x.1 p) else none)

private theorem pass_one (s : Server) (p : Str) (x : FS × List Str) (hs : Single s.watchers) :
    Single (s.pass x.1 x.2).1.watchers ∧ (s.pass x.1 x.2).1.maxReadBytes = s.maxReadBytes ∧
    (s.pass x.1 x.2).1.sentOf p = s.sentOf p ++
      (match watcherOf s p x with | some w => (one s.maxReadBytes x.1 w).1 | none => []) ∧
    (s.pass x.1 x.2).1.watchers.find? (fun w => w.path = p) =
      (match watcherOf s p x with
       | some w => if (one s.maxReadBytes x.1 w).2.2.dead then none else some (one s.maxReadBytes x.1 w).2.2
       | none => none) := by
  obtain ⟨h1, -, h3, h4⟩ := pollAll_one s.maxReadBytes x.1 p (globPoll x.1 x.2 s.watchers) (globPoll_single _ _ _ hs)
  rw [globPoll_find] at h3 h4
  refine ⟨h1, rfl, ?_, h4⟩
  simp only [Server.sentOf, Server.pass, List.filter_append, List.map_append]
  congr 1

/-- the watcher has `pending` to read in the file the path names -/
private structure Reading (fs : FS) (w : Watcher) (i : Nat) (pending : List Text) : Prop where
  paths : fs.paths w.path = some i
  fileId : w.fileId = some i
  reopen : w.reopen = false
  size : w.previousSize ≤ size (fs.files i)
  lines : ∀ l ∈ pending, '\n' ∉ l
  reader : ∃ pos, w.reader = some (i, pos) ∧ pos ≤ (fs.files i).length ∧ (fs.files i).drop pos = joinLines pending

private theorem pollFile_reading (max fuel : Nat) (fs : FS) (i : Nat) : ∀ (w : Watcher) (pending : List Text) (n : Nat) (ls : List Text),
    Reading fs w i pending → ∃ m, (pollFile max fuel (fun _ => fs) w n ls).1 = ls ++ (pending.take m).filter (· ≠ []) ∧
      Reading fs (pollFile max fuel (fun _ => fs) w n ls).2.2 i (pending.drop m) ∧ (0 < fuel → 1 ≤ m ∨ pending = []) := by
  induction fuel with
  | zero => intro w pending n ls h; exact ⟨0, by simp [pollFile], by simpa [pollFile] using h, by simp⟩
  | succ fuel ih =>
    intro w pending n ls h
    obtain ⟨pos, r1, r2, r3⟩ := h.reader
    have hr := readLine_open fs w i pos pending r1 h.reopen r3 h.size h.lines
    cases pending with
    | nil =>
      simp only at hr
      refine ⟨0, ?_, ?_, by simp⟩
      · simp [pollFile, hr]
      · simp only [pollFile, hr, Nat.lt_irrefl, if_false, List.drop_nil]
        exact ⟨h.paths, h.fileId, by simp [FS.fileId, h.paths, h.fileId], Nat.le_refl _, by simp, pos, r1, r2, r3⟩
    | cons l rest =>
      simp only at hr
      obtain ⟨d1, d2⟩ := drop_line _ _ _ _ r3
      have hnext : Reading fs { w with previousSize := size (fs.files i), reader := some (i, pos + (l.length + 1)) } i rest :=
        ⟨h.paths, h.fileId, h.reopen, Nat.le_refl _, fun x hx => h.lines x (by simp [hx]), _, rfl, d2, d1⟩
      by_cases hl : l = []
      · subst hl
        simp only [pollFile, hr, show size ([] : Text) = 0 from rfl, Nat.lt_irrefl, if_false]
        exact ⟨1, by simp, by simpa using hnext, fun _ => Or.inl (Nat.le_refl _)⟩
      simp only [pollFile, hr, if_pos (size_pos hl)]
      split
      · exact ⟨1, by simp [hl], by simpa using hnext, fun _ => Or.inl (Nat.le_refl _)⟩
      · obtain ⟨m, e1, e2, -⟩ := ih _ rest (n + size l) (ls ++ [l]) hnext
        exact ⟨m + 1, by rw [e1]; simp [hl], by simpa using e2, fun _ => Or.inl (by omega)⟩

private theorem reading_alive {fs : FS} {w : Watcher} {i : Nat} {pending : List Text} (h : Reading fs w i pending) : w.dead = false := by
  obtain ⟨pos, r1, -⟩ := h.reader
  simp [Watcher.dead, r1]

private theorem reading_grow {fs fs' : FS} {w : Watcher} {i : Nat} {pending new : List Text} (h : Reading fs w i pending)
    (hp : fs'.paths w.path = some i) (hf : fs'.files i = fs.files i ++ joinLines new) (hn : ∀ l ∈ new, '\n' ∉ l) :
    Reading fs' w i (pending ++ new) := by
  obtain ⟨pos, r1, r2, r3⟩ := h.reader
  refine ⟨hp, h.fileId, h.reopen, ?_, ?_, pos, r1, ?_, ?_⟩
  · rw [hf, size_append]; have := h.size; omega
  · intro l hl; rcases List.mem_append.1 hl with hl | hl
    · exact h.lines l hl
    · exact hn l hl
  · rw [hf, List.length_append]; omega
  · rw [hf, List.drop_append_of_le_length r2, r3, joinLines_append]

/-- the server's watcher of the path reads -/
private structure At (s : Server) (p : Str) (i : Nat) (t : Text) (all : List Text) (n : Nat) : Prop where
  single : Single s.watchers
  sent : s.sentOf p = (all.take n).filter (· ≠ [])
  bound : n ≤ all.length
  watcher : ∃ fs w, s.watchers.find? (fun w => w.path = p) = some w ∧ w.path = p ∧ fs.files i = t ∧ Reading fs w i (all.drop n)

private theorem at_pass {s : Server} {p : Str} {i : Nat} {t : Text} {all : List Text} {n : Nat} (h : At s p i t all n)
    (x : FS × List Str) (new : List Text) (hn : ∀ l ∈ new, '\n' ∉ l) (hx : Sees p i (t ++ joinLines new) x) :
    ∃ m, At (s.pass x.1 x.2).1 p i (t ++ joinLines new) (all ++ new) m ∧ n ≤ m ∧ (n < m ∨ m = (all ++ new).length) := by
  obtain ⟨fs, w, w1, w2, w3, w4⟩ := h.watcher
  obtain ⟨p1, p2, p3, p4⟩ := pass_one s p x h.single
  have hw : watcherOf s p x = some w := by simp [watcherOf, w1]
  rw [hw] at p3 p4
  have hr := reading_grow (fs' := x.1) w4 (by rw [w2]; exact hx.1) (by rw [w3]; exact hx.2) hn
  obtain ⟨m, e1, e2, e3⟩ := pollFile_reading s.maxReadBytes (s.maxReadBytes + 2) x.1 i w _ 0 [] hr
  have hd : all.drop n ++ new = (all ++ new).drop n := by rw [List.drop_append_of_le_length h.bound]
  rw [hd] at e1 e2 e3
  have hone : (one s.maxReadBytes x.1 w).1 = (((all ++ new).drop n).take m).filter (· ≠ []) := by rw [one, e1]; simp
  have hpath : (one s.maxReadBytes x.1 w).2.2.path = p := by rw [one, pollFile_path, w2]
  have hb : n ≤ (all ++ new).length := by have := h.bound; simp only [List.length_append]; omega
  refine ⟨min (n + m) (all ++ new).length, ⟨p1, ?_, Nat.min_le_right _ _, x.1, (one s.maxReadBytes x.1 w).2.2, ?_, hpath, hx.2, ?_⟩, by omega, ?_⟩
  · rw [p3, h.sent]
    simp only
    rw [hone]
    have : all.take n = (all ++ new).take n := by rw [List.take_append_of_le_length h.bound]
    rw [this, ← List.filter_append, ← List.take_add]
    by_cases hle : n + m ≤ (all ++ new).length
    · rw [Nat.min_eq_left hle]
    · rw [Nat.min_eq_right (by omega), List.take_of_length_le (by omega), List.take_of_length_le (Nat.le_refl _)]
  · rw [p4]
    simp only
    rw [if_neg (by rw [show (one s.maxReadBytes x.1 w).2.2.dead = false from reading_alive e2]; simp)]
  · have : ((all ++ new).drop n).drop m = (all ++ new).drop (min (n + m) (all ++ new).length) := by
      rw [List.drop_drop]
      by_cases hle : n + m ≤ (all ++ new).length
      · rw [Nat.min_eq_left hle]
      · rw [Nat.min_eq_right (by omega), List.drop_of_length_le (by omega), List.drop_of_length_le (Nat.le_refl _)]
    rw [← this]; exact e2
  · by_cases hle : n = (all ++ new).length
    · right; omega
    · rcases e3 (by omega) with h1 | h1
      · omega
      · exfalso; have := congrArg List.length h1; simp only [List.length_drop, List.length_nil] at this; omega

private theorem at_grows (p : Str) (i : Nat) : ∀ (later : List ((FS × List Str) × List Text)) (s : Server) (t : Text) (all : List Text) (n : Nat),
    At s p i t all n → Grows p i t later → ∃ m, At (s.passes (later.map (·.1))) p i
      (t ++ joinLines (later.flatMap (·.2))) (all ++ later.flatMap (·.2)) m := by
  intro later
  induction later with
  | nil => intro s t all n h _; exact ⟨n, by simpa [Server.passes, joinLines] using h⟩
  | cons x later ih =>
    intro s t all n h hg
    obtain ⟨g1, g2, g3⟩ := hg
    obtain ⟨m, hm, -⟩ := at_pass h x.1 x.2 g1 g2
    obtain ⟨m', hm'⟩ := ih _ _ _ _ hm g3
    refine ⟨m', ?_⟩
    have hp : s.passes ((x :: later).map (·.1)) = (s.pass x.1.1 x.1.2).1.passes (later.map (·.1)) := rfl
    rw [hp]
    simpa [joinLines_append, List.append_assoc] using hm'

private theorem at_quiet (p : Str) (i : Nat) (t : Text) (all : List Text) : ∀ (quiet : List (FS × List Str)) (s : Server) (n : Nat),
    At s p i t all n → (∀ x ∈ quiet, Sees p i t x) → all.length ≤ n + quiet.length →
    (s.passes quiet).sentOf p = all.filter (· ≠ []) := by
  intro quiet
  induction quiet with
  | nil =>
    intro s n h _ hl
    simp only [Server.passes, List.foldl_nil, h.sent]
    rw [List.take_of_length_le (by simpa using hl)]
  | cons x quiet ih =>
    intro s n h hq hl
    obtain ⟨m, hm, h1, h2⟩ := at_pass h x [] (by simp) (by simpa [joinLines] using hq x (by simp))
    have hm' : At (s.pass x.1 x.2).1 p i t all m := by simpa [joinLines] using hm
    simp only [List.length_cons, List.append_nil] at hl h2
    exact ih (s.pass x.1 x.2).1 m hm' (fun y hy => hq y (by simp [hy])) (by omega)

private theorem passes_before (p : Str) : ∀ (before : List (FS × List Str)) (s : Server), Single s.watchers →
    s.watchers.find? (fun w => w.path = p) = none → (∀ x ∈ before, p ∉ x.2) →
    Single (s.passes before).watchers ∧ (s.passes before).watchers.find? (fun w => w.path = p) = none ∧
    (s.passes before).sentOf p = s.sentOf p ∧ (s.passes before).maxReadBytes = s.maxReadBytes := by
  intro before
  induction before with
  | nil => intro s h1 h2 _; exact ⟨h1, h2, rfl, rfl⟩
  | cons x before ih =>
    intro s h1 h2 hb
    obtain ⟨p1, p2, p3, p4⟩ := pass_one s p x h1
    have hw : watcherOf s p x = none := by simp [watcherOf, h2, hb x (by simp)]
    rw [hw] at p3 p4
    simp only [List.append_nil] at p3 p4
    obtain ⟨i1, i2, i3, i4⟩ := ih (s.pass x.1 x.2).1 p1 p4 fun y hy => hb y (by simp [hy])
    exact ⟨i1, i2, by rw [← p3]; exact i3, i4.trans p2⟩

private theorem at_first (max : Nat) (p : Str) (i : Nat) (content : Text) (before : List (FS × List Str)) (first : FS × List Str)
    (hb : ∀ x ∈ before, p ∉ x.2) (hf : p ∈ first.2) (hs : Sees p i content first) :
    At ((Server.mk max [] 1 []).passes (before ++ [first])) p i content [] 0 := by
  obtain ⟨b1, b2, b3, b4⟩ := passes_before p before (Server.mk max [] 1 []) (by simp [Single]) rfl hb
  have hp : (Server.mk max [] 1 []).passes (before ++ [first]) =
      (((Server.mk max [] 1 []).passes before).pass first.1 first.2).1 := by simp [Server.passes]
  rw [hp]
  generalize (Server.mk max [] 1 []).passes before = s at b1 b2 b3 b4
  obtain ⟨p1, p2, p3, p4⟩ := pass_one s p first b1
  have hw : watcherOf s p first = some (Watcher.new first.1 p) := by simp [watcherOf, b2, hf]
  rw [hw] at p3 p4
  have hnew : Watcher.new first.1 p = ⟨p, some (i, (first.1.files i).length), some i, 0, false⟩ := by
    simp [Watcher.new, hs.1]
  have hr : Reading first.1 (Watcher.new first.1 p) i [] := by
    rw [hnew]
    exact ⟨hs.1, rfl, rfl, Nat.zero_le _, by simp, _, rfl, Nat.le_refl _, by simp [joinLines]⟩
  obtain ⟨m, e1, e2, -⟩ := pollFile_reading s.maxReadBytes (s.maxReadBytes + 2) first.1 i _ _ 0 [] hr
  simp only [List.take_nil, List.filter_nil, List.append_nil, List.drop_nil] at e1 e2
  refine ⟨p1, ?_, Nat.le_refl _, first.1, (one s.maxReadBytes first.1 (Watcher.new first.1 p)).2.2, ?_, ?_, hs.2, e2⟩
  · rw [p3, b3]; simp [Server.sentOf, one, e1]
  · rw [p4]
    simp only
    rw [if_neg (by rw [show (one s.maxReadBytes first.1 (Watcher.new first.1 p)).2.2.dead = false from reading_alive e2]; simp)]
  · rw [one, pollFile_path, hnew]

/-- **C122 (the file source).**  A file is first matched by the pattern in some pass; in later passes whole lines have been
appended to it.  Whatever happens to all other paths and files, and whatever else the pattern matches: what the server has sent of this file are the
first of the lines appended but the blank ones, in order and once each; and after as many further passes as lines are left, all but the blank ones. -/
theorem C122_each_file (max : Nat) (p : Str) (i : Nat) (content : Text) (before : List (FS × List Str)) (first : FS × List Str)
    (hb : ∀ x ∈ before, p ∉ x.2) (hf : p ∈ first.2) (hs : Sees p i content first)
    (later : List ((FS × List Str) × List Text)) (hg : Grows p i content later) :
    let lines := later.flatMap (·.2)
    let s := (Server.mk max [] 1 []).passes (before ++ first :: later.map (·.1))
    ∃ n ≤ lines.length, s.sentOf p = (lines.take n).filter (· ≠ []) ∧
      ∀ quiet : List (FS × List Str), (∀ x ∈ quiet, Sees p i (content ++ joinLines lines) x) → lines.length ≤ n + quiet.length →
        (s.passes quiet).sentOf p = lines.filter (· ≠ []) := by
  have h0 := at_first max p i content before first hb hf hs
  obtain ⟨n, hn⟩ := at_grows p i later _ _ _ _ h0 hg
  have hp : ((Server.mk max [] 1 []).passes (before ++ [first])).passes (later.map (·.1)) =
      (Server.mk max [] 1 []).passes (before ++ first :: later.map (·.1)) := by
    simp [Server.passes]
  rw [hp, List.nil_append] at hn
  exact ⟨n, hn.bound, hn.sent, fun quiet hq hl => at_quiet p i _ _ quiet _ n hn hq hl⟩

/-- the file the watcher has open is one of these -/
private def Within (I : Nat → Prop) (w : Watcher) : Prop := ∀ i pos, w.reader = some (i, pos) → I i

private theorem openAtStart_within (I : Nat → Prop) (fs : FS) (w : Watcher) (hI : ∀ i, fs.paths w.path = some i → I i) :
    Within I (w.openAtStart fs) := by
  unfold Watcher.openAtStart
  split
  · next i hi => intro j pos hj; simp only [Option.some.injEq, Prod.mk.injEq] at hj; rw [← hj.1]; exact hI i hi
  · intro j pos hj; simp at hj

private theorem openAtStart_agree (I : Nat → Prop) (fs gs : FS) (w : Watcher) (hp : fs.paths w.path = gs.paths w.path)
    (hI : ∀ i, fs.paths w.path = some i → I i) (hf : ∀ i, I i → fs.files i = gs.files i) :
    w.openAtStart fs = w.openAtStart gs := by
  unfold Watcher.openAtStart
  rw [← hp]
  split
  · next i hi => rw [hf i (hI i hi)]
  · rfl

private theorem readLine_agree (I : Nat → Prop) (fs gs : FS) (w : Watcher) (hw : Within I w)
    (hp : fs.paths w.path = gs.paths w.path)
    (hI : ∀ i, fs.paths w.path = some i → I i) (hf : ∀ i, I i → fs.files i = gs.files i) :
    w.readLine fs = w.readLine gs ∧ Within I (w.readLine fs).2 := by
  have ho := openAtStart_agree I fs gs w hp hI hf
  have hpath : (if w.reopen = true then w.openAtStart fs else w).path = w.path := by
    split
    · unfold Watcher.openAtStart; split <;> rfl
    · rfl
  have hin : Within I (if w.reopen = true then w.openAtStart fs else w) := by
    split
    · exact openAtStart_within I fs w hI
    · exact hw
  simp only [Watcher.readLine, ← ho]
  generalize (if w.reopen = true then w.openAtStart fs else w) = v at hpath hin
  rw [← hpath] at hp hI
  cases hr : v.reader with
  | none => exact ⟨by rw [openAtStart_agree I fs gs v hp hI hf], openAtStart_within I fs v hI⟩
  | some ip =>
    have hi := hin ip.1 ip.2 hr
    simp only [FS.fileId, ← hp, ← hf ip.1 hi]
    refine ⟨rfl, ?_⟩
    generalize (if v.previousSize > size (fs.files ip.1) then 0 else ip.2) = q
    by_cases hl : takeLine (List.drop q (fs.files ip.1)) = []
    · rw [if_pos hl]
      intro j pos hj
      simp only [Option.some.injEq, Prod.mk.injEq] at hj
      rw [← hj.1]; exact hi
    · rw [if_neg hl]
      intro j pos hj
      simp only [Option.some.injEq, Prod.mk.injEq] at hj
      rw [← hj.1]; exact hi

private theorem pollFile_agree (I : Nat → Prop) (max fuel : Nat) (fs gs : FS) : ∀ (w : Watcher) (n : Nat) (ls : List Text), Within I w →
    fs.paths w.path = gs.paths w.path → (∀ i, fs.paths w.path = some i → I i) → (∀ i, I i → fs.files i = gs.files i) →
    pollFile max fuel (fun _ => fs) w n ls = pollFile max fuel (fun _ => gs) w n ls ∧
    Within I (pollFile max fuel (fun _ => fs) w n ls).2.2 := by
  induction fuel with
  | zero => intro w n ls hw _ _ _; exact ⟨rfl, hw⟩
  | succ fuel ih =>
    intro w n ls hw hp hI hf
    obtain ⟨h1, h2⟩ := readLine_agree I fs gs w hw hp hI hf
    have hpath := readLine_path fs w
    simp only [pollFile, ← h1]
    rcases hrl : w.readLine fs with ⟨⟨sz, buf⟩, w1⟩
    rw [hrl] at h2 hpath
    simp only at h2 hpath ⊢
    by_cases hz : sz > 0
    · simp only [if_pos hz]
      by_cases hm : n + sz > max
      · simp only [if_pos hm]; exact ⟨trivial, h2⟩
      · simp only [if_neg hm]
        exact ih w1 (n + sz) (ls ++ [buf]) h2 (by rw [hpath]; exact hp) (by rw [hpath]; exact hI) hf
    · simp only [if_neg hz]; exact ⟨trivial, h2⟩

/-- **C122 (files do not disturb each other).**  Two runs of the server in which a path is matched by the pattern in the same passes and
names the same files, with the same contents of those files, send the same lines of that path in the same order — whatever
happens to everything else in either, and whether the file is appended to, truncated, replaced or removed. -/
theorem C122_independent (max : Nat) (p : Str) (zs : List ((FS × List Str) × (FS × List Str)))
    (h : ∀ z ∈ zs, (p ∈ z.1.2 ↔ p ∈ z.2.2) ∧ z.1.1.paths p = z.2.1.paths p ∧
      ∀ (i : Nat), (∃ y ∈ zs, y.1.1.paths p = some i) → z.1.1.files i = z.2.1.files i) :
    ((Server.mk max [] 1 []).passes (zs.map (·.1))).sentOf p = ((Server.mk max [] 1 []).passes (zs.map (·.2))).sentOf p := by
  have key : ∀ (I : Nat → Prop) (zs : List ((FS × List Str) × (FS × List Str))) (s r : Server),
      (∀ z ∈ zs, (p ∈ z.1.2 ↔ p ∈ z.2.2) ∧ z.1.1.paths p = z.2.1.paths p ∧
        (∀ i, z.1.1.paths p = some i → I i) ∧ ∀ i, I i → z.1.1.files i = z.2.1.files i) →
      Single s.watchers → Single r.watchers → s.maxReadBytes = r.maxReadBytes → s.sentOf p = r.sentOf p →
      s.watchers.find? (fun w => w.path = p) = r.watchers.find? (fun w => w.path = p) →
      (∀ w, s.watchers.find? (fun w => w.path = p) = some w → Within I w) →
      (s.passes (zs.map (·.1))).sentOf p = (r.passes (zs.map (·.2))).sentOf p := by
    intro I zs
    induction zs with
    | nil => intro s r _ _ _ _ he _ _; exact he
    | cons z zs ih =>
      intro s r hz hs hr hm he hw hin
      obtain ⟨z1, z2, z3, z4⟩ := hz z (by simp)
      obtain ⟨a1, a2, a3, a4⟩ := pass_one s p z.1 hs
      obtain ⟨b1, b2, b3, b4⟩ := pass_one r p z.2 hr
      have hnew : Watcher.new z.1.1 p = Watcher.new z.2.1 p := by
        unfold Watcher.new
        rw [← z2]
        split
        · next i hi => rw [z4 i (z3 i hi)]
        · rfl
      have hwe : watcherOf s p z.1 = watcherOf r p z.2 := by
        simp only [watcherOf, hw, hnew, z1]
      have hprops : ∀ w, watcherOf s p z.1 = some w → w.path = p ∧ Within I w := by
        intro w hwo
        simp only [watcherOf] at hwo
        cases hf : s.watchers.find? (fun w => w.path = p) with
        | some v =>
          rw [hf] at hwo
          simp only [Option.some_or, Option.some.injEq] at hwo
          subst hwo
          exact ⟨by simpa using List.find?_some hf, hin v hf⟩
        | none =>
          rw [hf] at hwo
          simp only [Option.none_or] at hwo
          split at hwo
          · simp only [Option.some.injEq] at hwo
            subst hwo
            refine ⟨by unfold Watcher.new; split <;> rfl, ?_⟩
            unfold Watcher.new
            split
            · next i hi => intro j pos hj; simp only [Option.some.injEq, Prod.mk.injEq] at hj; rw [← hj.1]; exact z3 i hi
            · intro j pos hj; simp at hj
          · simp at hwo
      simp only [List.map_cons]
      refine ih (s.pass z.1.1 z.1.2).1 (r.pass z.2.1 z.2.2).1 (fun y hy => hz y (by simp [hy])) a1 b1 (by rw [a2, b2, hm]) ?_ ?_ ?_
      · rw [a3, b3, he, ← hwe]
        congr 1
        cases hwo : watcherOf s p z.1 with
        | none => rfl
        | some w =>
          obtain ⟨w1, w2⟩ := hprops w hwo
          have hone : one s.maxReadBytes z.1.1 w = one r.maxReadBytes z.2.1 w := by
            rw [one, (pollFile_agree I s.maxReadBytes _ z.1.1 z.2.1 w 0 [] w2 (by rw [w1]; exact z2) (by rw [w1]; exact z3) z4).1, hm]
            rfl
          simp only [hone]
      · rw [a4, b4, ← hwe]
        cases hwo : watcherOf s p z.1 with
        | none => rfl
        | some w =>
          obtain ⟨w1, w2⟩ := hprops w hwo
          have hone : one s.maxReadBytes z.1.1 w = one r.maxReadBytes z.2.1 w := by
            rw [one, (pollFile_agree I s.maxReadBytes _ z.1.1 z.2.1 w 0 [] w2 (by rw [w1]; exact z2) (by rw [w1]; exact z3) z4).1, hm]
            rfl
          simp only [hone]
      · intro w hf
        rw [a4] at hf
        cases hwo : watcherOf s p z.1 with
        | none => rw [hwo] at hf; simp at hf
        | some v =>
          obtain ⟨w1, w2⟩ := hprops v hwo
          rw [hwo] at hf
          simp only at hf
          split at hf
          · simp at hf
          · simp only [Option.some.injEq] at hf
            rw [← hf]
            exact (pollFile_agree I s.maxReadBytes _ z.1.1 z.2.1 v 0 [] w2 (by rw [w1]; exact z2) (by rw [w1]; exact z3) z4).2
  refine key (fun i => ∃ y ∈ zs, y.1.1.paths p = some i) zs _ _ ?_ (by simp [Single]) (by simp [Single]) rfl rfl rfl (by simp)
  intro z hz
  obtain ⟨h1, h2, h3⟩ := h z hz
  exact ⟨h1, h2, fun i hi => ⟨z, hz, hi⟩, h3⟩

/-- **C122 (to the console).**  The events of the channel of a console sink include the lines of a file source (and whatever else), each as a
line with the file's path.  When the sink has returned, and all the file source sent was in the channel before the first `Shutdown`, the
lines with that path that the sink printed are the lines appended to the file, but the blank ones, in order and once each. -/
theorem C122_console (ext : Console.Ext F) (interval : Nat) (clock : Nat → Int)
    (stamps : Nat → Str × Str) (binWidth : Int) (tags : TagMap) (sources n : Nat) (recv : List (Option (Event F))) (h)
    (hret : (SinkRun.steps (consoleImpl ext interval clock stamps) sources n
      { state := some { state := Console.init binWidth tags }, queue := recv }).returned = true)
    (hst : (SinkRun.steps (consoleImpl ext interval clock stamps) sources n
      { state := some { state := Console.init binWidth tags }, queue := recv }).state = some h)
    (max : Nat) (p : Str) (i : Nat) (content : Text) (before : List (FS × List Str)) (first : FS × List Str)
    (hb : ∀ x ∈ before, p ∉ x.2) (hf : p ∈ first.2) (hs : Sees p i content first)
    (later : List ((FS × List Str) × List Text)) (hg : Grows p i content later) (quiet : List (FS × List Str))
    (hq : ∀ x ∈ quiet, Sees p i (content ++ joinLines (later.flatMap (·.2))) x) (hlen : (later.flatMap (·.2)).length ≤ quiet.length)
    (hc : ((linesIn (untilShutdown (arrivals recv))).filter fun l => l.path = p).map (·.value) =
      ((Server.mk max [] 1 []).passes (before ++ first :: later.map (·.1) ++ quiet)).sentOf p) :
    ((h.log.flatMap (·.1)).filter fun l => l.path = p).map (·.value) = (later.flatMap (·.2)).filter (· ≠ []) ∧
    ∀ b ∈ h.log, ∃ parts : List Str, b.1.map (Console.printLine ext tags) = parts.map some ∧ parts.flatten <:+: b.2 := by
  obtain ⟨c1, c2⟩ := C86_console ext interval clock stamps binWidth tags sources n recv h hret hst
  obtain ⟨m, -, -, hall⟩ := C122_each_file max p i content before first hb hf hs later hg
  refine ⟨?_, c2⟩
  rw [c1, hc]
  have := hall quiet hq (by omega)
  rw [← this]
  simp [Server.passes]

/-! A case: two files, of which the second is matched from the second pass on; at most 0 bytes are to be read per pass and file, so that
each pass reads one line, and a blank line takes a pass. -/
private def demoFS (a b : Text) : FS := ⟨fun n => if n = 0 then a else b, fun p => if p = ['a'] then some 0 else if p = ['b'] then some 1 else none⟩
private def demoBefore : List (FS × List Str) := [(demoFS "x\n".toList "old".toList, [['a']])]
private def demoFirst : FS × List Str := (demoFS "x\ny\n".toList "old\n".toList, [['a'], ['b']])
private def demoLater : List ((FS × List Str) × List Text) :=
  [((demoFS "x\ny\nz\n".toList "old\none\n\ntwo\n".toList, [['b']]), ["one".toList, [], "two".toList]),
   ((demoFS "".toList "old\none\n\ntwo\nthree\n".toList, []), ["three".toList])]

example : (∀ x ∈ demoBefore, ['b'] ∉ x.2) ∧ ['b'] ∈ demoFirst.2 ∧ Sees ['b'] 1 "old\n".toList demoFirst ∧
    Grows ['b'] 1 "old\n".toList demoLater := by
  refine ⟨by decide, by decide, ⟨by decide, by decide⟩, ?_⟩
  simp only [demoLater, Grows, and_true]
  refine ⟨?_, ⟨by decide, by decide⟩, ?_, ⟨by decide, by decide⟩⟩ <;> (intro l hl; revert l; simp)

example : ((Server.mk 0 [] 1 []).passes (demoBefore ++ demoFirst :: demoLater.map (·.1))).sent =
    [(['a'], ['y']), (['a'], ['z']), (['b'], "one".toList)] := by decide +kernel

/-- the same run with something else in the other file, which the pattern does not match -/
private def demoPairs : List ((FS × List Str) × (FS × List Str)) :=
  (demoBefore ++ demoFirst :: demoLater.map (·.1)).map fun x => (x, (⟨fun n => if n = 1 then x.1.files 1 else [], x.1.paths⟩, x.2.filter (· = ['b'])))

example : (∀ z ∈ demoPairs, (['b'] ∈ z.1.2 ↔ ['b'] ∈ z.2.2) ∧ z.1.1.paths ['b'] = z.2.1.paths ['b'] ∧
      ∀ (i : Nat), (∃ y ∈ demoPairs, y.1.1.paths ['b'] = some i) → z.1.1.files i = z.2.1.files i) ∧
    ((Server.mk 0 [] 1 []).passes (demoPairs.map (·.2))).sent = [(['b'], "one".toList)] := by
  have h1 : ∀ z ∈ demoPairs, z.1.1.paths ['b'] = some 1 ∧ z.1.1.files 1 = z.2.1.files 1 ∧ z.2.1.paths ['b'] = some 1 ∧
      (['b'] ∈ z.1.2 ↔ ['b'] ∈ z.2.2) := by decide
  refine ⟨?_, by decide +kernel⟩
  intro z hz
  obtain ⟨a1, a2, a3, a4⟩ := h1 z hz
  refine ⟨a4, a1.trans a3.symm, ?_⟩
  rintro i ⟨y, hy, hi⟩
  rw [(h1 y hy).1, Option.some.injEq] at hi
  subst hi
  exact a2

/-- the channel of a console sink with the lines of both files and a point -/
private def demoRecv : List (Option (Event Int)) :=
  [some (.log ⟨1, ['a'], ['y'], [], none⟩), some (.log ⟨2, ['b'], "one".toList, [], none⟩), none, some (.telemetry (wfGauge "a" 1 1)),
   some (.log ⟨2, ['a'], ['z'], [], none⟩), some (.log ⟨3, ['b'], "two".toList, [], none⟩), some (.log ⟨4, ['b'], "three".toList, [], none⟩), some .shutdown]

example :
    let quiet := List.replicate 4 (demoFS "".toList "old\none\n\ntwo\nthree\n".toList, [])
    let r := SinkRun.steps (consoleImpl consoleExt 1000 (fun _ => 0) (fun _ => (['1'], ['2']))) 1 30
      { state := some { state := Console.init 1 [] }, queue := demoRecv }
    (∀ x ∈ quiet, Sees ['b'] 1 ("old\n".toList ++ joinLines (demoLater.flatMap (·.2))) x) ∧ r.returned = true ∧ r.state.isSome = true ∧
    ((linesIn (untilShutdown (arrivals demoRecv))).filter fun l => l.path = ['b']).map (·.value) =
      ((Server.mk 0 [] 1 []).passes (demoBefore ++ demoFirst :: demoLater.map (·.1) ++ quiet)).sentOf ['b'] := by
  refine ⟨?_, by decide +kernel, by decide +kernel, by decide +kernel⟩
  intro x hx
  rw [List.eq_of_mem_replicate hx]
  exact ⟨by decide, by decide⟩

end Verif
