import Verif.Spec.FileRun
import Verif.Props.FileBytes
/-! Lemmas for the file source over everything its pattern matches. -/
namespace Verif.FileRun
open FileBytes Graphite

theorem readLine_fine (fuel : Nat) (disks : Nat → Disk) (w : Watcher) (o : Outcome) (b : Bytes) (w' : Watcher)
    (h : readLine fuel disks w [] = (o, b, w')) :
    o ≠ .panic ∧ (o = .error ∨ o = .hangs → b = []) ∧ (∀ n, o = .ok n → b.length = n) := by
  have hrl : ∀ (fss : Nat → FS) (w : Watcher) (o : Outcome) (b : Bytes) (w' : Watcher),
      w.readLine fuel fss [] = (o, b, w') → o ≠ .panic ∧ (o = .error ∨ o = .hangs → b = []) ∧ (∀ n, o = .ok n → b.length = n) := by
    intro fss w o b w' h
    simp only [Watcher.readLine] at h
    generalize (if w.reopen = true then w.openAtStart (fss 0) else w) = w1 at h
    cases hr : w1.reader with
    | none =>
      simp only [hr, Prod.mk.injEq] at h
      obtain ⟨rfl, rfl, rfl⟩ := h
      exact ⟨by simp, by simp, by simp⟩
    | some r =>
      simp only [hr] at h
      generalize (if w1.previousSize > ((fss 0).files r.file).length then r.rewind else r) = r1 at h
      cases hu : r1.readUntil fuel fss [] 1 with
      | none =>
        simp only [hu, Prod.mk.injEq] at h
        obtain ⟨rfl, rfl, rfl⟩ := h
        exact ⟨by simp, by simp, by simp⟩
      | some x =>
        obtain ⟨l, r2, k⟩ := x
        simp only [hu] at h
        by_cases hv : utf8Valid l = true
        · simp only [hv, if_true] at h
          by_cases hl : l = []
          · simp only [hl, if_true, Prod.mk.injEq] at h
            obtain ⟨rfl, rfl, rfl⟩ := h
            exact ⟨by simp, by simp, by simp⟩
          · simp only [hl, if_false, List.nil_append, if_true, Prod.mk.injEq] at h
            obtain ⟨rfl, rfl, rfl⟩ := h
            exact ⟨by simp, by simp, by simp⟩
        · simp only [hv, Bool.false_eq_true, if_false, Prod.mk.injEq] at h
          obtain ⟨rfl, rfl, rfl⟩ := h
          exact ⟨by simp, by simp, by simp⟩
  simp only [readLine] at h
  generalize (if w.reopen = true then w.openAtStart (disks 0).fs else w) = w1 at h
  cases hr : w1.reader with
  | none => rw [hr] at h; exact hrl _ _ _ _ _ h
  | some r =>
    rw [hr] at h
    by_cases hd : (disks 0).isDir r.file = true
    · simp only [hd, if_true, Prod.mk.injEq] at h
      obtain ⟨rfl, rfl, rfl⟩ := h
      exact ⟨by simp, by simp, by simp⟩
    · simp only [hd, Bool.false_eq_true, if_false] at h
      exact hrl _ _ _ _ _ h

theorem pollFile_fine (max fuel turns : Nat) : ∀ (calls : Nat → Nat → Disk) (w : Watcher) (bytes : Nat) (lines : List Bytes),
    ∃ ls n w', pollFile max fuel turns calls w [] bytes lines = some (ls, n, [], w') := by
  induction turns with
  | zero => intro calls w bytes lines; exact ⟨_, _, _, rfl⟩
  | succ turns ih =>
    intro calls w bytes lines
    simp only [pollFile]
    rcases hq : readLine fuel (calls 0) w [] with ⟨o, b, w'⟩
    obtain ⟨h1, h2, h3⟩ := readLine_fine _ _ _ _ _ _ hq
    cases o with
    | panic => exact absurd rfl h1
    | error => exact ⟨_, _, _, by rw [h2 (Or.inl rfl)]⟩
    | hangs => exact ⟨_, _, _, by rw [h2 (Or.inr rfl)]⟩
    | ok n =>
      by_cases hn : n > 0
      · simp only [hn, if_true]
        by_cases hm : bytes + n > max
        · simp only [hm, if_true]; exact ⟨_, _, _, rfl⟩
        · simp only [hm, if_false]; exact ih _ _ _ _
      · have hb : b = [] := List.eq_nil_of_length_eq_zero (by rw [h3 n rfl]; omega)
        subst hb
        simp only [hn, if_false]
        exact ⟨_, _, _, rfl⟩

/-- What the polling of one file comes to. -/
def one (max : Nat) (t : Turn) (x : Bytes × Watcher) : List Bytes × Nat × Watcher :=
  match pollFile max t.fuel t.calls (t.during x.1) x.2 [] 0 [] with
  | some (ls, n, _, w) => (ls, n, w)
  | none => ([], 0, x.2)

theorem one_eq (max : Nat) (t : Turn) (p : Bytes) (w : Watcher) :
    pollFile max t.fuel t.calls (t.during p) w [] 0 [] = some ((one max t (p, w)).1, (one max t (p, w)).2.1, [], (one max t (p, w)).2.2) := by
  obtain ⟨ls, n, w', h⟩ := pollFile_fine max t.fuel t.calls (t.during p) w 0 []
  simp [one, h]

/-- The lines of one file. -/
def linesOf (max : Nat) (t : Turn) (x : Bytes × Watcher) : List (Bytes × Bytes) := (one max t x).1.map fun l => (x.1, l)

/-- The watcher, unless dead. -/
def keep (max : Nat) (t : Turn) (x : Bytes × Watcher) : Option (Bytes × Watcher) :=
  if (one max t x).2.2.reader.isNone && (one max t x).2.2.fileId.isNone then none else some (x.1, (one max t x).2.2)

theorem pollAll_valid (max : Nat) (t : Turn) : ∀ (ws : List (Bytes × Watcher)) (lines : List (Bytes × Bytes)) (total : Nat)
    (alive : List (Bytes × Watcher)), (∀ x ∈ ws, utf8Valid x.1 = true) →
    ∃ n, pollAll max t ws [] lines total alive = some (lines ++ ws.flatMap (linesOf max t), n, [], alive ++ ws.filterMap (keep max t)) := by
  intro ws
  induction ws with
  | nil => intro lines total alive _; exact ⟨total, by simp [pollAll]⟩
  | cons x ws ih =>
    intro lines total alive hv
    obtain ⟨p, w⟩ := x
    have hp : utf8Valid p = true := hv (p, w) (by simp)
    simp only [pollAll, one_eq, hp, if_true]
    obtain ⟨n, hn⟩ := ih (lines ++ (one max t (p, w)).1.map fun l => (p, l)) (total + (one max t (p, w)).2.1)
      (if (one max t (p, w)).2.2.reader.isNone && (one max t (p, w)).2.2.fileId.isNone then alive else alive ++ [(p, (one max t (p, w)).2.2)])
      (fun x hx => hv x (by simp [hx]))
    refine ⟨n, ?_⟩
    rw [hn]
    by_cases hd : ((one max t (p, w)).2.2.reader.isNone && (one max t (p, w)).2.2.fileId.isNone) = true
    · have hk : keep max t (p, w) = none := by simp only [keep, hd, if_true]
      simp only [hd, if_true, List.flatMap_cons, linesOf, List.append_assoc, List.filterMap_cons, hk]
    · have hk : keep max t (p, w) = some (p, (one max t (p, w)).2.2) := by simp only [keep, hd, Bool.false_eq_true, if_false]
      simp only [hd, Bool.false_eq_true, if_false, List.flatMap_cons, linesOf, List.append_assoc, List.filterMap_cons, hk, List.cons_append,
        List.nil_append]

theorem pollAll_invalid (max : Nat) (t : Turn) : ∀ (ws : List (Bytes × Watcher)) (lines : List (Bytes × Bytes)) (total : Nat)
    (alive : List (Bytes × Watcher)), (∃ x ∈ ws, utf8Valid x.1 = false) → pollAll max t ws [] lines total alive = none := by
  intro ws
  induction ws with
  | nil => intro lines total alive h; simp at h
  | cons x ws ih =>
    intro lines total alive h
    obtain ⟨p, w⟩ := x
    simp only [pollAll, one_eq]
    by_cases hp : utf8Valid p = true
    · simp only [hp, if_true]
      refine ih _ _ _ ?_
      obtain ⟨x, hx, hf⟩ := h
      rcases List.mem_cons.1 hx with rfl | hx
      · simp only at hf; rw [hp] at hf; cases hf
      · exact ⟨x, hx, hf⟩
    · simp only [hp, Bool.false_eq_true, if_false]

/-- The watchers after a glob poll that goes through. -/
def addAll (disk : Bytes → Disk) (found : List Bytes) (ws : List (Bytes × Watcher)) : List (Bytes × Watcher) :=
  found.foldl (fun ws p => if (disk p).special p = none then (if p ∈ ws.map (·.1) then ws else ws ++ [(p, Watcher.new (disk p).fs (key p))]) else ws) ws

theorem globPoll_ok (t : Turn) : ∀ (found : List Bytes) (ws : List (Bytes × Watcher)), found.find? (Deadly t) = none →
    globPoll t.disk found ws = .ok (addAll t.disk found ws) := by
  intro found
  induction found with
  | nil => intro ws _; rfl
  | cons p ps ih =>
    intro ws h
    have hp : Deadly t p = false := by
      cases hd : Deadly t p with
      | false => rfl
      | true => simp [List.find?_cons, hd] at h
    have hps : ps.find? (Deadly t) = none := by simpa [List.find?_cons, hp] using h
    simp only [Deadly, Bool.or_eq_false_iff, beq_eq_false_iff_ne, ne_eq] at hp
    simp only [globPoll, new, addAll, List.foldl_cons]
    cases hs : (t.disk p).special p with
    | none => simp only [if_true]; exact ih _ hps
    | some x =>
      cases x with
      | noSeek => exact absurd hs hp.1
      | blocks => exact absurd hs hp.2
      | denied => simp only [reduceCtorEq, if_false]; exact ih _ hps

theorem globPoll_error (t : Turn) (q : Bytes) : ∀ (found : List Bytes) (ws : List (Bytes × Watcher)), found.find? (Deadly t) = some q →
    globPoll t.disk found ws = .error (if (t.disk q).special q = some .blocks then .blocked else .panicked) := by
  intro found
  induction found with
  | nil => intro ws h; simp at h
  | cons p ps ih =>
    intro ws h
    simp only [globPoll, new]
    cases hs : (t.disk p).special p with
    | none =>
      have hd : Deadly t p = false := by simp [Deadly, hs]
      exact ih _ (by simpa [List.find?_cons, hd] using h)
    | some x =>
      cases x with
      | noSeek =>
        have hd : Deadly t p = true := by simp [Deadly, hs]
        have : p = q := by simpa [List.find?_cons, hd] using h
        subst this; simp [hs]
      | blocks =>
        have hd : Deadly t p = true := by simp [Deadly, hs]
        have : p = q := by simpa [List.find?_cons, hd] using h
        subst this; simp [hs]
      | denied =>
        have hd : Deadly t p = false := by simp [Deadly, hs]
        exact ih _ (by simpa [List.find?_cons, hd] using h)

theorem mem_addAll (disk : Bytes → Disk) (q : Bytes) : ∀ (found : List Bytes) (ws : List (Bytes × Watcher)),
    q ∈ (addAll disk found ws).map (·.1) ↔ q ∈ ws.map (·.1) ∨ (q ∈ found ∧ (disk q).special q = none) := by
  intro found
  induction found with
  | nil => intro ws; simp [addAll]
  | cons p ps ih =>
    intro ws
    have he : addAll disk (p :: ps) ws = addAll disk ps
      (if (disk p).special p = none then (if p ∈ ws.map (·.1) then ws else ws ++ [(p, Watcher.new (disk p).fs (key p))]) else ws) := rfl
    rw [he, ih]
    by_cases hs : (disk p).special p = none
    · by_cases hm : p ∈ ws.map (·.1)
      · rw [if_pos hs, if_pos hm]
        constructor
        · rintro (h | ⟨h, h'⟩)
          · exact .inl h
          · exact .inr ⟨by simp [h], h'⟩
        · rintro (h | ⟨h, h'⟩)
          · exact .inl h
          · rcases List.mem_cons.1 h with rfl | h
            · exact .inl hm
            · exact .inr ⟨h, h'⟩
      · rw [if_pos hs, if_neg hm, List.map_append, List.mem_append]
        constructor
        · rintro ((h | h) | ⟨h, h'⟩)
          · exact .inl h
          · simp only [List.map_cons, List.map_nil, List.mem_singleton] at h
            subst h; exact .inr ⟨by simp, hs⟩
          · exact .inr ⟨by simp [h], h'⟩
        · rintro (h | ⟨h, h'⟩)
          · exact .inl (.inl h)
          · rcases List.mem_cons.1 h with rfl | h
            · exact .inl (.inr (by simp))
            · exact .inr ⟨h, h'⟩
    · rw [if_neg hs]
      constructor
      · rintro (h | ⟨h, h'⟩)
        · exact .inl h
        · exact .inr ⟨by simp [h], h'⟩
      · rintro (h | ⟨h, h'⟩)
        · exact .inl h
        · rcases List.mem_cons.1 h with rfl | h
          · exact absurd h' hs
          · exact .inr ⟨h, h'⟩

theorem nodup_addAll (disk : Bytes → Disk) : ∀ (found : List Bytes) (ws : List (Bytes × Watcher)),
    (ws.map (·.1)).Nodup → ((addAll disk found ws).map (·.1)).Nodup := by
  intro found
  induction found with
  | nil => intro ws h; exact h
  | cons p ps ih =>
    intro ws h
    refine ih _ ?_
    dsimp only
    by_cases hs : (disk p).special p = none
    · by_cases hm : p ∈ ws.map (·.1)
      · rw [if_pos hs, if_pos hm]; exact h
      · rw [if_pos hs, if_neg hm, List.map_append]
        refine List.nodup_append.2 ⟨h, by simp, ?_⟩
        intro a ha b hb e
        simp only [List.map_cons, List.map_nil, List.mem_singleton] at hb
        subst hb; subst e; exact hm ha
    · rw [if_neg hs]; exact h

theorem addAll_only (disk : Bytes → Disk) (q : Bytes) : ∀ (found : List Bytes) (ws : List (Bytes × Watcher)),
    addAll disk (found.filter (· == q)) (ws.filter (fun x => x.1 == q)) = (addAll disk found ws).filter (fun x => x.1 == q) := by
  intro found
  induction found with
  | nil => intro ws; rfl
  | cons p ps ih =>
    intro ws
    have he : addAll disk (p :: ps) ws = addAll disk ps
      (if (disk p).special p = none then (if p ∈ ws.map (·.1) then ws else ws ++ [(p, Watcher.new (disk p).fs (key p))]) else ws) := rfl
    by_cases hq : p = q
    · subst hq
      have hf : (p :: ps).filter (· == p) = p :: ps.filter (· == p) := by simp
      have he' : addAll disk (p :: ps.filter (· == p)) (ws.filter (fun x => x.1 == p)) = addAll disk (ps.filter (· == p))
        (if (disk p).special p = none then (if p ∈ (ws.filter (fun x => x.1 == p)).map (·.1) then ws.filter (fun x => x.1 == p)
          else ws.filter (fun x => x.1 == p) ++ [(p, Watcher.new (disk p).fs (key p))]) else ws.filter (fun x => x.1 == p)) := rfl
      rw [hf, he', he, ← ih]
      congr 1
      have hm : p ∈ (ws.filter (fun x => x.1 == p)).map (·.1) ↔ p ∈ ws.map (·.1) := by
        simp [List.mem_map, List.mem_filter]
      by_cases hs : (disk p).special p = none
      · by_cases hmm : p ∈ ws.map (·.1)
        · rw [if_pos hs, if_pos hs, if_pos hmm, if_pos (hm.2 hmm)]
        · rw [if_pos hs, if_pos hs, if_neg hmm, if_neg (fun h => hmm (hm.1 h))]
          simp
      · rw [if_neg hs, if_neg hs]
    · have hf : (p :: ps).filter (· == q) = ps.filter (· == q) := by simp [hq]
      rw [hf, he, ← ih]
      congr 1
      by_cases hs : (disk p).special p = none
      · by_cases hmm : p ∈ ws.map (·.1)
        · rw [if_pos hs, if_pos hmm]
        · rw [if_pos hs, if_neg hmm]; simp [hq]
      · rw [if_neg hs]

/-- What holds between turns. -/
structure Fit (s : State) : Prop where
  empty : s.buffer = []
  nodup : (s.watchers.map (·.1)).Nodup
  valid : ∀ x ∈ s.watchers, utf8Valid x.1 = true

theorem keep_key {max : Nat} {t : Turn} {x y : Bytes × Watcher} (h : keep max t x = some y) : y.1 = x.1 := by
  unfold keep at h
  by_cases hd : ((one max t x).2.2.reader.isNone && (one max t x).2.2.fileId.isNone) = true
  · simp only [hd, if_true] at h; cases h
  · simp only [hd, Bool.false_eq_true, if_false] at h
    cases h; rfl

theorem keep_map_sub (max : Nat) (t : Turn) : ∀ ws : List (Bytes × Watcher), ((ws.filterMap (keep max t)).map (·.1)).Sublist (ws.map (·.1)) := by
  intro ws
  induction ws with
  | nil => simp
  | cons x ws ih =>
    rw [List.filterMap_cons]
    cases hk : keep max t x with
    | none => exact .cons _ ih
    | some y =>
      simp only [List.map_cons]
      rw [keep_key hk]
      exact ih.cons_cons _

/-- A turn in which nothing goes wrong before `poll`. -/
theorem turn_through (max : Nat) (s : State) (t : Turn) (hr : s.phase = .running) (hf : Fit s) (ho : Orders t)
    (hd : t.found.find? (Deadly t) = none) (hu : t.found.any (Unnamed t) = false) :
    ∃ cap, turn max s t = { phase := fate t, watchers := (t.order (addAll t.disk t.found s.watchers)).filterMap (keep max t), buffer := [], backoffCap := cap, sent := s.sent ++ (t.order (addAll t.disk t.found s.watchers)).flatMap (linesOf max t) } ∧
      (∀ x ∈ t.order (addAll t.disk t.found s.watchers), utf8Valid x.1 = true) ∧
      ((t.order (addAll t.disk t.found s.watchers)).map (·.1)).Nodup := by
  have hperm := ho (addAll t.disk t.found s.watchers)
  have hall : ∀ x ∈ t.order (addAll t.disk t.found s.watchers), utf8Valid x.1 = true := by
    intro x hx
    have hx : x ∈ addAll t.disk t.found s.watchers := hperm.mem_iff.1 hx
    rcases (mem_addAll t.disk x.1 t.found s.watchers).1 (List.mem_map_of_mem hx) with h | ⟨h, h'⟩
    · obtain ⟨y, hy, e⟩ := List.mem_map.1 h
      rw [← e]; exact hf.valid y hy
    · cases hv : utf8Valid x.1 with
      | true => rfl
      | false =>
        have := List.any_eq_false.1 hu x.1 h
        simp [Unnamed, h', hv] at this
  have hnd : ((t.order (addAll t.disk t.found s.watchers)).map (·.1)).Nodup :=
    (hperm.map (·.1)).nodup_iff.2 (nodup_addAll _ _ _ hf.nodup)
  obtain ⟨n, hn⟩ := pollAll_valid max t _ [] 0 [] hall
  simp only [List.nil_append] at hn
  refine ⟨File.nextCap s.backoffCap n, ?_, hall, hnd⟩
  simp only [turn, hr, globPoll_ok t _ _ hd, hf.empty, hn, fate, hd, hu]
  cases hp : t.polled with
  | none => rfl
  | some b => cases b <;> simp

/-- A turn that ends before its lines are sent. -/
theorem turn_dies (max : Nat) (s : State) (t : Turn) (hr : s.phase = .running) (hf : Fit s) (ho : Orders t)
    (hd : t.found.find? (Deadly t) ≠ none ∨ t.found.any (Unnamed t) = true) : turn max s t = { s with phase := fate t } := by
  cases hq : t.found.find? (Deadly t) with
  | some q => simp only [turn, hr, globPoll_error t q _ _ hq, fate, hq]
  | none =>
    have hu : t.found.any (Unnamed t) = true := hd.resolve_left (fun h => h hq)
    obtain ⟨p, hp, hpu⟩ := List.any_eq_true.1 hu
    simp only [Unnamed, Bool.and_eq_true, beq_iff_eq, Bool.not_eq_true'] at hpu
    have hm : p ∈ (addAll t.disk t.found s.watchers).map (·.1) := (mem_addAll _ _ _ _).2 (.inr ⟨hp, hpu.1⟩)
    obtain ⟨x, hx, e⟩ := List.mem_map.1 hm
    have hbad : pollAll max t (t.order (addAll t.disk t.found s.watchers)) [] [] 0 [] = none :=
      pollAll_invalid max t _ [] 0 [] ⟨x, (ho _).mem_iff.2 hx, by rw [e]; exact hpu.2⟩
    simp only [turn, hr, globPoll_ok t _ _ hq, hf.empty, hbad, fate, hq, hu, if_true]

theorem turn_fate (max : Nat) (s : State) (t : Turn) (hr : s.phase = .running) (hf : Fit s) (ho : Orders t) :
    (turn max s t).phase = fate t ∧ Fit (turn max s t) := by
  by_cases hd : t.found.find? (Deadly t) ≠ none ∨ t.found.any (Unnamed t) = true
  · rw [turn_dies max s t hr hf ho hd]
    exact ⟨rfl, ⟨hf.empty, hf.nodup, hf.valid⟩⟩
  · have h1 : t.found.find? (Deadly t) = none := Classical.byContradiction fun h => hd (.inl h)
    have h2 : t.found.any (Unnamed t) = false := by
      cases h : t.found.any (Unnamed t) with
      | false => rfl
      | true => exact absurd (.inr h) hd
    obtain ⟨cap, e, hall, hnd⟩ := turn_through max s t hr hf ho h1 h2
    rw [e]
    refine ⟨rfl, ⟨rfl, (keep_map_sub max t _).nodup hnd, ?_⟩⟩
    intro y hy
    obtain ⟨x, hx, hk⟩ := List.mem_filterMap.1 hy
    rw [keep_key hk]; exact hall x hx

theorem turn_ended (max : Nat) (s : State) (hr : s.phase ≠ .running) : ∀ turns : List Turn, turns.foldl (turn max) s = s := by
  intro turns
  induction turns with
  | nil => rfl
  | cons t ts ih =>
    have : turn max s t = s := by
      cases hp : s.phase with
      | running => exact absurd hp hr
      | returned => simp [turn, hp]
      | panicked => simp [turn, hp]
      | blocked => simp [turn, hp]
    rw [List.foldl_cons, this, ih]

end Verif.FileRun
