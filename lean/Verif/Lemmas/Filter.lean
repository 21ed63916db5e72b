import Verif.Spec.Filter
import Verif.Lemmas.Search
import Verif.Lemmas.Cmp
namespace Verif

section
variable {F : Type} [F64 F] {σ : Type}

/-! ### Filter::run -/

theorem FilterRun.run_finished (p : Process F σ) (n : Nat) (r : FilterRun F σ)
    (h : r.finished = true) (is) : r.run p n is = (r, is) := by
  cases is <;> simp [FilterRun.run, h]

/-- One step on a non-shutdown event. -/
theorem FilterRun.step_event (p : Process F σ) (n : Nat) (r : FilterRun F σ) (now : Int)
    (e : Event F) (he : e.isShutdown = false) :
    r.step p n (some (now, e)) =
      match p now r.state e r.events with
      | (st, evs, .ok ()) => { r with state := st, events := [], sent := r.sent ++ evs }
      | (st, evs, .error fe) => { r with state := st, events := evs, sent := r.sent ++ [fe] } := by
  cases e <;> first | rfl | simp [Event.isShutdown] at he

theorem expectedSent_event (p : Process F σ) (st : σ) (now : Int) (e : Event F)
    (he : e.isShutdown = false) (is) :
    expectedSent p st (some (now, e) :: is) =
      match p now st e [] with
      | (st', out, .ok ()) => out ++ expectedSent p st' is
      | (st', _, .error fe) => fe :: expectedSent p st' is := by
  cases e <;> first | rfl | simp [Event.isShutdown] at he

theorem isShutdown_true {e : Event F} (h : e.isShutdown = true) : e = .shutdown := by
  cases e <;> simp [Event.isShutdown] at h; rfl

theorem FilterRun.step_shutdowns (p : Process F σ) (n : Nat) (r : FilterRun F σ)
    (i : Option (Int × Event F)) (hf : r.finished = false) :
    (shutdownsIn [i] = 0 → (r.step p n i).totalShutdowns = r.totalShutdowns ∧
      (r.step p n i).finished = false) ∧
    (shutdownsIn [i] = 1 → (r.step p n i).totalShutdowns = r.totalShutdowns + 1 ∧
      (r.step p n i).sent = r.sent ++ [.shutdown] ∧
      ((r.step p n i).finished = true ↔ n ≤ r.totalShutdowns + 1)) ∧
    (shutdownsIn [i] = 0 ∨ shutdownsIn [i] = 1) ∧
    (∃ new, (r.step p n i).sent = r.sent ++ new) := by
  cases i with
  | none => simp [shutdownsIn, FilterRun.step, hf]
  | some x =>
    obtain ⟨now, e⟩ := x
    cases he : e.isShutdown with
    | true =>
      obtain rfl := isShutdown_true he
      simp [shutdownsIn, FilterRun.step, Event.isShutdown]
    | false =>
      rw [FilterRun.step_event p n r now e he]
      have h0 : shutdownsIn [some (now, e)] = 0 := by simp [shutdownsIn, he]
      rw [h0]
      cases hp : p now r.state e r.events with
      | mk st rest => obtain ⟨evs, res⟩ := rest; cases res <;> simp [hf]

theorem shutdownsIn_append (a b : List (Option (Int × Event F))) :
    shutdownsIn (a ++ b) = shutdownsIn a + shutdownsIn b := by
  simp [shutdownsIn, List.countP_append]

theorem shutdownsIn_cons (a) (b : List (Option (Int × Event F))) :
    shutdownsIn (a :: b) = shutdownsIn [a] + shutdownsIn b := by
  rw [← shutdownsIn_append]; rfl

/-! ### Flush boundary: sorted holds -/

/-- Well-formed holds: strictly increasing timestamps, every event in its group. -/
structure HoldsOk (hs : List (Hold F)) : Prop where
  sorted : hs.Pairwise fun a b => a.timestamp < b.timestamp
  own : ∀ h ∈ hs, ∀ e ∈ h.events, e.timestamp = some h.timestamp

/-- The group with timestamp `t`. -/
def lookupHold (t : Int) : List (Hold F) → Option (Nat × List (Event F))
  | [] => none
  | h :: hs => if h.timestamp = t then some (h.age, h.events) else lookupHold t hs

theorem lookupHold_append (t : Int) (a b : List (Hold F)) (h : ∀ x ∈ a, x.timestamp ≠ t) :
    lookupHold t (a ++ b) = lookupHold t b := by
  induction a with
  | nil => rfl
  | cons x a ih =>
    simp only [List.cons_append, lookupHold]
    rw [if_neg (h x (by simp)), ih (fun y hy => h y (by simp [hy]))]

theorem lookupHold_none (t : Int) (a : List (Hold F)) (h : ∀ x ∈ a, x.timestamp ≠ t) :
    lookupHold t a = none := by
  have := lookupHold_append t a [] h; simpa [lookupHold] using this

theorem lookupHold_append_left (t : Int) (a b : List (Hold F)) (h : ∀ x ∈ b, x.timestamp ≠ t) :
    lookupHold t (a ++ b) = lookupHold t a := by
  induction a with
  | nil => simpa [lookupHold] using lookupHold_none t b h
  | cons x a ih => simp only [List.cons_append, lookupHold, ih]

theorem lookupHold_mid (t : Int) (a b : List (Hold F)) (x : Hold F) (h : x.timestamp ≠ t) :
    lookupHold t (a ++ x :: b) = lookupHold t (a ++ b) := by
  induction a with
  | nil => simp [lookupHold, h]
  | cons y a ih => simp only [List.cons_append, lookupHold, ih]

theorem insertIdx_length {α : Type} (a b : List α) (x : α) :
    (a ++ b).insertIdx a.length x = a ++ x :: b := by
  induction a with
  | nil => simp
  | cons y a ih => simp [ih]

theorem modify_length {α : Type} (a b : List α) (x : α) (f : α → α) :
    (a ++ x :: b).modify a.length f = a ++ f x :: b := by
  induction a with
  | nil => simp
  | cons y a ih => simp [ih]

theorem holds_sorted3 {hs : List (Hold F)} (h : HoldsOk hs) (t : Int) :
    Sorted3 (fun h : Hold F => compare h.timestamp t) hs := by
  intro i j x y hij hx hy
  have hlt : x.timestamp < y.timestamp := by
    have := List.pairwise_iff_getElem.1 h.sorted
    obtain ⟨hi, rfl⟩ := List.getElem?_eq_some_iff.1 hx
    obtain ⟨hj, rfl⟩ := List.getElem?_eq_some_iff.1 hy
    exact this i j hi hj hij
  simp only [compare_int_gt, compare_int_lt]
  omega

/-- The effect of a timestamped event on well-formed holds. -/
theorem insert_holds {s : FlushBoundary F} (h : HoldsOk s.holds) {e : Event F} {ts : Int}
    (hf : e.isTimerFlush = false) (ht : e.timestamp = some ts) (now : Int) (res) :
    ∃ hs, flushBoundaryProcess now s e res = ({ s with holds := hs }, res, .ok ()) ∧
      HoldsOk hs ∧
      (∀ t, lookupHold t hs = pendStep s.tolerance t (lookupHold t s.holds) e) ∧
      (hs.flatMap (·.events)).Perm (s.holds.flatMap (·.events) ++ [e]) := by
  have hpend : ∀ t o, pendStep s.tolerance t o e = match o with
      | none => if ts = t then some (0, [e]) else none
      | some (age, es) => if ts = t then some (age, es ++ [e]) else some (age, es) := by
    intro t o
    have : hasTime t e = decide (ts = t) := by
      simp only [hasTime, ht]
      by_cases hh : ts = t <;> simp [hh]
    cases e <;> simp [Event.isTimerFlush] at hf <;> cases o <;> simp [pendStep, this]
  unfold flushBoundaryProcess
  simp only [hf, ht, Bool.false_eq_true, if_false]
  have hspec := bsearch_spec (fun h : Hold F => compare h.timestamp ts) s.holds
    (holds_sorted3 h ts)
  cases hb : bsearch (fun h : Hold F => compare h.timestamp ts) s.holds with
  | ok idx =>
    rw [hb] at hspec
    obtain ⟨pre, x, post, hl, hidx, hx⟩ := hspec
    have hx : x.timestamp = ts := compare_int_eq.1 hx
    refine ⟨_, rfl, ?_⟩
    have hmod : s.holds.modify idx (fun h => { h with events := h.events ++ [e] }) =
        pre ++ { x with events := x.events ++ [e] } :: post := by
      rw [hl, ← hidx, modify_length]
    rw [hmod]
    have hsort := h.sorted
    rw [hl] at hsort
    have hpre : ∀ a ∈ pre, a.timestamp ≠ ts := by
      intro a ha hc
      have := (List.pairwise_append.1 hsort).2.2 a ha x (by simp)
      omega
    have hpost : ∀ a ∈ post, a.timestamp ≠ ts := by
      intro a ha hc
      have := (List.pairwise_cons.1 (List.pairwise_append.1 hsort).2.1).1 a ha
      omega
    refine ⟨⟨?_, ?_⟩, ?_, ?_⟩
    · rw [List.pairwise_append, List.pairwise_cons] at hsort ⊢
      refine ⟨hsort.1, ⟨hsort.2.1.1, hsort.2.1.2⟩, ?_⟩
      intro a ha b hb
      rcases List.mem_cons.1 hb with rfl | hb
      · exact hsort.2.2 a ha x (by simp)
      · exact hsort.2.2 a ha b (by simp [hb])
    · intro y hy ev hev
      rcases List.mem_append.1 hy with hy | hy
      · exact h.own y (by rw [hl]; simp [hy]) ev hev
      · rcases List.mem_cons.1 hy with rfl | hy
        · rcases List.mem_append.1 hev with hev | hev
          · exact h.own x (by rw [hl]; simp) ev hev
          · simp at hev; subst hev; rw [ht, hx]
        · exact h.own y (by rw [hl]; simp [hy]) ev hev
    · intro t
      rw [hpend, hl]
      by_cases htt : ts = t
      · subst htt
        rw [lookupHold_append _ _ _ hpre, lookupHold_append _ _ _ hpre]
        simp [lookupHold, hx]
      · have hxt : x.timestamp ≠ t := by omega
        rw [lookupHold_mid _ _ _ _ hxt, lookupHold_mid _ _ _ _ (by exact hxt)]
        cases lookupHold t (pre ++ post) with
        | none => simp [htt]
        | some q => simp [htt]
    · rw [hl]
      simp only [List.flatMap_append, List.flatMap_cons]
      simp only [List.append_assoc]
      refine List.Perm.append_left _ (List.Perm.append_left _ ?_)
      exact List.perm_append_comm
  | err idx =>
    rw [hb] at hspec
    obtain ⟨pre, post, hl, hidx, hlt, hgt⟩ := hspec
    have hlt : ∀ a ∈ pre, a.timestamp < ts := fun a ha => compare_int_lt.1 (hlt a ha)
    have hgt : ∀ a ∈ post, ts < a.timestamp := fun a ha => compare_int_gt.1 (hgt a ha)
    refine ⟨_, rfl, ?_⟩
    have hins : s.holds.insertIdx idx { timestamp := ts, age := 0, events := [e] } =
        pre ++ { timestamp := ts, age := 0, events := [e] } :: post := by
      rw [hl, ← hidx, insertIdx_length]
    rw [hins]
    have hsort := h.sorted
    rw [hl, List.pairwise_append] at hsort
    refine ⟨⟨?_, ?_⟩, ?_, ?_⟩
    · rw [List.pairwise_append, List.pairwise_cons]
      refine ⟨hsort.1, ⟨fun b hb => hgt b hb, hsort.2.1⟩, ?_⟩
      intro a ha b hb
      rcases List.mem_cons.1 hb with rfl | hb
      · exact hlt a ha
      · exact hsort.2.2 a ha b hb
    · intro y hy ev hev
      rcases List.mem_append.1 hy with hy | hy
      · exact h.own y (by rw [hl]; simp [hy]) ev hev
      · rcases List.mem_cons.1 hy with rfl | hy
        · simp at hev; subst hev; exact ht
        · exact h.own y (by rw [hl]; simp [hy]) ev hev
    · intro t
      rw [hpend, hl]
      by_cases htt : ts = t
      · subst htt
        rw [lookupHold_append _ _ _ (fun a ha => by have := hlt a ha; omega),
          lookupHold_append _ _ _ (fun a ha => by have := hlt a ha; omega),
          lookupHold_none _ post (fun a ha => by have := hgt a ha; omega)]
        simp [lookupHold]
      · rw [lookupHold_mid _ _ _ _ (by exact htt)]
        cases lookupHold t (pre ++ post) with
        | none => simp [htt]
        | some q => simp [htt]
    · rw [hl]
      simp only [List.flatMap_append, List.flatMap_cons]
      simp only [List.append_assoc]
      refine List.Perm.append_left _ ?_
      exact List.perm_append_comm

/-- Ageing keeps holds well-formed. -/
theorem HoldsOk.aged {hs : List (Hold F)} (h : HoldsOk hs) :
    HoldsOk (hs.map fun x => { x with age := x.age + 1 }) := by
  refine ⟨?_, ?_⟩
  · rw [List.pairwise_map]; exact h.sorted
  · intro x hx e he
    obtain ⟨y, hy, rfl⟩ := List.mem_map.1 hx
    exact h.own y hy e he

theorem HoldsOk.tail {x : Hold F} {hs : List (Hold F)} (h : HoldsOk (x :: hs)) : HoldsOk hs :=
  ⟨(List.pairwise_cons.1 h.sorted).2, fun y hy => h.own y (by simp [hy])⟩

theorem lookupHold_aged (t : Int) (hs : List (Hold F)) :
    lookupHold t (hs.map fun x => { x with age := x.age + 1 }) =
      (lookupHold t hs).map fun q => (q.1 + 1, q.2) := by
  induction hs with
  | nil => rfl
  | cons x hs ih =>
    simp only [List.map_cons, lookupHold]
    split <;> simp [ih]

theorem split_mem {tol : Nat} {hs : List (Hold F)} :
    (∀ x ∈ (FlushBoundary.split tol hs).2, x ∈ hs) ∧
    (∀ e ∈ (FlushBoundary.split tol hs).1, ∃ x ∈ hs, e ∈ x.events) := by
  induction hs with
  | nil => simp [FlushBoundary.split]
  | cons x hs ih =>
    simp only [FlushBoundary.split]
    split
    · refine ⟨fun y hy => by simp [ih.1 y hy], fun e he => ?_⟩
      rcases List.mem_append.1 he with he | he
      · exact ⟨x, by simp, he⟩
      · obtain ⟨y, hy, hye⟩ := ih.2 e he; exact ⟨y, by simp [hy], hye⟩
    · refine ⟨fun y hy => ?_, fun e he => ?_⟩
      · rcases List.mem_cons.1 hy with rfl | hy
        · simp
        · simp [ih.1 y hy]
      · obtain ⟨y, hy, hye⟩ := ih.2 e he; exact ⟨y, by simp [hy], hye⟩

/-- What the release loop does to well-formed holds. -/
theorem split_spec {tol : Nat} {hs : List (Hold F)} (h : HoldsOk hs) :
    HoldsOk (FlushBoundary.split tol hs).2 ∧
    (∀ t, lookupHold t (FlushBoundary.split tol hs).2 =
      match lookupHold t hs with
      | none => none
      | some (age, es) => if age > tol then none else some (age, es)) ∧
    (∀ t, ((FlushBoundary.split tol hs).1.filter (hasTime t)) =
      match lookupHold t hs with
      | none => []
      | some (age, es) => if age > tol then es else []) ∧
    (FlushBoundary.split tol hs).1.Pairwise
      (fun a b => ∀ x y, a.timestamp = some x → b.timestamp = some y → x ≤ y) ∧
    ((FlushBoundary.split tol hs).1 ++
      (FlushBoundary.split tol hs).2.flatMap (·.events)).Perm (hs.flatMap (·.events)) := by
  induction hs with
  | nil => exact ⟨h, by simp [FlushBoundary.split, lookupHold],
      by simp [FlushBoundary.split, lookupHold], by simp [FlushBoundary.split],
      by simp [FlushBoundary.split]⟩
  | cons x hs ih =>
    obtain ⟨i1, i2, i3, i4, i5⟩ := ih h.tail
    have hlt : ∀ y ∈ hs, x.timestamp < y.timestamp := (List.pairwise_cons.1 h.sorted).1
    have hne : ∀ y ∈ hs, y.timestamp ≠ x.timestamp := fun y hy => by have := hlt y hy; omega
    have hown : ∀ e ∈ x.events, e.timestamp = some x.timestamp := h.own x (by simp)
    have hall : x.events.filter (hasTime x.timestamp) = x.events :=
      List.filter_eq_self.2 fun e he => by simp [hasTime, hown e he]
    have hnone : ∀ t, x.timestamp ≠ t → x.events.filter (hasTime t) = [] := fun t ht =>
      List.filter_eq_nil_iff.2 fun e he => by simp [hasTime, hown e he, ht]
    have hlook : lookupHold x.timestamp hs = none := lookupHold_none _ _ hne
    simp only [FlushBoundary.split]
    by_cases hage : x.age > tol
    · simp only [if_pos hage]
      refine ⟨i1, ?_, ?_, ?_, ?_⟩
      · intro t
        rw [i2 t]
        simp only [lookupHold]
        by_cases ht : x.timestamp = t
        · subst ht; simp [hlook, hage]
        · simp [ht]
      · intro t
        rw [List.filter_append, i3 t]
        simp only [lookupHold]
        by_cases ht : x.timestamp = t
        · subst ht; simp [hlook, hage, hall]
        · simp [ht, hnone t ht]
      · rw [List.pairwise_append]
        refine ⟨?_, i4, ?_⟩
        · apply List.Pairwise.imp_of_mem (R := fun _ _ => True)
          · intro a b ha hb _ p q hp hq
            rw [hown a ha] at hp; rw [hown b hb] at hq
            simp at hp hq; omega
          · exact List.pairwise_of_forall (fun _ _ => trivial)
        · intro a ha b hb p q hp hq
          rw [hown a ha] at hp
          obtain ⟨y, hy, hye⟩ := (split_mem (tol := tol) (hs := hs)).2 b hb
          have := h.own y (by simp [hy]) b hye
          rw [this] at hq
          have := hlt y hy
          simp at hp hq; omega
      · simp only [List.flatMap_cons, List.append_assoc]
        exact List.Perm.append_left _ i5
    · simp only [if_neg hage]
      refine ⟨⟨?_, ?_⟩, ?_, ?_, i4, ?_⟩
      · rw [List.pairwise_cons]
        exact ⟨fun y hy => hlt y (split_mem.1 y hy), i1.sorted⟩
      · intro y hy e he
        rcases List.mem_cons.1 hy with rfl | hy
        · exact hown e he
        · exact i1.own y hy e he
      · intro t
        simp only [lookupHold]
        by_cases ht : x.timestamp = t
        · subst ht; simp [hage]
        · simp [ht, i2 t]
      · intro t
        rw [i3 t]
        simp only [lookupHold]
        by_cases ht : x.timestamp = t
        · subst ht; simp [hlook, hage]
        · simp [ht]
      · simp only [List.flatMap_cons]
        refine List.Perm.trans ?_ (List.Perm.append_left _ i5)
        rw [← List.append_assoc, ← List.append_assoc]
        exact List.Perm.append_right _ List.perm_append_comm

end
end Verif

namespace Verif
section
variable {F : Type} [F64 F] {σ : Type}

theorem stateAfter_append (p : Process F σ) (st : σ) (a b : List (Int × Event F)) :
    stateAfter p st (a ++ b) = stateAfter p (stateAfter p st a) b := by
  induction a generalizing st with
  | nil => rfl
  | cons x a ih => simp [stateAfter, ih]

theorem outputs_append (p : Process F σ) (st : σ) (a b : List (Int × Event F)) :
    outputs p st (a ++ b) = outputs p st a ++ outputs p (stateAfter p st a) b := by
  induction a generalizing st with
  | nil => rfl
  | cons x a ih => simp [outputs, stateAfter, ih]

theorem waiting_snoc (tol : Nat) (t : Int) (h : List (Event F)) (e : Event F) :
    waiting tol t (h ++ [e]) = pendStep tol t (waiting tol t h) e := by
  simp [waiting, List.foldl_append]

/-- One step of the flush boundary filter on well-formed holds. -/
theorem fb_step {s : FlushBoundary F} (h : HoldsOk s.holds) (e : Event F) (now : Int) :
    ∃ hs out, flushBoundaryProcess now s e [] = ({ s with holds := hs }, out, .ok ()) ∧
      HoldsOk hs ∧
      (∀ t, lookupHold t hs = pendStep s.tolerance t (lookupHold t s.holds) e) ∧
      (e.isTimerFlush = false → out = []) ∧
      (e.isTimerFlush = true → ∃ rel, out = rel ++ [e] ∧
        (∀ t, rel.filter (hasTime t) = match lookupHold t s.holds with
          | none => []
          | some (age, es) => if age + 1 > s.tolerance then es else []) ∧
        (∀ x ∈ rel, ∃ t, x.timestamp = some t) ∧
        rel.Pairwise (fun a b => ∀ x y, a.timestamp = some x → b.timestamp = some y → x ≤ y)) ∧
      ((e.isTimerFlush = true ∨ ∃ t, e.timestamp = some t) →
        (out ++ hs.flatMap (·.events)).Perm (s.holds.flatMap (·.events) ++ [e])) := by
  cases hf : e.isTimerFlush with
  | true =>
    obtain ⟨i1, i2, i3, i4, i5⟩ := split_spec (tol := s.tolerance) h.aged
    refine ⟨_, _, by simp only [flushBoundaryProcess, hf, if_true, List.nil_append]; rfl, i1, ?_, by simp, ?_, ?_⟩
    · intro t
      rw [i2, lookupHold_aged]
      cases e <;> simp [Event.isTimerFlush] at hf
      cases lookupHold t s.holds <;> rfl
    · intro _
      refine ⟨_, rfl, ?_, ?_, i4⟩
      · intro t
        rw [i3, lookupHold_aged]
        cases lookupHold t s.holds <;> rfl
      · intro x hx
        obtain ⟨y, hy, hye⟩ := split_mem.2 x hx
        exact ⟨_, h.aged.own y hy x hye⟩
    · intro _
      refine List.Perm.trans (l₂ := ((FlushBoundary.split s.tolerance
        (s.holds.map fun x => { x with age := x.age + 1 })).1 ++ (FlushBoundary.split s.tolerance
        (s.holds.map fun x => { x with age := x.age + 1 })).2.flatMap (·.events)) ++ [e]) ?_ ?_
      · rw [List.append_assoc, List.append_assoc]
        exact List.Perm.append_left _ List.perm_append_comm
      · refine List.Perm.append_right _ (i5.trans ?_)
        rw [List.flatMap_map]
  | false =>
    cases ht : e.timestamp with
    | some ts =>
      obtain ⟨hs, h1, h2, h3, h4⟩ := insert_holds h hf ht now []
      exact ⟨hs, [], h1, h2, h3, by simp, by simp, fun _ => by simpa using h4⟩
    | none =>
      refine ⟨s.holds, [], by simp [flushBoundaryProcess, hf, ht], h, ?_, by simp, by simp,
        by simp⟩
      intro t
      have : hasTime t e = false := by simp [hasTime, ht]
      cases e <;> simp [Event.isTimerFlush] at hf <;> cases lookupHold t s.holds <;>
        simp [pendStep, this]

/-- The state after any history. -/
theorem fb_reachable (tol : Nat) (h : List (Event F)) :
    let s := stateAfter flushBoundaryProcess { tolerance := tol } (h.map (0, ·))
    s.tolerance = tol ∧ HoldsOk s.holds ∧ ∀ t, lookupHold t s.holds = waiting tol t h := by
  rw [← List.reverse_reverse h]
  generalize h.reverse = r
  induction r with
  | nil => exact ⟨rfl, ⟨List.Pairwise.nil, by simp [stateAfter]⟩, fun t => rfl⟩
  | cons e r ih =>
    obtain ⟨i1, i2, i3⟩ := ih
    simp only [List.reverse_cons, List.map_append, stateAfter_append]
    obtain ⟨hs, out, h1, h2, h3, _⟩ := fb_step i2 e 0
    simp only [List.map_cons, List.map_nil, stateAfter]
    rw [h1]
    refine ⟨i1, h2, fun t => ?_⟩
    rw [h3, waiting_snoc, i3, i1]

theorem emitted_snoc (tol : Nat) (h : List (Event F)) (e : Event F) :
    emitted tol (h ++ [e]) = emitted tol h ++ emits tol h e := by
  simp [emitted, emits, outputs_append, outputs]

end
end Verif
