import Verif.Spec.Internal
/-! # Lemmas about the internal source -/
namespace Verif.Internal

theorem names_nodup : (counters.map (·.name)).Nodup := by decide +kernel
theorem atoms_nodup : (counters.map (·.atom)).Nodup := by decide +kernel

theorem nodup_map_inj {α β : Type} {f : α → β} {l : List α} (h : (l.map f).Nodup) {a b : α}
    (ha : a ∈ l) (hb : b ∈ l) (he : f a = f b) : a = b := by
  induction l with
  | nil => simp at ha
  | cons x l ih =>
    simp only [List.map_cons, List.nodup_cons] at h
    rcases List.mem_cons.1 ha with ha' | ha' <;> rcases List.mem_cons.1 hb with hb' | hb'
    · rw [ha', hb']
    · subst ha'
      exact absurd (List.mem_map.2 ⟨b, hb', he.symm⟩) h.1
    · subst hb'
      exact absurd (List.mem_map.2 ⟨a, ha', he⟩) h.1
    · exact ih h.2 ha' hb'

section
variable {F : Type} [F64 F]

theorem point_sum (now : Int) (c : Counter) (v : Nat) (h : c.kind = .sum) :
    point now c v = some (sumPoint (F := F) c.name.toList (v, now)) := by
  simp [point, SoftTelemetry.harden, h, SoftTelemetry.build, sumPoint]

theorem point_name (now : Int) (c : Counter) (v : Nat) (t : Telemetry F)
    (h : point now c v = some t) : t.name = c.name.toList := by
  simp only [point] at h
  split at h
  · next t' ht =>
    simp only [Option.some.injEq] at h
    subst h
    simp only [SoftTelemetry.harden] at ht
    repeat' split at ht
    all_goals first
      | (simp at ht; done)
      | (simp at *; done)
      | (simp only [Except.ok.injEq] at ht; subst ht; simp [SoftTelemetry.build])
      | skip
  · simp at h

theorem point_some (now : Int) (c : Counter) (v : Nat) (h : c.kind = .sum ∨ c.kind = .set) :
    ∃ t, point (F := F) now c v = some t := by
  rcases h with h | h <;> simp [point, SoftTelemetry.harden, h]

theorem overlay_name (md : List (Str × Str)) : ∀ t : Telemetry F,
    (md.foldl (fun acc kv => acc.overlayTag kv.1 kv.2) t).name = t.name := by
  induction md with
  | nil => intro t; rfl
  | cons kv md ih => intro t; rw [List.foldl_cons, ih]; rfl

theorem fullTelemetry_eq (now : Int) (name : Str) (v : F) (md : List (Str × Str)) :
    fullTelemetry now name v md = some (md.foldl (fun acc kv => acc.overlayTag kv.1 kv.2)
      { name := name, value := .sum v, persist := false, tags := none, timestamp := now,
        overrideCount := none, overrideSampleSum := none }) := by
  simp [fullTelemetry, SoftTelemetry.harden, SoftTelemetry.build]

theorem pointsOf_append (name : Str) (es fs : List (Event F)) :
    pointsOf name (es ++ fs) = pointsOf name es ++ pointsOf name fs := by
  induction es with
  | nil => rfl
  | cons e es ih =>
    cases e <;> simp only [List.cons_append, pointsOf, ih]
    split <;> simp

/-- What holds of every reachable state. -/
structure Inv (s : State F) : Prop where
  todo : ∀ cs, s.pass = .reporting cs → ∀ c ∈ cs, c ∈ counters

theorem Inv.step {chans : Bool} {s s' : State F} (h : Inv s) (l : Label F)
    (hs : step chans s l = some s') : Inv s' := by
  cases l with
  | add a n => simp only [Internal.step, Option.some.injEq] at hs; subst hs; exact ⟨h.todo⟩
  | store a n => simp only [Internal.step, Option.some.injEq] at hs; subst hs; exact ⟨h.todo⟩
  | push now name v md =>
    simp only [Internal.step, fullTelemetry_eq, Option.some.injEq] at hs; subst hs; exact ⟨h.todo⟩
  | timeout =>
    simp only [Internal.step] at hs
    by_cases hp : s.pass = .polling
    · rw [if_pos hp, Option.some.injEq] at hs
      subst hs
      refine ⟨fun cs hc => ?_⟩
      cases chans
      · simp at hc
      · simp only [if_true, Pass.reporting.injEq] at hc
        subst hc
        exact fun _ h => h
    · simp [hp] at hs
  | swap now =>
    simp only [Internal.step] at hs
    split at hs
    · next c cs hp =>
      have hcs : ∀ d ∈ cs, d ∈ counters := fun d hd => h.todo _ hp d (List.mem_cons_of_mem _ hd)
      split at hs
      · split at hs
        · simp only [Option.some.injEq] at hs
          subst hs
          exact ⟨fun cs' hc => by simp only [Pass.reporting.injEq] at hc; subst hc; exact hcs⟩
        · simp at hs
      · simp only [Option.some.injEq] at hs
        subst hs
        exact ⟨fun cs' hc => by simp only [Pass.reporting.injEq] at hc; subst hc; exact hcs⟩
    · simp at hs
  | pop =>
    simp only [Internal.step] at hs
    split at hs
    · simp only [Option.some.injEq] at hs; subst hs; exact ⟨h.todo⟩
    · simp only [Option.some.injEq] at hs; subst hs; exact ⟨by simp⟩
    · simp only [Option.some.injEq] at hs; subst hs; exact ⟨h.todo⟩
    · simp only [Option.some.injEq] at hs; subst hs; exact ⟨by simp⟩
    · simp at hs
  | stop =>
    simp only [Internal.step] at hs
    by_cases hp : s.pass = .polling
    · rw [if_pos hp, Option.some.injEq] at hs
      subst hs
      exact ⟨by simp⟩
    · simp [hp] at hs

/-- One step, seen from a counter. -/
theorem counter_step {s s' : State F} (h : Inv s) (c : Counter) (hc : c ∈ counters)
    (hk : c.kind = .sum) (l : Label F) (hst : ∀ n, l ≠ .store c.atom n)
    (hpu : ∀ now v md, l ≠ .push now c.name.toList v md)
    (hq : ∀ t ∈ s.q, t.name ≠ c.name.toList) (hs : step true s l = some s') :
    (∀ t ∈ s'.q, t.name ≠ c.name.toList) ∧
    ∃ vs : List (Nat × Int),
      pointsOf c.name.toList s'.sent = pointsOf c.name.toList s.sent ++ vs.map (sumPoint c.name.toList) ∧
      (∀ v ∈ vs, v.1 ≠ 0) ∧ (vs.map (·.1)).sum + s'.atoms c.atom = s.atoms c.atom + added c.atom [l] := by
  cases l with
  | add a n =>
    simp only [Internal.step, Option.some.injEq] at hs; subst hs
    refine ⟨hq, [], by simp, by simp, ?_⟩
    simp only [List.map_nil, List.sum_nil, assign, added, Nat.zero_add]
    by_cases ha : c.atom = a
    · simp [ha]
    · simp [ha, Ne.symm ha]
  | store a n =>
    simp only [Internal.step, Option.some.injEq] at hs; subst hs
    refine ⟨hq, [], by simp, by simp, ?_⟩
    have : c.atom ≠ a := fun e => hst n (by rw [e])
    simp [assign, added, this]
  | push now name v md =>
    simp only [Internal.step, fullTelemetry_eq, Option.some.injEq] at hs; subst hs
    refine ⟨?_, [], by simp, by simp, by simp [added]⟩
    intro t ht
    rcases List.mem_cons.1 ht with ht | ht
    · rw [ht, overlay_name]
      exact fun e => hpu now v md (by rw [← e])
    · exact hq t ht
  | timeout =>
    simp only [Internal.step] at hs
    by_cases hp : s.pass = .polling
    · rw [if_pos hp, Option.some.injEq] at hs
      subst hs
      exact ⟨hq, [], by simp, by simp, by simp [added]⟩
    · simp [hp] at hs
  | swap now =>
    simp only [Internal.step] at hs
    split at hs
    · next d cs hp =>
      have hd : d ∈ counters := h.todo _ hp d (by simp)
      by_cases hdc : d = c
      · subst hdc
        by_cases hv : s.atoms d.atom ≠ 0
        · rw [if_pos hv, point_sum now d _ hk] at hs
          simp only [Option.some.injEq] at hs
          subst hs
          refine ⟨hq, [(s.atoms d.atom, now)], ?_, by simpa using hv, by simp [assign, added]⟩
          simp [pointsOf_append, pointsOf, sumPoint]
        · rw [if_neg hv] at hs
          simp only [Option.some.injEq] at hs
          subst hs
          refine ⟨hq, [], by simp, by simp, ?_⟩
          simp only [ne_eq, Classical.not_not] at hv
          simp [assign, added, hv]
      · have hna : c.atom ≠ d.atom := fun e => hdc (nodup_map_inj atoms_nodup hd hc e.symm)
        have hnn : d.name.toList ≠ c.name.toList := fun e =>
          hdc (nodup_map_inj names_nodup hd hc (String.toList_inj.1 e))
        split at hs
        · split at hs
          · next t ht =>
            simp only [Option.some.injEq] at hs
            subst hs
            refine ⟨hq, [], ?_, by simp, by simp [assign, added, hna]⟩
            simp [pointsOf_append, pointsOf, point_name now d _ t ht, hnn]
          · simp at hs
        · simp only [Option.some.injEq] at hs
          subst hs
          exact ⟨hq, [], by simp, by simp, by simp [assign, added, hna]⟩
    · simp at hs
  | pop =>
    simp only [Internal.step] at hs
    split at hs
    · next t q hp hqe =>
      simp only [Option.some.injEq] at hs; subst hs
      have hne : t.name ≠ c.name.toList := hq t (by rw [hqe]; simp)
      refine ⟨fun u hu => hq u (by rw [hqe]; simp [hu]), [], ?_, by simp, by simp [added]⟩
      simp [pointsOf_append, pointsOf, hne]
    · simp only [Option.some.injEq] at hs; subst hs; exact ⟨hq, [], by simp, by simp, by simp [added]⟩
    · next t q hp hqe =>
      simp only [Option.some.injEq] at hs; subst hs
      exact ⟨fun u hu => hq u (by rw [hqe]; simp [hu]), [], by simp, by simp, by simp [added]⟩
    · simp only [Option.some.injEq] at hs; subst hs; exact ⟨hq, [], by simp, by simp, by simp [added]⟩
    · simp at hs
  | stop =>
    simp only [Internal.step] at hs
    by_cases hp : s.pass = .polling
    · rw [if_pos hp, Option.some.injEq] at hs
      subst hs
      exact ⟨hq, [], by simp [pointsOf_append, pointsOf], by simp, by simp [added]⟩
    · simp [hp] at hs

omit [F64 F] in
theorem added_cons (a : String) (l : Label F) (ls : List (Label F)) :
    added a (l :: ls) = added a [l] + added a ls := by
  cases l <;> simp [added]

theorem counter_run (c : Counter) (hc : c ∈ counters) (hk : c.kind = .sum) (ls : List (Label F)) :
    ∀ (s s' : State F), Inv s → OnlyAdded c.atom ls → NotPushed c.name.toList ls →
    (∀ t ∈ s.q, t.name ≠ c.name.toList) → run true s ls = some s' →
    Inv s' ∧ (∀ t ∈ s'.q, t.name ≠ c.name.toList) ∧
    ∃ vs : List (Nat × Int),
      pointsOf c.name.toList s'.sent = pointsOf c.name.toList s.sent ++ vs.map (sumPoint c.name.toList) ∧
      (∀ v ∈ vs, v.1 ≠ 0) ∧ (vs.map (·.1)).sum + s'.atoms c.atom = s.atoms c.atom + added c.atom ls := by
  induction ls with
  | nil =>
    intro s s' h _ _ hq hr
    simp only [run, Option.some.injEq] at hr
    subst hr
    exact ⟨h, hq, [], by simp, by simp, by simp [added]⟩
  | cons l ls ih =>
    intro s s' h ho hn hq hr
    simp only [run] at hr
    cases hs : step true s l with
    | none => simp [hs] at hr
    | some s1 =>
      rw [hs] at hr
      obtain ⟨q1, vs, e1, e2, e3⟩ := counter_step h c hc hk l (fun n e => ho n (by simp [e]))
        (fun now v md e => hn now v md (by simp [e])) hq hs
      obtain ⟨i1, q2, ws, f1, f2, f3⟩ := ih s1 s' (h.step l hs)
        (fun n hm => ho n (List.mem_cons_of_mem _ hm))
        (fun now v md hm => hn now v md (List.mem_cons_of_mem _ hm)) q1 hr
      refine ⟨i1, q2, vs ++ ws, by rw [f1, e1]; simp, ?_, ?_⟩
      · intro v hv
        rcases List.mem_append.1 hv with hv | hv
        · exact e2 v hv
        · exact f2 v hv
      · rw [added_cons]
        simp only [List.map_append, List.sum_append]
        omega

theorem inv_queue (c : Counter) (ls : List (Label F)) : ∀ (s s' : State F), Inv s →
    NotPushed c.name.toList ls → (∀ t ∈ s.q, t.name ≠ c.name.toList) → run true s ls = some s' →
    Inv s' ∧ ∀ t ∈ s'.q, t.name ≠ c.name.toList := by
  induction ls with
  | nil => intro s s' h _ hq hr; simp only [run, Option.some.injEq] at hr; subst hr; exact ⟨h, hq⟩
  | cons l ls ih =>
    intro s s' h hn hq hr
    simp only [run] at hr
    cases hs : step true s l with
    | none => simp [hs] at hr
    | some s1 =>
      rw [hs] at hr
      refine ih s1 s' (h.step l hs) (fun now v md hm => hn now v md (List.mem_cons_of_mem _ hm)) ?_ hr
      cases l with
      | push now name v md =>
        simp only [Internal.step, fullTelemetry_eq, Option.some.injEq] at hs; subst hs
        intro t ht
        rcases List.mem_cons.1 ht with ht | ht
        · rw [ht, overlay_name]
          exact fun e => hn now v md (by rw [← e]; simp)
        · exact hq t ht
      | _ =>
        simp only [Internal.step] at hs
        (repeat' split at hs) <;>
          first
            | (simp at hs; done)
            | (simp only [Option.some.injEq] at hs; subst hs; exact hq)
            | (simp only [Option.some.injEq] at hs; subst hs; intro t ht; exact hq t (by simp_all))

theorem handMade_append (es fs : List (Event F)) :
    handMade (es ++ fs) = handMade es ++ handMade fs := by
  induction es with
  | nil => rfl
  | cons e es ih =>
    cases e <;> simp only [List.cons_append, handMade, ih]
    split <;> simp

omit [F64 F] in
theorem counterName_iff (name : Str) : CounterName name ↔ ∃ c ∈ counters, c.name.toList = name := Iff.rfl

/-- Points pushed by hand, one step. -/
theorem queue_step {s s' : State F} (h : Inv s) (l : Label F)
    (hpu : ∀ now name v md, l = .push now name v md → ¬ CounterName name)
    (hq : ∀ t ∈ s.q, ¬ CounterName t.name) (hs : step true s l = some s') (hd : s.pass ≠ .discarding) :
    s'.pass ≠ .discarding ∧ (∀ t ∈ s'.q, ¬ CounterName t.name) ∧
    (handMade s'.sent ++ s'.q).Perm (handMade s.sent ++ s.q ++ pushed [l]) := by
  cases l with
  | add a n =>
    simp only [Internal.step, Option.some.injEq] at hs; subst hs
    exact ⟨hd, hq, by simp [pushed]⟩
  | store a n =>
    simp only [Internal.step, Option.some.injEq] at hs; subst hs
    exact ⟨hd, hq, by simp [pushed]⟩
  | push now name v md =>
    simp only [Internal.step, fullTelemetry_eq, Option.some.injEq] at hs; subst hs
    refine ⟨hd, ?_, ?_⟩
    · intro t ht
      rcases List.mem_cons.1 ht with ht | ht
      · rw [ht, overlay_name]
        exact hpu now name v md rfl
      · exact hq t ht
    · simp only [pushed, List.append_assoc]
      exact List.Perm.append_left _ (List.perm_append_comm (l₁ := [_]))
  | timeout =>
    simp only [Internal.step] at hs
    by_cases hp : s.pass = .polling
    · rw [if_pos hp, Option.some.injEq] at hs
      subst hs
      exact ⟨by simp, hq, by simp [pushed]⟩
    · simp [hp] at hs
  | swap now =>
    simp only [Internal.step] at hs
    split at hs
    · next d cs hp =>
      have hdc : d ∈ counters := h.todo _ hp d (by simp)
      split at hs
      · split at hs
        · next t ht =>
          simp only [Option.some.injEq] at hs
          subst hs
          have hn : CounterName t.name := ⟨d, hdc, (point_name now d _ t ht).symm⟩
          exact ⟨by simp, hq, by simp [handMade_append, handMade, hn, pushed]⟩
        · simp at hs
      · simp only [Option.some.injEq] at hs
        subst hs
        exact ⟨by simp, hq, by simp [pushed]⟩
    · simp at hs
  | pop =>
    simp only [Internal.step] at hs
    split at hs
    · next t q hp hqe =>
      simp only [Option.some.injEq] at hs; subst hs
      have hne := hq t (by rw [hqe]; simp)
      refine ⟨hd, fun u hu => hq u (by rw [hqe]; simp [hu]), ?_⟩
      simp [handMade_append, handMade, hne, hqe, pushed]
    · simp only [Option.some.injEq] at hs; subst hs; exact ⟨by simp, hq, by simp [pushed]⟩
    · next hp _ => exact absurd hp hd
    · next hp _ => exact absurd hp hd
    · simp at hs
  | stop =>
    simp only [Internal.step] at hs
    by_cases hp : s.pass = .polling
    · rw [if_pos hp, Option.some.injEq] at hs
      subst hs
      exact ⟨by simp, hq, by simp [handMade_append, handMade, pushed]⟩
    · simp [hp] at hs

theorem pushed_cons (l : Label F) (ls : List (Label F)) : pushed (l :: ls) = pushed [l] ++ pushed ls := by
  cases l <;> simp [pushed]

theorem queue_run (ls : List (Label F)) : ∀ (s s' : State F), Inv s →
    (∀ now name v md, Label.push now name v md ∈ ls → ¬ CounterName name) →
    (∀ t ∈ s.q, ¬ CounterName t.name) → s.pass ≠ .discarding → run true s ls = some s' →
    (handMade s'.sent ++ s'.q).Perm (handMade s.sent ++ s.q ++ pushed ls) := by
  induction ls with
  | nil =>
    intro s s' h _ _ _ hr
    simp only [run, Option.some.injEq] at hr
    subst hr
    simp [pushed]
  | cons l ls ih =>
    intro s s' h hn hq hd hr
    simp only [run] at hr
    cases hs : step true s l with
    | none => simp [hs] at hr
    | some s1 =>
      rw [hs] at hr
      obtain ⟨d1, q1, e1⟩ := queue_step h l (fun now name v md e => hn now name v md (by simp [e])) hq hs hd
      refine (ih s1 s' (h.step l hs) (fun now name v md hm => hn now name v md (List.mem_cons_of_mem _ hm))
        q1 d1 hr).trans ?_
      rw [pushed_cons, ← List.append_assoc]
      exact e1.append_right _

theorem point_set (now : Int) (c : Counter) (v : Nat) (h : c.kind = .set) :
    point now c v = some (setPoint (F := F) c.name.toList (v, now)) := by
  simp [point, SoftTelemetry.harden, h, SoftTelemetry.build, setPoint]

/-- The reports of a gauge are of values in `P`. -/
def Gauges (P : Nat → Prop) (c : Counter) (s : State F) : Prop :=
  (∀ t ∈ s.q, t.name ≠ c.name.toList) ∧ (s.atoms c.atom ≠ 0 → P (s.atoms c.atom)) ∧
  ∀ t ∈ pointsOf c.name.toList s.sent, ∃ v : Nat × Int, t = setPoint c.name.toList v ∧ v.1 ≠ 0 ∧ P v.1

theorem gauge_step {s s' : State F} (h : Inv s) (P : Nat → Prop) (c : Counter) (hc : c ∈ counters)
    (hk : c.kind = .set) (l : Label F) (had : ∀ n, l ≠ .add c.atom n) (hst : ∀ n, l = .store c.atom n → P n)
    (hpu : ∀ now v md, l ≠ .push now c.name.toList v md)
    (hg : Gauges P c s) (hs : step true s l = some s') : Gauges P c s' := by
  obtain ⟨hq, ha, hp⟩ := hg
  cases l with
  | add a n =>
    simp only [Internal.step, Option.some.injEq] at hs; subst hs
    have : c.atom ≠ a := fun e => had n (by rw [e])
    exact ⟨hq, by simpa [assign, this] using ha, hp⟩
  | store a n =>
    simp only [Internal.step, Option.some.injEq] at hs; subst hs
    refine ⟨hq, ?_, hp⟩
    by_cases e : c.atom = a
    · simp only [assign, if_pos e]
      exact fun _ => hst n (by rw [e])
    · simpa [assign, e] using ha
  | push now name v md =>
    simp only [Internal.step, fullTelemetry_eq, Option.some.injEq] at hs; subst hs
    refine ⟨?_, ha, hp⟩
    intro t ht
    rcases List.mem_cons.1 ht with ht | ht
    · rw [ht, overlay_name]
      exact fun e => hpu now v md (by rw [← e])
    · exact hq t ht
  | timeout =>
    simp only [Internal.step] at hs
    by_cases hpp : s.pass = .polling
    · rw [if_pos hpp, Option.some.injEq] at hs
      subst hs
      exact ⟨hq, ha, hp⟩
    · simp [hpp] at hs
  | swap now =>
    simp only [Internal.step] at hs
    split at hs
    · next d cs hpp =>
      have hd : d ∈ counters := h.todo _ hpp d (by simp)
      by_cases hdc : d = c
      · subst hdc
        by_cases hv : s.atoms d.atom ≠ 0
        · rw [if_pos hv, point_set now d _ hk] at hs
          simp only [Option.some.injEq] at hs
          subst hs
          refine ⟨hq, by simp [assign], ?_⟩
          intro t ht
          simp only [pointsOf_append, List.mem_append] at ht
          rcases ht with ht | ht
          · exact hp t ht
          · simp only [pointsOf, setPoint, if_true, List.mem_singleton] at ht
            exact ⟨(_, _), ht, hv, ha hv⟩
        · rw [if_neg hv] at hs
          simp only [Option.some.injEq] at hs
          subst hs
          exact ⟨hq, by simp [assign], hp⟩
      · have hna : c.atom ≠ d.atom := fun e => hdc (nodup_map_inj atoms_nodup hd hc e.symm)
        have hnn : d.name.toList ≠ c.name.toList := fun e =>
          hdc (nodup_map_inj names_nodup hd hc (String.toList_inj.1 e))
        split at hs
        · split at hs
          · next t ht =>
            simp only [Option.some.injEq] at hs
            subst hs
            refine ⟨hq, by simpa [assign, hna] using ha, ?_⟩
            simpa [pointsOf_append, pointsOf, point_name now d _ t ht, hnn] using hp
          · simp at hs
        · simp only [Option.some.injEq] at hs
          subst hs
          exact ⟨hq, by simpa [assign, hna] using ha, hp⟩
    · simp at hs
  | pop =>
    simp only [Internal.step] at hs
    split at hs
    · next t q hpp hqe =>
      simp only [Option.some.injEq] at hs; subst hs
      have hne : t.name ≠ c.name.toList := hq t (by rw [hqe]; simp)
      refine ⟨fun u hu => hq u (by rw [hqe]; simp [hu]), ha, ?_⟩
      simpa [pointsOf_append, pointsOf, hne] using hp
    · simp only [Option.some.injEq] at hs; subst hs; exact ⟨hq, ha, hp⟩
    · next t q hpp hqe =>
      simp only [Option.some.injEq] at hs; subst hs
      exact ⟨fun u hu => hq u (by rw [hqe]; simp [hu]), ha, hp⟩
    · simp only [Option.some.injEq] at hs; subst hs; exact ⟨hq, ha, hp⟩
    · simp at hs
  | stop =>
    simp only [Internal.step] at hs
    by_cases hpp : s.pass = .polling
    · rw [if_pos hpp, Option.some.injEq] at hs
      subst hs
      exact ⟨hq, ha, by simpa [pointsOf_append, pointsOf] using hp⟩
    · simp [hpp] at hs

theorem gauge_run (P : Nat → Prop) (c : Counter) (hc : c ∈ counters) (hk : c.kind = .set)
    (ls : List (Label F)) : ∀ (s s' : State F), Inv s → OnlyStored c.atom ls →
    (∀ n, Label.store c.atom n ∈ ls → P n) → NotPushed c.name.toList ls → Gauges P c s →
    run true s ls = some s' → Gauges P c s' := by
  induction ls with
  | nil =>
    intro s s' h _ _ _ hg hr
    simp only [run, Option.some.injEq] at hr
    subst hr
    exact hg
  | cons l ls ih =>
    intro s s' h ho hP hn hg hr
    simp only [run] at hr
    cases hs : step true s l with
    | none => simp [hs] at hr
    | some s1 =>
      rw [hs] at hr
      exact ih s1 s' (h.step l hs) (fun n hm => ho n (List.mem_cons_of_mem _ hm))
        (fun n hm => hP n (List.mem_cons_of_mem _ hm))
        (fun now v md hm => hn now v md (List.mem_cons_of_mem _ hm))
        (gauge_step h P c hc hk l (fun n e => ho n (by simp [e])) (fun n e => hP n (by simp [e]))
          (fun now v md e => hn now v md (by simp [e])) hg hs) hr

/-- One shutdown, at the end. -/
def Ended (s : State F) : Prop :=
  (s.pass = .returned → ∃ es, s.sent = es ++ [.shutdown] ∧ .shutdown ∉ es) ∧
  (s.pass ≠ .returned → .shutdown ∉ s.sent)

theorem shutdown_step {s s' : State F} (l : Label F) (h : Ended s) (hs : step true s l = some s') :
    Ended s' := by
  cases l with
  | push now name v md =>
    simp only [Internal.step, fullTelemetry_eq, Option.some.injEq] at hs; subst hs; exact h
  | stop =>
    simp only [Internal.step] at hs
    by_cases hpp : s.pass = .polling
    · rw [if_pos hpp, Option.some.injEq] at hs
      subst hs
      exact ⟨fun _ => ⟨s.sent, rfl, h.2 (by simp [hpp])⟩, by simp⟩
    · simp [hpp] at hs
  | timeout =>
    simp only [Internal.step] at hs
    by_cases hpp : s.pass = .polling
    · rw [if_pos hpp, Option.some.injEq] at hs
      subst hs
      exact ⟨by simp, fun _ => h.2 (by simp [hpp])⟩
    · simp [hpp] at hs
  | add a n => simp only [Internal.step, Option.some.injEq] at hs; subst hs; exact h
  | store a n => simp only [Internal.step, Option.some.injEq] at hs; subst hs; exact h
  | swap now =>
    simp only [Internal.step] at hs
    split at hs
    · next d cs hpp =>
      have h2 := h.2 (by simp [hpp])
      split at hs
      · split at hs
        · simp only [Option.some.injEq] at hs
          subst hs
          exact ⟨by simp, fun _ => by simpa using h2⟩
        · simp at hs
      · simp only [Option.some.injEq] at hs
        subst hs
        exact ⟨by simp, fun _ => h2⟩
    · simp at hs
  | pop =>
    simp only [Internal.step] at hs
    split at hs
    · next t q hpp hqe =>
      simp only [Option.some.injEq] at hs; subst hs
      exact ⟨by simp [hpp], fun _ => by simpa using h.2 (by simp [hpp])⟩
    · next hpp _ =>
      simp only [Option.some.injEq] at hs; subst hs
      exact ⟨by simp, fun _ => by simpa using h.2 (by simp [hpp])⟩
    · next hpp _ =>
      simp only [Option.some.injEq] at hs; subst hs
      exact ⟨by simp [hpp], fun _ => by simpa using h.2 (by simp [hpp])⟩
    · next hpp _ =>
      simp only [Option.some.injEq] at hs; subst hs
      exact ⟨by simp, fun _ => by simpa using h.2 (by simp [hpp])⟩
    · simp at hs

theorem shutdown_run (ls : List (Label F)) : ∀ (s s' : State F), Ended s → run true s ls = some s' →
    Ended s' := by
  induction ls with
  | nil => intro s s' h hr; simp only [run, Option.some.injEq] at hr; subst hr; exact h
  | cons l ls ih =>
    intro s s' h hr
    simp only [run] at hr
    cases hs : step true s l with
    | none => simp [hs] at hr
    | some s1 => rw [hs] at hr; exact ih s1 s' (shutdown_step l h hs) hr

/-- Without channels nothing is sent. -/
theorem nochans_run (ls : List (Label F)) : ∀ (s s' : State F), (∀ cs, s.pass ≠ .reporting cs) →
    run false s ls = some s' → s'.sent = s.sent := by
  induction ls with
  | nil => intro s s' _ hr; simp only [run, Option.some.injEq] at hr; subst hr; rfl
  | cons l ls ih =>
    intro s s' hp hr
    simp only [run] at hr
    cases hs : step false s l with
    | none => simp [hs] at hr
    | some s1 =>
      rw [hs] at hr
      have : (∀ cs, s1.pass ≠ .reporting cs) ∧ s1.sent = s.sent := by
        cases l <;> simp only [step] at hs <;> (repeat' split at hs) <;>
          first
            | (simp at hs; done)
            | (exfalso; simp_all; done)
            | (rename_i hc; exact absurd hc (hp _))
            | (rename_i hc _; exact absurd hc (hp _))
            | (simp only [Option.some.injEq] at hs; subst hs; exact ⟨by simpa using hp, rfl⟩)
            | (simp only [Option.some.injEq] at hs; subst hs; exact ⟨by simp, rfl⟩)
            | skip
      rw [ih s1 s' this.1 hr, this.2]

end
end Verif.Internal
