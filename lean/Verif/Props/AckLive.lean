import Verif.Spec.AckLive
import Verif.Lemmas.Ack
import Verif.Props.Ack
/-!
# C147: a synchronous publish is answered if and only if a message of its connection is acknowledged
-/
namespace Verif
open Ack

private theorem exec_inv {acts : Nat → Option Act} {w : Nat → World} (h : Exec acts w) (t : Nat) : Inv (w t) := by
  induction t with
  | zero => rw [h.start]; exact inv_init
  | succ t ih =>
    cases ha : acts t with
    | none => rw [h.idle t ha]; exact ih
    | some a => exact inv_step _ _ a ih (h.step t a ha)

/-- What a step can do to the history: nothing, or one more event. -/
private theorem step_trace {w w' : World} {a : Act} (h : w.step a = some w') : w'.trace = w.trace ∨ ∃ e, w'.trace = w.trace ++ [e] := by
  cases a <;> simp only [World.step] at h
  case poll c =>
    revert h
    cases hp : (w.threads c).pc <;> simp only [reduceCtorEq, false_implies]
    cases hb : w.bag.propsFor c <;> simp only
    · intro h; injection h with h; subst h; exact Or.inl rfl
    · intro h
      split at h <;> (injection h with h; subst h; exact Or.inl rfl)
  case sinkAck c n =>
    split at h
    · injection h with h; subst h; exact Or.inr ⟨_, rfl⟩
    · simp at h
  all_goals
    revert h
    split <;> intro h
    · injection h with h
      subst h
      first | exact Or.inr ⟨_, rfl⟩ | exact Or.inl rfl
    · simp at h

private theorem trace_mono {acts : Nat → Option Act} {w : Nat → World} (h : Exec acts w) (t k : Nat) : (w t).trace <+: (w (t + k)).trace := by
  induction k with
  | zero => exact List.prefix_refl _
  | succ k ih =>
    refine ih.trans ?_
    show (w (t + k)).trace <+: (w (t + k + 1)).trace
    cases ha : acts (t + k) with
    | none => rw [h.idle _ ha]; exact List.prefix_refl _
    | some a =>
      rcases step_trace (h.step _ a ha) with e | ⟨x, e⟩ <;> rw [e]
      · exact List.prefix_refl _
      · exact List.prefix_append _ _

/-- a step that is not one of the thread's own leaves a thread in the middle of a synchronous publish alone, and its registration the last one -/
private theorem step_other {w w' : World} {a : Act} {c : Nat} (h : w.step a = some w') (hf : ¬ a.finishes c) (hi : (w.threads c).pc ≠ .idle) :
    w'.threads c = w.threads c ∧ (view c w.trace).1 = (view c w'.trace).1 ∧ ((view c w.trace).2 ≠ [] → (view c w'.trace).2 ≠ []) := by
  cases a with
  | publishAsync c' k =>
    simp only [World.step] at h
    split at h
    · next hpc =>
      injection h with h; subst h
      have hc : c ≠ c' := by rintro rfl; exact hi hpc
      simp only [World.setThread]
      rw [view_other c _ _ (by simp)]
      simp [hc]
    · simp at h
  | publishSync c' =>
    simp only [World.step] at h
    split at h
    · next hpc =>
      injection h with h; subst h
      have hc : c ≠ c' := by rintro rfl; exact hi hpc
      simp only [World.setThread]
      rw [view_other c _ _ (by
        intro x n h
        rcases h with h | h
        · simp only [AckEvent.registered.injEq] at h; rw [← h.1]; exact fun e => hc e.symm
        · simp at h)]
      simp [hc]
    · simp at h
  | send c' k =>
    have hc : c ≠ c' := fun e => hf e.symm
    simp only [World.step] at h
    split at h
    · injection h with h; subst h
      simp only [World.setThread]
      rw [view_other c _ _ (by simp)]
      simp [hc]
    · simp at h
  | poll c' =>
    have hc : c ≠ c' := fun e => hf e.symm
    simp only [World.step] at h
    split at h
    · split at h
      · split at h <;> (injection h with h; subst h; simp [World.setThread, hc])
      · injection h with h; subst h; simp [World.setThread, hc]
    · simp at h
  | remove c' =>
    have hc : c ≠ c' := fun e => hf e.symm
    simp only [World.step] at h
    split at h
    · injection h with h; subst h; simp [World.setThread, hc]
    · simp at h
  | answer c' =>
    have hc : c ≠ c' := fun e => hf e.symm
    simp only [World.step] at h
    split at h
    · injection h with h; subst h
      simp only [World.setThread]
      rw [view_other c _ _ (by simp)]
      simp [hc]
    · simp at h
  | sinkAck c' n =>
    simp only [World.step] at h
    split at h
    · injection h with h; subst h
      refine ⟨rfl, ?_⟩
      rw [view_snoc]
      by_cases hc : c' = c
      · simp [hc]
      · simp [hc]
    · simp at h

/-- the next of the thread's own steps, and how things stand then -/
private theorem next_own {acts : Nat → Option Act} {w : Nat → World} (h : Exec acts w) {c : Nat} (hsch : Scheduled acts w c) (t : Nat)
    (hi : ((w t).threads c).pc ≠ .idle) :
    ∃ t' ≥ t, ∃ a, acts t' = some a ∧ a.finishes c ∧ (w t').threads c = (w t).threads c ∧
      (view c (w t).trace).1 = (view c (w t').trace).1 ∧ ((view c (w t).trace).2 ≠ [] → (view c (w t').trace).2 ≠ []) := by
  obtain ⟨t', ht, a, ha, hf⟩ := hsch t hi
  obtain ⟨k, rfl⟩ := Nat.exists_eq_add_of_le ht
  clear ht
  induction k generalizing t with
  | zero => exact ⟨t, Nat.le_refl _, a, ha, hf, rfl, rfl, id⟩
  | succ k ih =>
    have go : (w (t + 1)).threads c = (w t).threads c → (view c (w t).trace).1 = (view c (w (t + 1)).trace).1 →
        ((view c (w t).trace).2 ≠ [] → (view c (w (t + 1)).trace).2 ≠ []) →
        ∃ t' ≥ t, ∃ a, acts t' = some a ∧ a.finishes c ∧ (w t').threads c = (w t).threads c ∧
          (view c (w t).trace).1 = (view c (w t').trace).1 ∧ ((view c (w t).trace).2 ≠ [] → (view c (w t').trace).2 ≠ []) := by
      intro e1 e2 e3
      obtain ⟨t', g0, b, g1, g2, g3, g4, g5⟩ := ih (t + 1) (by rw [e1]; exact hi) (by rw [Nat.add_right_comm]; exact ha)
      exact ⟨t', Nat.le_of_succ_le g0, b, g1, g2, g3.trans e1, e2.trans g4, fun x => g5 (e3 x)⟩
    cases hb : acts t with
    | none =>
      have := h.idle t hb
      exact go (by rw [this]) (by rw [this]) (by rw [this]; exact id)
    | some b =>
      by_cases hfb : b.finishes c
      · exact ⟨t, Nat.le_refl _, b, hb, hfb, rfl, rfl, id⟩
      · obtain ⟨e1, e2, e3⟩ := step_other (h.step t b hb) hfb hi
        exact go e1 e2 e3

/-- from `answering` on -/
private theorem live_answering {acts : Nat → Option Act} {w : Nat → World} (h : Exec acts w) {c : Nat} (hsch : Scheduled acts w c) (t n : Nat)
    (hpc : (w t).threads c = ⟨.answering, n⟩) : ∃ t' ≥ t, .answered c n ∈ (w t').trace := by
  obtain ⟨t', ht, a, ha, hf, hth, -⟩ := next_own h hsch t (by rw [hpc]; simp)
  refine ⟨t' + 1, by omega, ?_⟩
  have hst := h.step t' a ha
  rw [hpc] at hth
  cases a <;> simp only [Act.finishes] at hf <;> subst hf <;> simp only [World.step, hth] at hst
  all_goals first
    | (simp at hst; done)
    | (injection hst with hst; rw [← hst]; simp)

private theorem live_released {acts : Nat → Option Act} {w : Nat → World} (h : Exec acts w) {c : Nat} (hsch : Scheduled acts w c) (t n : Nat)
    (hpc : (w t).threads c = ⟨.released, n⟩) : ∃ t' ≥ t, .answered c n ∈ (w t').trace := by
  obtain ⟨t', ht, a, ha, hf, hth, -⟩ := next_own h hsch t (by rw [hpc]; simp)
  have hst := h.step t' a ha
  rw [hpc] at hth
  have : (w (t' + 1)).threads c = ⟨.answering, n⟩ := by
    cases a <;> simp only [Act.finishes] at hf <;> subst hf <;> simp only [World.step, hth] at hst
    all_goals first
      | (simp at hst; done)
      | (injection hst with hst; rw [← hst]; simp [World.setThread])
  obtain ⟨t2, h2, h3⟩ := live_answering h hsch _ n this
  exact ⟨t2, by omega, h3⟩

private theorem live_waiting {acts : Nat → Option Act} {w : Nat → World} (h : Exec acts w) {c : Nat} (hsch : Scheduled acts w c) (t n nap : Nat)
    (hpc : (w t).threads c = ⟨.waiting nap, n⟩) (hv : (view c (w t).trace).2 ≠ []) : ∃ t' ≥ t, .answered c n ∈ (w t').trace := by
  obtain ⟨t', ht, a, ha, hf, hth, -, hv'⟩ := next_own h hsch t (by rw [hpc]; simp)
  have hst := h.step t' a ha
  have hI := (exec_inv h t').1 c
  rw [hpc] at hth
  simp only [ConnOk, hth] at hI
  have hpos : min (view c (w t').trace).2.length usizeMax ≠ 0 := by
    have := List.length_pos_iff.2 (hv' hv)
    have : 0 < usizeMax := by decide
    omega
  have : (w (t' + 1)).threads c = ⟨.released, n⟩ := by
    cases a <;> simp only [Act.finishes] at hf <;> subst hf <;> simp only [World.step, hth, Bag.propsFor, hI.1, if_neg hpos] at hst
    all_goals first
      | (simp at hst; done)
      | (injection hst with hst; rw [← hst]; simp [World.setThread])
  obtain ⟨t2, h2, h3⟩ := live_released h hsch _ n this
  exact ⟨t2, by omega, h3⟩

/-- the thread gets round to sending -/
theorem Ack.live_prepared {acts : Nat → Option Act} {w : Nat → World} (h : Exec acts w) {c : Nat} (hsch : Scheduled acts w c) (t n : Nat)
    (hpc : (w t).threads c = ⟨.prepared, n⟩) :
    ∃ t' ≥ t, ∃ copies, acts t' = some (.send c copies) ∧ (w (t' + 1)).threads c = ⟨.waiting 5, n⟩ ∧
      (w (t' + 1)).inflight = (w t').inflight ++ List.replicate copies (c, n) ∧
      (view c (w t).trace).1 = (view c (w (t' + 1)).trace).1 ∧ ((view c (w t).trace).2 ≠ [] → (view c (w (t' + 1)).trace).2 ≠ []) := by
  obtain ⟨t', ht, a, ha, hf, hth, hv1, hv2⟩ := next_own h hsch t (by rw [hpc]; simp)
  refine ⟨t', ht, ?_⟩
  have hst := h.step t' a ha
  rw [hpc] at hth
  cases a <;> simp only [Act.finishes] at hf <;> subst hf <;> simp only [World.step, hth] at hst
  all_goals first
    | (simp at hst; done)
    | skip
  case send c copies =>
    injection hst with hst
    refine ⟨copies, ha, ?_⟩
    rw [← hst]
    simp only [World.setThread, if_true, true_and]
    rw [view_other c _ _ (by simp)]
    exact ⟨hv1, hv2⟩

/-- a thread is in the middle of the frame it registered until it has answered it -/
private theorem mid_frame {acts : Nat → Option Act} {w : Nat → World} (h : Exec acts w) (c n : Nat) (t : Nat)
    (hr : .registered c n ∈ (w t).trace) :
    .answered c n ∈ (w t).trace ∨ (((w t).threads c).pc ≠ .idle ∧ ((w t).threads c).frame = n) := by
  induction t with
  | zero => rw [h.start] at hr; simp at hr
  | succ t ih =>
    cases ha : acts t with
    | none => rw [h.idle t ha] at hr ⊢; exact ih hr
    | some a =>
      have hst := h.step t a ha
      have keep : .registered c n ∈ (w t).trace → ¬ a.finishes c →
          .answered c n ∈ (w (t + 1)).trace ∨ (((w (t + 1)).threads c).pc ≠ .idle ∧ ((w (t + 1)).threads c).frame = n) := by
        intro hr hf
        rcases ih hr with g | g
        · exact Or.inl ((trace_mono h t 1).subset g)
        · obtain ⟨e, -⟩ := step_other hst hf g.1
          exact Or.inr (by rw [e]; exact g)
      have own : .registered c n ∈ (w t).trace → a.finishes c →
          .answered c n ∈ (w (t + 1)).trace ∨ (((w (t + 1)).threads c).pc ≠ .idle ∧ ((w (t + 1)).threads c).frame = n) := by
        intro hr hf
        rcases ih hr with g | ⟨-, g⟩
        · exact Or.inl ((trace_mono h t 1).subset g)
        · cases a <;> simp only [Act.finishes] at hf <;> subst hf <;> simp only [World.step] at hst
          case send c k =>
            split at hst
            · injection hst with hst; rw [← hst]; right; simp [World.setThread, g]
            · simp at hst
          case poll c =>
            split at hst
            · split at hst
              · split at hst <;> (injection hst with hst; rw [← hst]; right; simp [World.setThread, g])
              · injection hst with hst; rw [← hst]; right; simp [World.setThread, g]
            · simp at hst
          case remove c =>
            split at hst
            · injection hst with hst; rw [← hst]; right; simp [World.setThread, g]
            · simp at hst
          case answer c =>
            split at hst
            · injection hst with hst; rw [← hst]; left; simp [g]
            · simp at hst
      have old : .registered c n ∈ (w t).trace →
          .answered c n ∈ (w (t + 1)).trace ∨ (((w (t + 1)).threads c).pc ≠ .idle ∧ ((w (t + 1)).threads c).frame = n) := by
        intro hr
        by_cases hf : a.finishes c
        · exact own hr hf
        · exact keep hr hf
      by_cases hr' : .registered c n ∈ (w t).trace
      · exact old hr'
      · cases a <;> simp only [World.step] at hst
        case publishSync c' =>
          split at hst
          · injection hst with hst
            rw [← hst] at hr ⊢
            simp only [List.mem_append, List.mem_singleton, hr', false_or, AckEvent.registered.injEq] at hr
            obtain ⟨rfl, rfl⟩ := hr
            right
            simp [World.setThread]
          · simp at hst
        case poll c' =>
          exfalso
          split at hst
          · split at hst
            · split at hst <;> (injection hst with hst; rw [← hst] at hr; exact hr' hr)
            · injection hst with hst; rw [← hst] at hr; exact hr' hr
          · simp at hst
        case sinkAck c' m =>
          exfalso
          split at hst
          · injection hst with hst; rw [← hst] at hr; simp [hr'] at hr
          · simp at hst
        all_goals
          exfalso
          split at hst
          · injection hst with hst; rw [← hst] at hr; first | exact hr' hr | simp [hr'] at hr
          · simp at hst

private theorem view_of_acked {c n m : Nat} {t : List AckEvent} (h : AckedSinceRegistered t c n m) : (view c t).1 = some n ∧ (view c t).2 ≠ [] := by
  obtain ⟨a, b, e, hb, hm⟩ := h
  subst e
  have : ∀ r : List AckEvent, (∀ k, .registered c k ∉ r) → (view c (a ++ .registered c n :: r)).1 = some n ∧
      ((∃ m, .acked c m ∈ r) → (view c (a ++ .registered c n :: r)).2 ≠ []) := by
    intro r
    have hrev : ∀ s : List AckEvent, (∀ k, .registered c k ∉ s.reverse) → (view c (a ++ .registered c n :: s.reverse)).1 = some n ∧
        ((∃ m, .acked c m ∈ s.reverse) → (view c (a ++ .registered c n :: s.reverse)).2 ≠ []) := by
      intro s
      induction s with
      | nil => intro _; rw [List.reverse_nil, view_snoc]; simp
      | cons e s ih =>
        intro hs
        rw [List.reverse_cons] at hs ⊢
        obtain ⟨i1, i2⟩ := ih (fun k hk => hs k (List.mem_append_left _ hk))
        rw [← List.cons_append, ← List.append_assoc, view_snoc]
        cases e with
        | registered c' k =>
          have : c' ≠ c := by rintro rfl; exact hs k (by simp)
          simp only [if_neg this]
          exact ⟨i1, fun ⟨m, hm⟩ => i2 ⟨m, by simpa using hm⟩⟩
        | acked c' k =>
          by_cases hc : c' = c
          · simp only [if_pos hc]; exact ⟨i1, fun _ => by simp⟩
          · simp only [if_neg hc]
            exact ⟨i1, fun ⟨m, hm⟩ => i2 ⟨m, by
              rcases List.mem_append.1 hm with hm | hm
              · exact hm
              · simp only [List.mem_singleton, AckEvent.acked.injEq] at hm; exact absurd hm.1.symm hc⟩⟩
        | sent _ _ => exact ⟨i1, fun ⟨m, hm⟩ => i2 ⟨m, by simpa using hm⟩⟩
        | answered _ _ => exact ⟨i1, fun ⟨m, hm⟩ => i2 ⟨m, by simpa using hm⟩⟩
    have := hrev r.reverse
    rwa [List.reverse_reverse] at this
  exact ⟨(this b hb).1, (this b hb).2 ⟨m, hm⟩⟩

/-- **C147 (when it is answered).**  Take any execution that goes on for ever and in which the thread of connection `c` keeps getting its turn.  A synchronous publish it has
registered is answered if and only if, at some moment, a message of the connection has been acknowledged since the registration: nothing else releases it - there is
no timeout - and that always does. -/
theorem C147_answered_iff (acts : Nat → Option Act) (w : Nat → World) (h : Exec acts w) (c : Nat) (hsch : Scheduled acts w c)
    (t n : Nat) (hr : .registered c n ∈ (w t).trace) :
    (∃ t', .answered c n ∈ (w t').trace) ↔ ∃ t' m, AckedSinceRegistered (w t').trace c n m := by
  constructor
  · rintro ⟨t', ha⟩
    induction t' with
    | zero => rw [h.start] at ha; simp at ha
    | succ t' ih =>
      by_cases hb : .answered c n ∈ (w t').trace
      · exact ih hb
      · have hI := (exec_inv h (t' + 1)).2
        cases hact : acts t' with
        | none => rw [h.idle t' hact] at ha; exact absurd ha hb
        | some a =>
          rcases step_trace (h.step t' a hact) with e | ⟨x, e⟩
          · rw [e] at ha; exact absurd ha hb
          · rw [e] at ha
            rcases List.mem_append.1 ha with ha | ha
            · exact absurd ha hb
            · rw [List.mem_singleton.1 ha |>.symm] at e
              obtain ⟨m, hm, -⟩ := hI (w t').trace c n [] e
              exact ⟨t', m, hm⟩
  · rintro ⟨t', m, hm⟩
    have hreg : .registered c n ∈ (w t').trace := by obtain ⟨a, b, e, -⟩ := hm; rw [e]; simp
    obtain ⟨hv1, hv2⟩ := view_of_acked hm
    rcases mid_frame h c n t' hreg with g | ⟨g1, g2⟩
    · exact ⟨t', g⟩
    · have hth : (w t').threads c = ⟨((w t').threads c).pc, n⟩ := by rw [← g2]
      cases hpc : ((w t').threads c).pc with
      | idle => exact absurd hpc g1
      | prepared =>
        rw [hpc] at hth
        obtain ⟨t2, -, k, -, e1, -, -, e4⟩ := live_prepared h hsch t' n hth
        obtain ⟨t3, -, h3⟩ := live_waiting h hsch _ n 5 e1 (e4 hv2)
        exact ⟨t3, h3⟩
      | waiting nap =>
        rw [hpc] at hth
        obtain ⟨t3, -, h3⟩ := live_waiting h hsch _ n nap hth hv2
        exact ⟨t3, h3⟩
      | released => rw [hpc] at hth; obtain ⟨t3, -, h3⟩ := live_released h hsch _ n hth; exact ⟨t3, h3⟩
      | answering => rw [hpc] at hth; obtain ⟨t3, -, h3⟩ := live_answering h hsch _ n hth; exact ⟨t3, h3⟩

/-- the thread stays where it waits, with its registration the last, until it is released -/
private theorem waits_until {acts : Nat → Option Act} {w : Nat → World} (h : Exec acts w) {c n : Nat} (t : Nat)
    (hpc : ∃ nap, (w t).threads c = ⟨.waiting nap, n⟩) (k : Nat) :
    (∃ t', .answered c n ∈ (w t').trace ∨ (view c (w t').trace).2 ≠ [] ∧ (w t').threads c = ⟨.released, n⟩) ∨
      ∃ nap, (w (t + k)).threads c = ⟨.waiting nap, n⟩ := by
  induction k with
  | zero => exact Or.inr hpc
  | succ k ih =>
    rcases ih with ih | ⟨nap, ih⟩
    · exact Or.inl ih
    · show _ ∨ ∃ nap, (w (t + k + 1)).threads c = _
      cases ha : acts (t + k) with
      | none => rw [h.idle _ ha]; exact Or.inr ⟨nap, ih⟩
      | some a =>
        have hst := h.step _ a ha
        by_cases hf : a.finishes c
        · cases a <;> simp only [Act.finishes] at hf <;> subst hf <;> simp only [World.step, ih] at hst
          all_goals first
            | (simp at hst; done)
            | skip
          case poll c =>
            have hI := (exec_inv h (t + k)).1 c
            simp only [ConnOk, ih] at hI
            simp only [Bag.propsFor, hI.1] at hst
            by_cases h0 : min (view c (w (t + k)).trace).2.length usizeMax = 0
            · simp only [if_pos h0] at hst
              injection hst with hst
              right
              exact ⟨min 250 (nap * 2), by rw [← hst]; simp [World.setThread]⟩
            · simp only [if_neg h0] at hst
              injection hst with hst
              left
              refine ⟨t + k + 1, Or.inr ⟨?_, by rw [← hst]; simp [World.setThread]⟩⟩
              rw [← hst]
              intro he
              simp only [World.setThread] at he
              rw [he] at h0
              simp at h0
        · obtain ⟨e, -⟩ := step_other hst hf (by rw [ih]; simp)
          exact Or.inr ⟨nap, by rw [e, ih]⟩

/-- when it was registered the thread was about to send -/
private theorem was_prepared {acts : Nat → Option Act} {w : Nat → World} (h : Exec acts w) (c n : Nat) (t : Nat)
    (hr : .registered c n ∈ (w t).trace) : ∃ t0, (w t0).threads c = ⟨.prepared, n⟩ := by
  induction t with
  | zero => rw [h.start] at hr; simp at hr
  | succ t ih =>
    by_cases hr' : .registered c n ∈ (w t).trace
    · exact ih hr'
    · cases ha : acts t with
      | none => rw [h.idle t ha] at hr; exact absurd hr hr'
      | some a =>
        have hst := h.step t a ha
        refine ⟨t + 1, ?_⟩
        cases a <;> simp only [World.step] at hst
        case publishSync c' =>
          split at hst
          · injection hst with hst
            rw [← hst] at hr ⊢
            simp only [List.mem_append, List.mem_singleton, hr', false_or, AckEvent.registered.injEq] at hr
            obtain ⟨rfl, rfl⟩ := hr
            simp [World.setThread]
          · simp at hst
        case poll c' =>
          exfalso
          split at hst
          · split at hst
            · split at hst <;> (injection hst with hst; rw [← hst] at hr; exact hr' hr)
            · injection hst with hst; rw [← hst] at hr; exact hr' hr
          · simp at hst
        case sinkAck c' m =>
          exfalso
          split at hst
          · injection hst with hst; rw [← hst] at hr; simp [hr'] at hr
          · simp at hst
        all_goals
          exfalso
          split at hst
          · injection hst with hst; rw [← hst] at hr; first | exact hr' hr | simp [hr'] at hr
          · simp at hst

/-- **C147 (it is answered).**  If every synchronous publish of the connection goes to some channel and every message of it that the channels took is acknowledged in
the end, then every synchronous publish of the connection is answered. -/
theorem C147_answered (acts : Nat → Option Act) (w : Nat → World) (h : Exec acts w) (c : Nat) (hsch : Scheduled acts w c)
    (hch : HasChannel acts c) (hall : AllAcked acts w c) (t n : Nat) (hr : .registered c n ∈ (w t).trace) :
    ∃ t', .answered c n ∈ (w t').trace := by
  obtain ⟨t0, h0⟩ := was_prepared h c n t hr
  obtain ⟨t1, -, copies, hsend, hw, hfl, -⟩ := live_prepared h hsch t0 n h0
  have hpos := hch t1 copies hsend
  have hin : (c, n) ∈ (w (t1 + 1)).inflight := by
    rw [hfl]
    exact List.mem_append_right _ (List.mem_replicate.2 ⟨by omega, rfl⟩)
  obtain ⟨t2, ht2, hack⟩ := hall (t1 + 1) n hin
  obtain ⟨k, rfl⟩ := Nat.exists_eq_add_of_le ht2
  rcases waits_until h (t1 + 1) ⟨5, hw⟩ k with ⟨t', g | ⟨-, g⟩⟩ | ⟨nap, g⟩
  · exact ⟨t', g⟩
  · obtain ⟨t3, -, h3⟩ := live_released h hsch _ n g; exact ⟨t3, h3⟩
  · have hst := h.step _ _ hack
    have : (w (t1 + 1 + k + 1)).threads c = ⟨.waiting nap, n⟩ ∧ (view c (w (t1 + 1 + k + 1)).trace).2 ≠ [] := by
      simp only [World.step] at hst
      split at hst
      · injection hst with hst
        rw [← hst]
        refine ⟨g, ?_⟩
        rw [view_snoc]
        simp
      · simp at hst
    obtain ⟨t3, -, h3⟩ := live_waiting h hsch _ n nap this.1 this.2
    exact ⟨t3, h3⟩

private theorem answered_below {acts : Nat → Option Act} {w : Nat → World} (h : Exec acts w) (c : Nat) (t m : Nat)
    (hm : .answered c m ∈ (w t).trace) : m < ((w t).threads c).frame := by
  induction t with
  | zero => rw [h.start] at hm; simp at hm
  | succ t ih =>
    cases ha : acts t with
    | none => rw [h.idle t ha] at hm ⊢; exact ih hm
    | some a =>
      have hst := h.step t a ha
      cases a with
      | publishAsync c' k =>
        simp only [World.step] at hst
        split at hst
        · injection hst with hst
          rw [← hst] at hm ⊢
          simp only [List.mem_append, List.mem_singleton, reduceCtorEq, or_false] at hm
          have := ih hm
          simp only [World.setThread]
          by_cases hc : c = c'
          · subst hc; simp only [if_true]; omega
          · simpa only [if_neg hc] using this
        · simp at hst
      | answer c' =>
        simp only [World.step] at hst
        split at hst
        · injection hst with hst
          rw [← hst] at hm ⊢
          simp only [World.setThread]
          rcases List.mem_append.1 hm with hm | hm
          · have := ih hm
            by_cases hc : c = c'
            · subst hc; simp only [if_true]; omega
            · simpa only [if_neg hc] using this
          · simp only [List.mem_singleton, AckEvent.answered.injEq] at hm
            obtain ⟨rfl, rfl⟩ := hm
            simp
        · simp at hst
      | poll c' =>
        simp only [World.step] at hst
        have fin : ∀ pc, (w t).setThread c' ⟨pc, ((w t).threads c').frame⟩ = w (t + 1) → m < ((w (t + 1)).threads c).frame := by
          intro pc e
          rw [← e] at hm ⊢
          have := ih hm
          simp only [World.setThread]
          by_cases hc : c = c'
          · subst hc; simpa using this
          · simpa only [if_neg hc] using this
        split at hst
        · split at hst
          · split at hst <;> (injection hst with hst; exact fin _ hst)
          · injection hst with hst; exact fin _ hst
        · simp at hst
      | sinkAck c' k =>
        simp only [World.step] at hst
        split at hst
        · injection hst with hst
          rw [← hst] at hm ⊢
          exact ih (by simpa using hm)
        · simp at hst
      | publishSync c' =>
        simp only [World.step] at hst
        split at hst
        · injection hst with hst
          rw [← hst] at hm ⊢
          have := ih (by simpa using hm)
          simp only [World.setThread]
          by_cases hc : c = c'
          · subst hc; simpa using this
          · simpa only [if_neg hc] using this
        · simp at hst
      | send c' k =>
        simp only [World.step] at hst
        split at hst
        · injection hst with hst
          rw [← hst] at hm ⊢
          have := ih (by simpa using hm)
          simp only [World.setThread]
          by_cases hc : c = c'
          · subst hc; simpa using this
          · simpa only [if_neg hc] using this
        · simp at hst
      | remove c' =>
        simp only [World.step] at hst
        split at hst
        · injection hst with hst
          rw [← hst] at hm ⊢
          have := ih (by simpa [World.setThread] using hm)
          simp only [World.setThread]
          by_cases hc : c = c'
          · subst hc; simpa using this
          · simpa only [if_neg hc] using this
        · simp at hst

/-- **C147 (it waits for ever).**  A synchronous publish begun at time `t`, after which no message of the connection is ever acknowledged, is never answered, however
long the process runs: the client waits for ever, and the connection handles no further frame. -/
theorem C147_unanswered (acts : Nat → Option Act) (w : Nat → World) (h : Exec acts w) (c : Nat) (t : Nat)
    (hp : acts t = some (.publishSync c)) (hno : ∀ t' ≥ t, ∀ m, acts t' ≠ some (.sinkAck c m)) :
    ∀ t', .answered c ((w t).threads c).frame ∉ (w t').trace ∧
      (t < t' → ((w t').threads c).frame = ((w t).threads c).frame ∧ ((w t').threads c).pc ≠ .idle) := by
  have hnot : .answered c ((w t).threads c).frame ∉ (w t).trace := fun hm => Nat.lt_irrefl _ (answered_below h c t _ hm)
  have key : ∀ k, .answered c ((w t).threads c).frame ∉ (w (t + 1 + k)).trace ∧ (view c (w (t + 1 + k)).trace).2 = [] ∧
      ((w (t + 1 + k)).threads c = ⟨.prepared, ((w t).threads c).frame⟩ ∨
        ∃ nap, (w (t + 1 + k)).threads c = ⟨.waiting nap, ((w t).threads c).frame⟩) := by
    intro k
    induction k with
    | zero =>
      have hst := h.step t _ hp
      simp only [World.step] at hst
      split at hst
      · injection hst with hst
        rw [Nat.add_zero, ← hst]
        refine ⟨by simpa using hnot, ?_, Or.inl (by simp [World.setThread])⟩
        rw [view_snoc]; simp
      · simp at hst
    | succ k ih =>
      obtain ⟨i1, i2, i3⟩ := ih
      show _ ∉ (w (t + 1 + k + 1)).trace ∧ (view c (w (t + 1 + k + 1)).trace).2 = [] ∧
        ((w (t + 1 + k + 1)).threads c = _ ∨ ∃ nap, (w (t + 1 + k + 1)).threads c = _)
      generalize hs : t + 1 + k = s at i1 i2 i3 ⊢
      cases ha : acts s with
      | none => rw [h.idle s ha]; exact ⟨i1, i2, i3⟩
      | some a =>
        have hst := h.step s a ha
        have hI := (exec_inv h s).1 c
        generalize ((w t).threads c).frame = n at i1 i3 ⊢
        have nidle : ((w s).threads c).pc ≠ .idle := by rcases i3 with e | ⟨nap, e⟩ <;> rw [e] <;> simp
        have quiet : ∀ e : AckEvent, (∀ x y, e = .registered x y ∨ e = .acked x y → x ≠ c) → (view c ((w s).trace ++ [e])).2 = [] := by
          intro e he; rw [view_other c _ _ he]; exact i2
        cases a with
        | publishAsync c' j =>
          simp only [World.step] at hst
          split at hst
          · next hpc =>
            injection hst with hst
            have hc : c ≠ c' := by rintro rfl; exact nidle hpc
            rw [← hst]
            refine ⟨by simpa using i1, quiet _ (by simp), by simpa [World.setThread, hc] using i3⟩
          · simp at hst
        | publishSync c' =>
          simp only [World.step] at hst
          split at hst
          · next hpc =>
            injection hst with hst
            have hc : c ≠ c' := by rintro rfl; exact nidle hpc
            rw [← hst]
            refine ⟨by simpa using i1, quiet _ ?_, by simpa [World.setThread, hc] using i3⟩
            intro x y e
            rcases e with e | e
            · simp only [AckEvent.registered.injEq] at e; rw [← e.1]; exact fun z => hc z.symm
            · simp at e
          · simp at hst
        | send c' j =>
          simp only [World.step] at hst
          split at hst
          · next hpc =>
            injection hst with hst
            rw [← hst]
            refine ⟨by simpa using i1, quiet _ (by simp), ?_⟩
            by_cases hc : c = c'
            · subst hc
              right
              refine ⟨5, ?_⟩
              rcases i3 with e | ⟨nap, e⟩
              · simp [World.setThread, e]
              · rw [e] at hpc; simp at hpc
            · simpa [World.setThread, hc] using i3
          · simp at hst
        | poll c' =>
          by_cases hc : c = c'
          · subst hc
            rcases i3 with e | ⟨nap, e⟩
            · simp [World.step, e] at hst
            · simp only [ConnOk, e, i2] at hI
              simp only [World.step, e, Bag.propsFor, hI.1, List.length_nil, Nat.zero_min, if_true] at hst
              injection hst with hst
              rw [← hst]
              exact ⟨i1, i2, Or.inr ⟨min 250 (nap * 2), by simp [World.setThread]⟩⟩
          · have fin : ∀ th, (w s).setThread c' th = w (s + 1) → .answered c n ∉ (w (s + 1)).trace ∧ (view c (w (s + 1)).trace).2 = [] ∧
                ((w (s + 1)).threads c = ⟨.prepared, n⟩ ∨ ∃ nap, (w (s + 1)).threads c = ⟨.waiting nap, n⟩) := by
              intro th e
              rw [← e]
              exact ⟨i1, i2, by simpa [World.setThread, hc] using i3⟩
            simp only [World.step] at hst
            split at hst
            · split at hst
              · split at hst <;> (injection hst with hst; exact fin _ hst)
              · injection hst with hst; exact fin _ hst
            · simp at hst
        | remove c' =>
          simp only [World.step] at hst
          split at hst
          · next hpc =>
            injection hst with hst
            have hc : c ≠ c' := by rintro rfl; rcases i3 with e | ⟨nap, e⟩ <;> rw [e] at hpc <;> simp at hpc
            rw [← hst]
            exact ⟨i1, i2, by simpa [World.setThread, hc] using i3⟩
          · simp at hst
        | answer c' =>
          simp only [World.step] at hst
          split at hst
          · next hpc =>
            injection hst with hst
            have hc : c ≠ c' := by rintro rfl; rcases i3 with e | ⟨nap, e⟩ <;> rw [e] at hpc <;> simp at hpc
            rw [← hst]
            exact ⟨by simpa [hc] using i1, quiet _ (by simp), by simpa [World.setThread, hc] using i3⟩
          · simp at hst
        | sinkAck c' m =>
          have hc : c' ≠ c := by rintro rfl; exact hno s (by omega) m ha
          simp only [World.step] at hst
          split at hst
          · injection hst with hst
            rw [← hst]
            refine ⟨by simpa using i1, quiet _ ?_, i3⟩
            intro x y e
            rcases e with e | e
            · simp at e
            · simp only [AckEvent.acked.injEq] at e; rw [← e.1]; exact hc
          · simp at hst
  intro t'
  by_cases hlt : t < t'
  · obtain ⟨k, rfl⟩ := Nat.exists_eq_add_of_le hlt
    obtain ⟨k1, -, k3⟩ := key k
    refine ⟨k1, fun _ => ?_⟩
    rcases k3 with e | ⟨nap, e⟩ <;> rw [show t.succ + k = t + 1 + k from rfl, e] <;> simp
  · obtain ⟨k, hk⟩ := Nat.exists_eq_add_of_le (Nat.le_of_not_lt hlt)
    refine ⟨fun hm => hnot ?_, fun g => absurd g hlt⟩
    have := (trace_mono h t' k).subset hm
    rwa [← hk] at this

/-- **C147 (exact).**  A synchronous publish begun at time `t` is answered if and only if some message of the connection is acknowledged from then on - its own or an
earlier one. -/
theorem C147_exact (acts : Nat → Option Act) (w : Nat → World) (h : Exec acts w) (c : Nat) (hsch : Scheduled acts w c) (t : Nat)
    (hp : acts t = some (.publishSync c)) :
    (∃ t', .answered c ((w t).threads c).frame ∈ (w t').trace) ↔ ∃ t' ≥ t, ∃ m, acts t' = some (.sinkAck c m) := by
  constructor
  · rintro ⟨t', ha⟩
    refine Classical.byContradiction fun hno => ?_
    exact (C147_unanswered acts w h c t hp (fun t' ht m e => hno ⟨t', ht, m, e⟩) t').1 ha
  · rintro ⟨t', ht, m, hm⟩
    have hlt : t < t' := by
      rcases Nat.lt_or_eq_of_le ht with h | h
      · exact h
      · subst h; rw [hp] at hm; simp at hm
    have hst := h.step t _ hp
    have h0 : (w (t + 1)).threads c = ⟨.prepared, ((w t).threads c).frame⟩ := by
      simp only [World.step] at hst
      split at hst
      · injection hst with hst; rw [← hst]; simp [World.setThread]
      · simp at hst
    generalize ((w t).threads c).frame = n at h0 ⊢
    -- wherever the thread is when the acknowledgement comes
    have hreg : .registered c n ∈ (w t').trace := by
      have : .registered c n ∈ (w (t + 1)).trace := by
        have e : (w (t + 1)).trace = (w t).trace ++ [.registered c ((w t).threads c).frame] ∧ (w (t + 1)).threads c = ⟨.prepared, ((w t).threads c).frame⟩ := by
          simp only [World.step] at hst
          split at hst
          · injection hst with hst; rw [← hst]; simp [World.setThread]
          · simp at hst
        rw [e.2] at h0
        simp only [Thread.mk.injEq, true_and] at h0
        rw [e.1, h0]; simp
      obtain ⟨k, rfl⟩ := Nat.exists_eq_add_of_le hlt
      exact (trace_mono h (t + 1) k).subset this
    have hack := h.step t' _ hm
    have hv : (view c (w (t' + 1)).trace).2 ≠ [] ∧ (w (t' + 1)).threads c = (w t').threads c := by
      simp only [World.step] at hack
      split at hack
      · injection hack with hack
        rw [← hack]
        refine ⟨?_, rfl⟩
        rw [view_snoc]; simp
      · simp at hack
    rcases mid_frame h c n t' hreg with g | ⟨g1, g2⟩
    · exact ⟨t', g⟩
    · have hth : (w (t' + 1)).threads c = ⟨((w t').threads c).pc, n⟩ := by rw [hv.2, ← g2]
      cases hpc : ((w t').threads c).pc with
      | idle => exact absurd hpc g1
      | prepared =>
        rw [hpc] at hth
        obtain ⟨t2, -, k, -, e1, -, -, e4⟩ := live_prepared h hsch _ n hth
        obtain ⟨t3, -, h3⟩ := live_waiting h hsch _ n 5 e1 (e4 hv.1)
        exact ⟨t3, h3⟩
      | waiting nap =>
        rw [hpc] at hth
        obtain ⟨t3, -, h3⟩ := live_waiting h hsch _ n nap hth hv.1
        exact ⟨t3, h3⟩
      | released => rw [hpc] at hth; obtain ⟨t3, -, h3⟩ := live_released h hsch _ n hth; exact ⟨t3, h3⟩
      | answering => rw [hpc] at hth; obtain ⟨t3, -, h3⟩ := live_answering h hsch _ n hth; exact ⟨t3, h3⟩

/-! ### Executions that meet the hypotheses -/

/-- the states of a schedule, a step that is not possible being left out -/
def ackWorldAt (acts : Nat → Option Act) : Nat → World
  | 0 => {}
  | t + 1 => match acts t with
    | none => ackWorldAt acts t
    | some a => ((ackWorldAt acts t).step a).getD (ackWorldAt acts t)

theorem ackWorldAt_exec (acts : Nat → Option Act) (h : ∀ t a, acts t = some a → ((ackWorldAt acts t).step a).isSome) : Exec acts (ackWorldAt acts) := by
  refine ⟨rfl, fun t a ha => ?_, fun t ha => ?_⟩
  · obtain ⟨x, hx⟩ := Option.isSome_iff_exists.1 (h t a ha)
    simp only [ackWorldAt, ha, hx, Option.getD_some]
  · simp only [ackWorldAt, ha]

/-- a publish that is answered: sent to one channel, looked for once in vain, acknowledged, answered -/
def answeredActs : Nat → Option Act
  | 0 => some (.publishSync 7)
  | 1 => some (.send 7 1)
  | 2 => some (.poll 7)
  | 3 => some (.sinkAck 7 0)
  | 4 => some (.poll 7)
  | 5 => some (.remove 7)
  | 6 => some (.answer 7)
  | _ => none

theorem answeredActs_exec : Exec answeredActs (ackWorldAt answeredActs) := by
  refine ackWorldAt_exec _ fun t a ha => ?_
  match t, ha with
  | 0, ha | 1, ha | 2, ha | 3, ha | 4, ha | 5, ha | 6, ha => injection ha with ha; subst ha; rfl
  | _ + 7, ha => cases ha

theorem answeredActs_end (k : Nat) : ackWorldAt answeredActs (k + 7) = ackWorldAt answeredActs 7 := by
  induction k with
  | zero => rfl
  | succ k ih => rw [← ih]; rfl

theorem answeredActs_scheduled : Scheduled answeredActs (ackWorldAt answeredActs) 7 := by
  intro t ht
  match t, ht with
  | 0, ht => exact absurd rfl ht
  | 1, _ => exact ⟨1, by omega, _, rfl, rfl⟩
  | 2, _ => exact ⟨2, by omega, _, rfl, rfl⟩
  | 3, _ | 4, _ => exact ⟨4, by omega, _, rfl, rfl⟩
  | 5, _ => exact ⟨5, by omega, _, rfl, rfl⟩
  | 6, _ => exact ⟨6, by omega, _, rfl, rfl⟩
  | k + 7, ht => exact absurd (by rw [answeredActs_end]; rfl) ht

theorem answeredActs_acked : AllAcked answeredActs (ackWorldAt answeredActs) 7 := by
  intro t n hn
  match t, hn with
  | 0, hn | 1, hn => simp [ackWorldAt, answeredActs, World.step, World.setThread] at hn
  | 2, hn | 3, hn =>
    have : n = 0 := by simpa [ackWorldAt, answeredActs, World.step, World.setThread, Bag.prepareWait, Bag.propsFor, List.replicate] using hn
    subst this
    exact ⟨3, by omega, rfl⟩
  | k + 4, hn =>
    have : (ackWorldAt answeredActs (k + 4)).inflight = [] := by
      match k with
      | 0 | 1 | 2 => decide
      | j + 3 => rw [show j + 3 + 4 = j + 7 by omega, answeredActs_end]; decide
    rw [this] at hn
    simp at hn

/-- ... and the theorems apply to it -/
example : ∃ t', .answered 7 0 ∈ (ackWorldAt answeredActs t').trace :=
  C147_answered answeredActs (ackWorldAt answeredActs) answeredActs_exec 7 answeredActs_scheduled
    (fun t copies h => by
      match t, h with
      | 1, h => injection h with h; injection h with _ h; omega
      | 0, h | 2, h | 3, h | 4, h | 5, h | 6, h => injection h with h; cases h
      | _ + 7, h => cases h)
    answeredActs_acked 1 0 (by decide)

example : ∃ t' m, AckedSinceRegistered (ackWorldAt answeredActs t').trace 7 0 m :=
  (C147_answered_iff answeredActs _ answeredActs_exec 7 answeredActs_scheduled 1 0 (by decide)).1 ⟨7, by decide⟩

example : ∃ t', .answered 7 0 ∈ (ackWorldAt answeredActs t').trace :=
  (C147_exact answeredActs _ answeredActs_exec 7 answeredActs_scheduled 0 rfl).2 ⟨3, by omega, 0, rfl⟩

/-- a source that forwards to nothing: the event goes to no channel and the thread looks at the bag for ever -/
private def hungActs : Nat → Option Act
  | 0 => some (.publishSync 7)
  | 1 => some (.send 7 0)
  | _ + 2 => some (.poll 7)

private theorem hung_waits (t : Nat) : (ackWorldAt hungActs (t + 2)).bag 7 = some 0 ∧ ∃ nap, (ackWorldAt hungActs (t + 2)).threads 7 = ⟨.waiting nap, 0⟩ := by
  induction t with
  | zero => exact ⟨rfl, 5, rfl⟩
  | succ t ih =>
    obtain ⟨h1, nap, h2⟩ := ih
    have e : ackWorldAt hungActs (t + 2 + 1) = (ackWorldAt hungActs (t + 2)).setThread 7 ⟨.waiting (min 250 (nap * 2)), 0⟩ := by
      rw [ackWorldAt]
      simp only [hungActs, World.step, h2, Bag.propsFor, h1, if_true, Option.getD_some]
    rw [show t + 1 + 2 = t + 2 + 1 from rfl, e]
    exact ⟨h1, min 250 (nap * 2), by simp [World.setThread]⟩

/-- **C147 (a source that forwards to nothing).**  A client that publishes synchronously to a source without forwards is never answered, although its thread never
stops looking. -/
theorem C147_no_channel : ∃ acts w, Exec acts w ∧ Scheduled acts w 7 ∧ acts 0 = some (.publishSync 7) ∧ (∀ t copies, acts t = some (.send 7 copies) → copies = 0) ∧
    ∀ t, .answered 7 0 ∉ (w t).trace := by
  have hex : Exec hungActs (ackWorldAt hungActs) := by
    refine ackWorldAt_exec _ fun t a ha => ?_
    match t, ha with
    | 0, ha | 1, ha => injection ha with ha; subst ha; rfl
    | t + 2, ha =>
      injection ha with ha
      subst ha
      obtain ⟨h1, nap, h2⟩ := hung_waits t
      simp [World.step, h2, Bag.propsFor, h1]
  refine ⟨hungActs, ackWorldAt hungActs, hex, ?_, rfl, ?_, ?_⟩
  · intro t _
    exact ⟨t + 2, by omega, .poll 7, rfl, rfl⟩
  · intro t copies h
    match t, h with
    | 1, h => injection h with h; injection h with _ h; exact h.symm
    | 0, h => injection h with h; cases h
    | _ + 2, h => injection h with h; cases h
  · intro t
    refine (C147_unanswered hungActs _ hex 7 0 rfl ?_ t).1
    intro t' _ m h
    match t', h with
    | 0, h | 1, h => injection h with h; cases h
    | _ + 2, h => injection h with h; cases h

end Verif
