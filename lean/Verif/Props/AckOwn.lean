import Verif.Props.Ack
/-!
# C31 per message: exactly when an answer vouches for its own message
-/
namespace Verif
open Ack

/-- Frames that something is known of have been begun. -/
private def Old (w : World) : Prop :=
  ∀ c k, (.acked c k ∈ w.trace ∨ (c, k) ∈ w.inflight ∨ .answered c k ∈ w.trace) →
    k < (w.threads c).frame ∨ (k = (w.threads c).frame ∧ (w.threads c).pc ≠ .idle)

private theorem old_step (w w' : World) (a : Act) (hi : Old w) (h : w.step a = some w') : Old w' := by
  cases a with
  | publishAsync d copies =>
    simp only [World.step] at h
    cases hp : (w.threads d).pc <;> simp only [hp] at h <;> cases h
    intro c k hk
    simp only [World.setThread] at hk ⊢
    by_cases hc : c = d
    · subst hc
      simp only [if_true]
      left
      simp only [List.mem_append, List.mem_singleton, List.mem_replicate, reduceCtorEq, or_false, Prod.mk.injEq] at hk
      have := hi c k
      rcases hk with h1 | (h1 | h1) | h1
      · rcases this (.inl h1) with h | h <;> omega
      · rcases this (.inr (.inl h1)) with h | h <;> omega
      · obtain ⟨_, _, rfl⟩ := h1; omega
      · rcases this (.inr (.inr h1)) with h | h <;> omega
    · simp only [hc, if_false]
      refine hi c k ?_
      simp only [List.mem_append, List.mem_singleton, List.mem_replicate, reduceCtorEq, or_false, Prod.mk.injEq, hc, false_and, and_false] at hk
      exact hk
  | publishSync d =>
    simp only [World.step] at h
    cases hp : (w.threads d).pc <;> simp only [hp] at h <;> cases h
    intro c k hk
    simp only [World.setThread] at hk ⊢
    simp only [List.mem_append, List.mem_singleton, reduceCtorEq, or_false] at hk
    by_cases hc : c = d
    · subst hc
      simp only [if_true]
      rcases hi c k hk with h | h
      · exact .inl h
      · exact .inr ⟨h.1, by simp⟩
    · simp only [hc, if_false]; exact hi c k hk
  | send d copies =>
    simp only [World.step] at h
    cases hp : (w.threads d).pc <;> simp only [hp] at h <;> cases h
    intro c k hk
    simp only [World.setThread] at hk ⊢
    simp only [List.mem_append, List.mem_singleton, List.mem_replicate, reduceCtorEq, or_false, Prod.mk.injEq] at hk
    by_cases hc : c = d
    · subst hc
      simp only [if_true]
      have := hi c k
      rcases hk with h1 | (h1 | h1) | h1
      · rcases this (.inl h1) with h | h
        · exact .inl h
        · exact .inr ⟨h.1, by simp⟩
      · rcases this (.inr (.inl h1)) with h | h
        · exact .inl h
        · exact .inr ⟨h.1, by simp⟩
      · exact .inr ⟨h1.2.2, by simp⟩
      · rcases this (.inr (.inr h1)) with h | h
        · exact .inl h
        · exact .inr ⟨h.1, by simp⟩
    · simp only [hc, if_false]
      refine hi c k ?_
      simpa [hc] using hk
  | poll d =>
    have hw : ∃ pc, pc ≠ .idle ∧ w' = w.setThread d ⟨pc, (w.threads d).frame⟩ ∧ (w.threads d).pc ≠ .idle := by
      simp only [World.step] at h
      cases hp : (w.threads d).pc <;> simp only [hp] at h <;> try cases h
      rename_i nap
      cases hb : w.bag.propsFor d with
      | none => rw [hb] at h; cases h; exact ⟨_, by simp, rfl, by simp⟩
      | some n =>
        rw [hb] at h
        by_cases hn : n = 0
        · simp only [hn, if_true] at h; cases h; exact ⟨_, by simp, rfl, by simp⟩
        · simp only [hn, if_false] at h; cases h; exact ⟨_, by simp, rfl, by simp⟩
    obtain ⟨pc, h1, rfl, h2⟩ := hw
    intro c k hk
    simp only [World.setThread] at hk ⊢
    by_cases hc : c = d
    · subst hc
      simp only [if_true]
      rcases hi c k hk with h | h
      · exact .inl h
      · exact .inr ⟨h.1, h1⟩
    · simp only [hc, if_false]; exact hi c k hk
  | remove d =>
    simp only [World.step] at h
    cases hp : (w.threads d).pc <;> simp only [hp] at h <;> cases h
    intro c k hk
    simp only [World.setThread] at hk ⊢
    by_cases hc : c = d
    · subst hc
      simp only [if_true]
      rcases hi c k hk with h | h
      · exact .inl h
      · exact .inr ⟨h.1, by simp⟩
    · simp only [hc, if_false]; exact hi c k hk
  | answer d =>
    simp only [World.step] at h
    cases hp : (w.threads d).pc <;> simp only [hp] at h <;> cases h
    intro c k hk
    simp only [World.setThread] at hk ⊢
    simp only [List.mem_append, List.mem_singleton, reduceCtorEq, or_false, AckEvent.answered.injEq] at hk
    by_cases hc : c = d
    · subst hc
      simp only [if_true]
      left
      have := hi c k
      rcases hk with h1 | h1 | (h1 | h1)
      · rcases this (.inl h1) with h | h <;> omega
      · rcases this (.inr (.inl h1)) with h | h <;> omega
      · rcases this (.inr (.inr h1)) with h | h <;> omega
      · omega
    · simp only [hc, if_false]
      refine hi c k ?_
      simpa [hc] using hk
  | sinkAck d n =>
    simp only [World.step] at h
    by_cases hm : (d, n) ∈ w.inflight
    · simp only [hm, if_true, Option.some.injEq] at h
      subst h
      intro c k hk
      simp only [List.mem_append, List.mem_singleton, reduceCtorEq, or_false, AckEvent.acked.injEq] at hk ⊢
      refine hi c k ?_
      rcases hk with (h1 | ⟨rfl, rfl⟩) | h1 | h1
      · exact .inl h1
      · exact .inr (.inl hm)
      · exact .inr (.inl (List.mem_of_mem_erase h1))
      · exact .inr (.inr h1)
    · simp only [hm, if_false] at h; cases h

private theorem old_run (acts : List Act) : ∀ w w' : World, Old w → w.run acts = some w' → Old w' := by
  induction acts with
  | nil => intro w w' hi h; cases h; exact hi
  | cons a as ih =>
    intro w w' hi h
    simp only [World.run] at h
    cases hs : w.step a with
    | none => rw [hs] at h; cases h
    | some w1 =>
      rw [hs] at h
      exact ih w1 w' (old_step w w1 a hi hs) h

/-- Before its acknowledgement, a frame that was registered when nothing was under way. -/
private def Alone (c n : Nat) (w : World) : Prop :=
  .acked c n ∈ w.trace ∨
    (.answered c n ∉ w.trace ∧ (w.threads c).frame = n ∧ ((w.threads c).pc = .prepared ∨ ∃ nap, (w.threads c).pc = .waiting nap) ∧
      w.bag c = some 0 ∧ ∀ m, (c, m) ∈ w.inflight → m = n)

private theorem grows_step (w w' : World) (a : Act) (h : w.step a = some w') : ∃ es, w'.trace = w.trace ++ es := by
  cases a with
  | poll d =>
    simp only [World.step] at h
    cases hp : (w.threads d).pc <;> simp only [hp] at h <;> try cases h
    cases hb : w.bag.propsFor d with
    | none => rw [hb] at h; cases h; exact ⟨[], by simp [World.setThread]⟩
    | some n =>
      rw [hb] at h
      by_cases hn : n = 0
      · simp only [hn, if_true] at h; cases h; exact ⟨[], by simp [World.setThread]⟩
      · simp only [hn, if_false] at h; cases h; exact ⟨[], by simp [World.setThread]⟩
  | sinkAck d n =>
    simp only [World.step] at h
    by_cases hm : (d, n) ∈ w.inflight
    · simp only [hm, if_true, Option.some.injEq] at h
      subst h; exact ⟨_, rfl⟩
    · simp only [hm, if_false] at h; cases h
  | remove d =>
    simp only [World.step] at h
    cases hp : (w.threads d).pc <;> simp only [hp] at h <;> cases h
    exact ⟨[], by simp [World.setThread]⟩
  | publishAsync d copies =>
    simp only [World.step] at h
    cases hp : (w.threads d).pc <;> simp only [hp] at h <;> cases h
    exact ⟨_, rfl⟩
  | publishSync d =>
    simp only [World.step] at h
    cases hp : (w.threads d).pc <;> simp only [hp] at h <;> cases h
    exact ⟨_, rfl⟩
  | send d copies =>
    simp only [World.step] at h
    cases hp : (w.threads d).pc <;> simp only [hp] at h <;> cases h
    exact ⟨_, rfl⟩
  | answer d =>
    simp only [World.step] at h
    cases hp : (w.threads d).pc <;> simp only [hp] at h <;> cases h
    exact ⟨_, rfl⟩

private theorem alone_step (c n : Nat) (w w' : World) (a : Act) (hi : Alone c n w) (h : w.step a = some w') : Alone c n w' := by
  rcases hi with hi | ⟨h1, h2, h3, h4, h5⟩
  · obtain ⟨es, e⟩ := grows_step w w' a h
    exact .inl (by rw [e]; simp [hi])
  · cases a with
    | publishAsync d copies =>
      simp only [World.step] at h
      cases hp : (w.threads d).pc <;> simp only [hp] at h <;> cases h
      have hc : c ≠ d := by rintro rfl; rw [hp] at h3; simp at h3
      refine .inr ⟨by simpa using h1, ?_⟩
      simp only [World.setThread, hc, if_false]
      refine ⟨h2, h3, h4, ?_⟩
      intro m hm
      simp only [List.mem_append, List.mem_replicate, Prod.mk.injEq, hc, false_and, and_false, or_false] at hm
      exact h5 m hm
    | publishSync d =>
      simp only [World.step] at h
      cases hp : (w.threads d).pc <;> simp only [hp] at h <;> cases h
      have hc : c ≠ d := by rintro rfl; rw [hp] at h3; simp at h3
      refine .inr ⟨by simpa using h1, ?_⟩
      simp only [World.setThread, hc, if_false, Bag.prepareWait]
      exact ⟨h2, h3, h4, h5⟩
    | send d copies =>
      simp only [World.step] at h
      cases hp : (w.threads d).pc <;> simp only [hp] at h <;> cases h
      refine .inr ⟨by simpa using h1, ?_⟩
      by_cases hc : c = d
      · subst hc
        simp only [World.setThread, if_true]
        refine ⟨h2, .inr ⟨5, rfl⟩, h4, ?_⟩
        intro m hm
        simp only [List.mem_append, List.mem_replicate, Prod.mk.injEq] at hm
        rcases hm with hm | hm
        · exact h5 m hm
        · rw [hm.2.2]; exact h2
      · simp only [World.setThread, hc, if_false]
        refine ⟨h2, h3, h4, ?_⟩
        intro m hm
        simp only [List.mem_append, List.mem_replicate, Prod.mk.injEq, hc, false_and, and_false, or_false] at hm
        exact h5 m hm
    | poll d =>
      simp only [World.step] at h
      cases hp : (w.threads d).pc <;> simp only [hp] at h <;> try cases h
      rename_i nap
      by_cases hc : c = d
      · subst hc
        simp only [Bag.propsFor, h4, if_true, Option.some.injEq] at h
        subst h
        refine .inr ⟨h1, ?_⟩
        simp only [World.setThread, if_true]
        exact ⟨h2, .inr ⟨_, rfl⟩, h4, h5⟩
      · have hw : ∃ pc, w' = w.setThread d ⟨pc, (w.threads d).frame⟩ := by
          cases hb : w.bag.propsFor d with
          | none => rw [hb] at h; cases h; exact ⟨_, rfl⟩
          | some n =>
            rw [hb] at h
            by_cases hn : n = 0
            · simp only [hn, if_true] at h; cases h; exact ⟨_, rfl⟩
            · simp only [hn, if_false] at h; cases h; exact ⟨_, rfl⟩
        obtain ⟨pc, rfl⟩ := hw
        refine .inr ⟨h1, ?_⟩
        simp only [World.setThread, hc, if_false]
        exact ⟨h2, h3, h4, h5⟩
    | remove d =>
      simp only [World.step] at h
      cases hp : (w.threads d).pc <;> simp only [hp] at h <;> cases h
      have hc : c ≠ d := by rintro rfl; rw [hp] at h3; simp at h3
      refine .inr ⟨h1, ?_⟩
      simp only [World.setThread, hc, if_false, Bag.remove]
      exact ⟨h2, h3, h4, h5⟩
    | answer d =>
      simp only [World.step] at h
      cases hp : (w.threads d).pc <;> simp only [hp] at h <;> cases h
      have hc : c ≠ d := by rintro rfl; rw [hp] at h3; simp at h3
      refine .inr ⟨by simp [h1, hc], ?_⟩
      simp only [World.setThread, hc, if_false]
      exact ⟨h2, h3, h4, h5⟩
    | sinkAck d m =>
      simp only [World.step] at h
      by_cases hm : (d, m) ∈ w.inflight
      · simp only [hm, if_true, Option.some.injEq] at h
        subst h
        by_cases hc : c = d
        · subst hc
          rw [h5 m hm]
          exact .inl (by simp)
        · refine .inr ⟨by simpa using h1, h2, h3, ?_, ?_⟩
          · simp only [Bag.ack, hc, if_false]; exact h4
          · intro k hk; exact h5 k (List.mem_of_mem_erase hk)
      · simp only [hm, if_false] at h; cases h

private theorem alone_run (c n : Nat) (acts : List Act) : ∀ w w' : World, Alone c n w → w.run acts = some w' → Alone c n w' := by
  induction acts with
  | nil => intro w w' hi h; cases h; exact hi
  | cons a as ih =>
    intro w w' hi h
    simp only [World.run] at h
    cases hs : w.step a with
    | none => rw [hs] at h; cases h
    | some w1 =>
      rw [hs] at h
      exact ih w1 w' (alone_step c n w w1 a hi hs) h

/-- **C31 (own message, exactly; part).**  In every state that can be reached, and for a connection that is about to publish synchronously: that the answer comes only after
that very message was acknowledged holds, in all that can happen from there, exactly if no earlier message of the connection is still to be acknowledged.  Missing from the full
statement read per message: the case that one is. -/
theorem C31_own_message_exact_partial (schedule : List Act) (w : World) (h : World.run {} schedule = some w) (c : Nat) (hc : (w.threads c).pc = .idle) :
    (∀ (rest : List Act) (w' : World), w.run (.publishSync c :: rest) = some w' →
      .answered c (w.threads c).frame ∈ w'.trace → .acked c (w.threads c).frame ∈ w'.trace) ↔
    ∀ m, (c, m) ∉ w.inflight := by
  have hold := old_run schedule {} w (by intro c k hk; simp at hk) h
  constructor
  · intro hall m hm
    obtain ⟨bag, threads, inflight, trace⟩ := w
    simp only at hm hc hall hold
    rcases ht : threads c with ⟨pc, n⟩
    rw [ht] at hc hall
    simp only at hc hall
    subst hc
    have hbad : AckEvent.acked c n ∉ trace := by
      intro hk
      have := hold c n (.inl hk)
      simp [ht] at this
    have hmn : m < n := by
      have := hold c m (.inr (.inl hm))
      simpa [ht] using this
    have hne : (min (0 + 1) 18446744073709551615 = 0) = False := by simp
    have hrun : ∃ w', World.run { bag := bag, threads := threads, inflight := inflight, trace := trace }
        [.publishSync c, .send c 0, .sinkAck c m, .poll c, .remove c, .answer c] = some w' ∧
        w'.trace = trace ++ [.registered c n] ++ [.sent c n] ++ [.acked c m] ++ [.answered c n] := by
      simp only [World.run, World.step, ht, World.setThread, if_true, Option.bind_some, List.replicate_zero, List.append_nil, hm, Bag.propsFor, Bag.ack, Bag.prepareWait,
        Option.map_some, Ack.ack, usizeMax, hne, if_false]
      exact ⟨_, rfl, rfl⟩
    obtain ⟨w', e, et⟩ := hrun
    have := hall _ w' e (by rw [et]; simp)
    rw [et] at this
    simp only [List.mem_append, List.mem_singleton, reduceCtorEq, or_false, AckEvent.acked.injEq, hbad, false_or, true_and] at this
    omega
  · intro hn rest w' hr ha
    simp only [World.run] at hr
    cases hs : w.step (.publishSync c) with
    | none => rw [hs] at hr; cases hr
    | some w1 =>
      rw [hs] at hr
      have h0 : Alone c (w.threads c).frame w1 := by
        simp only [World.step, hc, Option.some.injEq] at hs
        subst hs
        refine .inr ⟨?_, ?_⟩
        · intro hk
          simp only [List.mem_append, List.mem_singleton, reduceCtorEq, or_false] at hk
          have := hold c _ (.inr (.inr hk))
          simp [hc] at this
        · simp only [World.setThread, if_true, Bag.prepareWait]
          exact ⟨trivial, .inl trivial, trivial, fun m hm => absurd hm (hn m)⟩
      rcases alone_run c _ rest w1 w' h0 hr with h1 | h1
      · exact h1
      · exact absurd ha h1.1

/-- After an asynchronous publish that was acknowledged nothing is under way; before its acknowledgement something is. -/
example : (World.run {} [.publishAsync 0 1, .sinkAck 0 0]).map (fun w => (w.threads 0, w.inflight)) = some (⟨.idle, 1⟩, []) ∧
    (World.run {} [.publishAsync 0 1]).map (fun w => (w.threads 0, w.inflight)) = some (⟨.idle, 1⟩, [(0, 0)]) := by decide

end Verif
