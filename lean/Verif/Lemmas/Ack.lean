import Verif.Spec.Ack
/-! # Invariants of the acknowledgement protocol -/
namespace Verif.Ack

/-- frame registered last by `c`, and the frames acknowledged for `c` since -/
def view (c : Nat) : List AckEvent → Option Nat × List Nat :=
  List.foldl (fun v e => match e with
    | .registered c' n => if c' = c then (some n, []) else v
    | .acked c' m => if c' = c then (v.1, v.2 ++ [m]) else v
    | _ => v) (none, [])

theorem view_snoc (c : Nat) (t : List AckEvent) (e : AckEvent) :
    view c (t ++ [e]) = match e with
      | .registered c' n => if c' = c then (some n, []) else view c t
      | .acked c' m => if c' = c then ((view c t).1, (view c t).2 ++ [m]) else view c t
      | _ => view c t := by
  simp only [view, List.foldl_append, List.foldl_cons, List.foldl_nil]

theorem view_split (c : Nat) (t : List AckEvent) (n : Nat) (h : (view c t).1 = some n) :
    ∃ a b, t = a ++ .registered c n :: b ∧ (∀ m, .acked c m ∈ b ↔ m ∈ (view c t).2) ∧
      ∀ k, .registered c k ∉ b := by
  revert h
  have hrev : ∀ r : List AckEvent, (view c r.reverse).1 = some n →
      ∃ a b, r.reverse = a ++ .registered c n :: b ∧
        (∀ m, .acked c m ∈ b ↔ m ∈ (view c r.reverse).2) ∧ ∀ k, .registered c k ∉ b := by
    intro r
    induction r with
    | nil => intro h; simp [view] at h
    | cons e r ih =>
      intro h
      rw [List.reverse_cons, view_snoc] at h ⊢
      have lift : (view c r.reverse).1 = some n →
          (∀ m, e ≠ .acked c m) → (∀ k, e ≠ .registered c k) →
          ∃ a b, r.reverse ++ [e] = a ++ .registered c n :: b ∧
            (∀ m, .acked c m ∈ b ↔ m ∈ (view c r.reverse).2) ∧ ∀ k, .registered c k ∉ b := by
        intro h h1 h2
        obtain ⟨a, b, e1, e2, e3⟩ := ih h
        refine ⟨a, b ++ [e], by rw [e1]; simp, ?_, ?_⟩
        · intro m
          have := h1 m
          simp only [List.mem_append, List.mem_singleton]
          constructor
          · rintro (h | h)
            · exact (e2 m).1 h
            · exact absurd h.symm this
          · intro h; exact Or.inl ((e2 m).2 h)
        · intro k hk
          rcases List.mem_append.1 hk with hk | hk
          · exact e3 k hk
          · exact h2 k (List.mem_singleton.1 hk).symm
      cases e with
      | registered c' k =>
        simp only at h ⊢
        by_cases hc : c' = c
        · subst hc
          simp only [if_true, Option.some.injEq] at h ⊢
          subst h
          exact ⟨r.reverse, [], rfl, by simp, by simp⟩
        · simp only [if_neg hc] at h ⊢
          exact lift h (by simp) (by intro k h; simp only [AckEvent.registered.injEq] at h; exact hc h.1)
      | acked c' k =>
        simp only at h ⊢
        by_cases hc : c' = c
        · subst hc
          simp only [if_true] at h ⊢
          obtain ⟨a, b, e1, e2, e3⟩ := ih h
          refine ⟨a, b ++ [.acked c' k], by rw [e1]; simp, ?_, ?_⟩
          · intro m
            simp only [List.mem_append, List.mem_singleton, e2 m, AckEvent.acked.injEq, true_and]
          · intro j hj
            rcases List.mem_append.1 hj with hj | hj
            · exact e3 j hj
            · simp at hj
        · simp only [if_neg hc] at h ⊢
          exact lift h (by intro m h; simp only [AckEvent.acked.injEq] at h; exact hc h.1) (by simp)
      | sent _ _ => exact lift h (by simp) (by simp)
      | answered _ _ => exact lift h (by simp) (by simp)
  have := hrev t.reverse
  rwa [List.reverse_reverse] at this

theorem split_unique {c n n' : Nat} {t a a' b b' : List AckEvent}
    (h : t = a ++ .registered c n :: b) (h' : t = a' ++ .registered c n' :: b')
    (hb : ∀ k, .registered c k ∉ b) (hb' : ∀ k, .registered c k ∉ b') : b = b' := by
  rw [h'] at h
  rcases List.append_eq_append_iff.1 h with ⟨x, g1, g2⟩ | ⟨x, g1, g2⟩
  · cases x with
    | nil => simp only [List.nil_append, List.cons.injEq] at g2; exact g2.2.symm
    | cons y x =>
      simp only [List.cons_append, List.cons.injEq] at g2
      exact absurd (by rw [g2.2]; simp) (hb' n)
  · cases x with
    | nil => simp only [List.nil_append, List.cons.injEq] at g2; exact g2.2
    | cons y x =>
      simp only [List.cons_append, List.cons.injEq] at g2
      exact absurd (by rw [g2.2]; simp) (hb n')

/-- all answers in a history were preceded by an acknowledgement after registration -/
def AnswersOk (P : Nat → Nat → Prop) (t : List AckEvent) : Prop :=
  ∀ pre c n post, t = pre ++ .answered c n :: post →
    ∃ m, AckedSinceRegistered pre c n m ∧ P n m

theorem AnswersOk.snoc {P : Nat → Nat → Prop} {t : List AckEvent} {e : AckEvent}
    (h : AnswersOk P t)
    (he : ∀ c n, e = .answered c n → ∃ m, AckedSinceRegistered t c n m ∧ P n m) :
    AnswersOk P (t ++ [e]) := by
  intro pre c n post hp
  cases hpost : post.reverse with
  | nil =>
    have : post = [] := by simpa using hpost
    subst this
    obtain ⟨h1, h2⟩ := List.append_inj' hp (by simp)
    subst h1
    exact he c n (by simpa using h2)
  | cons x r =>
    have hpo : post = r.reverse ++ [x] := by
      have := congrArg List.reverse hpost
      simpa using this
    subst hpo
    have hp' : t ++ [e] = (pre ++ .answered c n :: r.reverse) ++ [x] := by rw [hp]; simp
    obtain ⟨h1, _⟩ := List.append_inj' hp' (by simp)
    exact h pre c n _ h1

/-- what the bag holds for a connection, given where its thread is and its view -/
def ConnOk (w : World) (c : Nat) : Prop :=
  let t := w.threads c
  let v := view c w.trace
  match t.pc with
  | .idle => w.bag c = none
  | .prepared => w.bag c = some (min v.2.length usizeMax) ∧ v.1 = some t.frame
  | .waiting nap => w.bag c = some (min v.2.length usizeMax) ∧ v.1 = some t.frame ∧ 5 ≤ nap ∧ nap ≤ 250
  | .released => w.bag c = some (min v.2.length usizeMax) ∧ v.1 = some t.frame ∧ v.2 ≠ []
  | .answering => w.bag c = none ∧ v.1 = some t.frame ∧ v.2 ≠ []

/-- the invariant -/
def Inv (w : World) : Prop := (∀ c, ConnOk w c) ∧ AnswersOk (fun _ _ => True) w.trace

theorem inv_init : Inv {} :=
  ⟨fun _ => rfl, by intro pre c n post h; simp at h⟩

/-- an event of another connection does not change a view -/
theorem view_other (c : Nat) (t : List AckEvent) (e : AckEvent)
    (h : ∀ c' n, e = .registered c' n ∨ e = .acked c' n → c' ≠ c) :
    view c (t ++ [e]) = view c t := by
  rw [view_snoc]
  cases e with
  | registered c' n => simp [h c' n (Or.inl rfl)]
  | acked c' n => simp [h c' n (Or.inr rfl)]
  | sent => rfl
  | answered => rfl

theorem inv_step (w w' : World) (a : Act) (h : Inv w) (hs : w.step a = some w') : Inv w' := by
  obtain ⟨hc, ha⟩ := h
  cases a with
  | publishAsync c copies =>
    simp only [World.step] at hs
    split at hs
    · next hpc =>
      simp only [Option.some.injEq] at hs
      subst hs
      refine ⟨fun x => ?_, ha.snoc (by simp)⟩
      have hx := hc x
      simp only [ConnOk, World.setThread] at hx ⊢
      rw [view_other x _ _ (by simp)]
      by_cases hxc : x = c
      · subst hxc; rw [hpc] at hx; simpa using hx
      · simpa [hxc] using hx
    · simp at hs
  | publishSync c =>
    simp only [World.step] at hs
    split at hs
    · next hpc =>
      simp only [Option.some.injEq] at hs
      subst hs
      refine ⟨fun x => ?_, ha.snoc (by simp)⟩
      have hx := hc x
      simp only [ConnOk, World.setThread, Bag.prepareWait] at hx ⊢
      by_cases hxc : x = c
      · subst hxc
        rw [view_snoc]
        simp
      · rw [view_other x _ _ (by
          intro c' n h
          rcases h with h | h
          · simp only [AckEvent.registered.injEq] at h; rw [← h.1]; exact fun e => hxc e.symm
          · simp at h)]
        simpa [hxc] using hx
    · simp at hs
  | send c copies =>
    simp only [World.step] at hs
    split at hs
    · next hpc =>
      simp only [Option.some.injEq] at hs
      subst hs
      refine ⟨fun x => ?_, ha.snoc (by simp)⟩
      have hx := hc x
      simp only [ConnOk, World.setThread] at hx ⊢
      rw [view_other x _ _ (by simp)]
      by_cases hxc : x = c
      · subst hxc; rw [hpc] at hx; simpa using hx
      · simpa [hxc] using hx
    · simp at hs
  | poll c =>
    simp only [World.step, Bag.propsFor] at hs
    split at hs
    · next nap hpc =>
      have hx0 := hc c
      simp only [ConnOk] at hx0
      rw [hpc] at hx0
      simp only at hx0
      rw [hx0.1] at hs
      simp only at hs
      split at hs
      · simp only [Option.some.injEq] at hs
        subst hs
        refine ⟨fun x => ?_, ha⟩
        have hx := hc x
        simp only [ConnOk, World.setThread] at hx ⊢
        by_cases hxc : x = c
        · subst hxc
          simp only [if_true]
          exact ⟨hx0.1, hx0.2.1, by omega, by omega⟩
        · simpa [hxc] using hx
      · next hne =>
        simp only [Option.some.injEq] at hs
        subst hs
        refine ⟨fun x => ?_, ha⟩
        have hx := hc x
        simp only [ConnOk, World.setThread] at hx ⊢
        by_cases hxc : x = c
        · subst hxc
          simp only [if_true]
          refine ⟨hx0.1, hx0.2.1, ?_⟩
          intro he
          rw [he] at hne
          simp at hne
        · simpa [hxc] using hx
    · simp at hs
  | remove c =>
    simp only [World.step] at hs
    split at hs
    · next hpc =>
      simp only [Option.some.injEq] at hs
      subst hs
      refine ⟨fun x => ?_, ha⟩
      have hx := hc x
      simp only [ConnOk, World.setThread, Bag.remove] at hx ⊢
      by_cases hxc : x = c
      · subst hxc; rw [hpc] at hx; simp only [if_true]; exact ⟨trivial, hx.2⟩
      · simpa [hxc] using hx
    · simp at hs
  | answer c =>
    simp only [World.step] at hs
    split at hs
    · next hpc =>
      simp only [Option.some.injEq] at hs
      subst hs
      refine ⟨fun x => ?_, ha.snoc ?_⟩
      · have hx := hc x
        simp only [ConnOk, World.setThread] at hx ⊢
        rw [view_other x _ _ (by simp)]
        by_cases hxc : x = c
        · subst hxc; rw [hpc] at hx; simpa using hx.1
        · simpa [hxc] using hx
      · intro c' n he
        simp only [AckEvent.answered.injEq] at he
        obtain ⟨rfl, rfl⟩ := he
        have hx := hc c
        simp only [ConnOk] at hx
        rw [hpc] at hx
        obtain ⟨-, h1, h2⟩ := hx
        obtain ⟨a, b, e1, e2, e3⟩ := view_split c w.trace _ h1
        obtain ⟨m, hm⟩ := List.exists_mem_of_ne_nil _ h2
        exact ⟨m, ⟨a, b, e1, e3, (e2 m).2 hm⟩, trivial⟩
    · simp at hs
  | sinkAck c n =>
    simp only [World.step] at hs
    split at hs
    · simp only [Option.some.injEq] at hs
      subst hs
      refine ⟨fun x => ?_, ha.snoc (by simp)⟩
      have hx := hc x
      simp only [ConnOk, Bag.ack] at hx ⊢
      by_cases hxc : x = c
      · subst hxc
        rw [view_snoc]
        simp only [if_true]
        cases hpc : (w.threads x).pc <;> rw [hpc] at hx <;> simp only at hx ⊢
        · simp [hx]
        · refine ⟨?_, hx.2⟩
          rw [hx.1]; simp only [Option.map_some, ack, List.length_append, List.length_singleton,
            Option.some.injEq]; omega
        · refine ⟨?_, hx.2⟩
          rw [hx.1]; simp only [Option.map_some, ack, List.length_append, List.length_singleton,
            Option.some.injEq]; omega
        · refine ⟨?_, hx.2.1, by simp⟩
          rw [hx.1]; simp only [Option.map_some, ack, List.length_append, List.length_singleton,
            Option.some.injEq]; omega
        · exact ⟨by simp [hx.1], hx.2.1, by simp⟩
      · rw [view_other x _ _ (by
          intro c' n h
          rcases h with h | h
          · simp at h
          · simp only [AckEvent.acked.injEq] at h; rw [← h.1]; exact fun e => hxc e.symm)]
        simpa [hxc] using hx
    · simp at hs

theorem inv_run (w w' : World) (as : List Act) (h : Inv w) (hr : w.run as = some w') : Inv w' := by
  induction as generalizing w with
  | nil => simp only [World.run, Option.some.injEq] at hr; subst hr; exact h
  | cons a as ih =>
    simp only [World.run, Option.bind_eq_some_iff] at hr
    obtain ⟨w1, h1, h2⟩ := hr
    exact ih w1 (inv_step w w1 a h h1) h2

/-! ### one channel, synchronous publishes only -/

/-- messages of one connection still in flight -/
def pending (c : Nat) (w : World) : List Nat :=
  (w.inflight.filter (fun p => decide (p.1 = c))).map Prod.snd

def ConnSimple (w : World) (c : Nat) : Prop :=
  let t := w.threads c
  let v := view c w.trace
  match t.pc with
  | .idle => pending c w = []
  | .prepared => pending c w = [] ∧ v.2 = []
  | _ => (∀ m ∈ pending c w, m = t.frame) ∧ (∀ m ∈ v.2, m = t.frame) ∧
      (pending c w).length + v.2.length ≤ 1

def InvS (w : World) : Prop :=
  Inv w ∧ (∀ c, ConnSimple w c) ∧ AnswersOk (fun n m => m = n) w.trace

theorem invS_init : InvS {} :=
  ⟨inv_init, fun _ => rfl, by intro pre c n post h; simp at h⟩

theorem pending_erase (c c' n : Nat) (w : World) (bag : Bag) (tr : List AckEvent)
    (h : (c', n) ∈ w.inflight) :
    (c' ≠ c → pending c { w with inflight := w.inflight.erase (c', n), bag := bag, trace := tr }
      = pending c w) ∧
    (c' = c → n ∈ pending c w ∧
      (∀ m ∈ pending c { w with inflight := w.inflight.erase (c', n), bag := bag, trace := tr },
        m ∈ pending c w) ∧
      (pending c { w with inflight := w.inflight.erase (c', n), bag := bag, trace := tr }).length + 1
        = (pending c w).length) := by
  simp only [pending]
  generalize w.inflight = l at h
  induction l with
  | nil => simp at h
  | cons x l ih =>
    by_cases hx : x = (c', n)
    · subst hx
      simp only [List.erase_cons_head, List.filter_cons]
      constructor
      · intro hc; simp [hc]
      · intro hc
        subst hc
        simp only [decide_true, if_true, List.map_cons, List.mem_cons, true_or, List.length_cons,
          true_and, and_true]
        intro m hm; exact Or.inr hm
    · rw [List.erase_cons_tail (by simpa using hx)]
      have hl : (c', n) ∈ l := by
        rcases List.mem_cons.1 h with h | h
        · exact absurd h.symm hx
        · exact h
      obtain ⟨i1, i2⟩ := ih hl
      simp only [List.filter_cons]
      constructor
      · intro hc
        by_cases hxc : x.1 = c
        · simp only [hxc, decide_true, if_true, List.map_cons, i1 hc]
        · simp only [hxc, decide_false, Bool.false_eq_true, if_false, i1 hc]
      · intro hc
        obtain ⟨j1, j2, j3⟩ := i2 hc
        by_cases hxc : x.1 = c
        · simp only [hxc, decide_true, if_true, List.map_cons, List.mem_cons, List.length_cons]
          refine ⟨Or.inr j1, ?_, by omega⟩
          rintro m (hm | hm)
          · exact Or.inl hm
          · exact Or.inr (j2 m hm)
        · simp only [hxc, decide_false, Bool.false_eq_true, if_false]
          exact ⟨j1, j2, j3⟩

theorem invS_step (w w' : World) (a : Act) (h : InvS w) (hsimple : a.simple)
    (hs : w.step a = some w') : InvS w' := by
  obtain ⟨hinv, hc, ha⟩ := h
  refine ⟨inv_step w w' a hinv hs, ?_⟩
  cases a with
  | publishAsync c copies => exact hsimple.elim
  | publishSync c =>
    simp only [World.step] at hs
    split at hs
    · next hpc =>
      simp only [Option.some.injEq] at hs
      subst hs
      refine ⟨fun x => ?_, ha.snoc (by simp)⟩
      have hx := hc x
      simp only [ConnSimple, World.setThread] at hx ⊢
      by_cases hxc : x = c
      · subst hxc
        rw [hpc] at hx
        rw [view_snoc]
        simp only [if_true, and_true]
        exact hx
      · rw [view_other x _ _ (by
          intro c' n h
          rcases h with h | h
          · simp only [AckEvent.registered.injEq] at h; rw [← h.1]; exact fun e => hxc e.symm
          · simp at h)]
        simpa [hxc, pending] using hx
    · simp at hs
  | send c copies =>
    simp only [Act.simple] at hsimple
    simp only [World.step] at hs
    split at hs
    · next hpc =>
      simp only [Option.some.injEq] at hs
      subst hs
      refine ⟨fun x => ?_, ha.snoc (by simp)⟩
      have hx := hc x
      simp only [ConnSimple, World.setThread, pending] at hx ⊢
      rw [view_other x _ _ (by simp)]
      simp only [List.filter_append, List.map_append]
      by_cases hxc : x = c
      · subst hxc
        rw [hpc] at hx
        simp only at hx
        obtain ⟨h1, h2⟩ := hx
        simp only [if_true, h1, h2, List.nil_append, List.length_nil, Nat.add_zero]
        refine ⟨?_, by simp, ?_⟩
        · intro m hm
          obtain ⟨p, hp, rfl⟩ := List.mem_map.1 hm
          rw [List.eq_of_mem_replicate (List.mem_filter.1 hp).1]
        · rw [List.length_map]
          exact Nat.le_trans (List.length_filter_le _ _) (by simpa using hsimple)
      · have : (List.replicate copies (c, (w.threads c).frame)).filter
            (fun p => decide (p.1 = x)) = [] := by
          apply List.filter_eq_nil_iff.2
          intro p hp
          rw [List.eq_of_mem_replicate hp]
          simpa using fun e => hxc e.symm
        simp only [this, List.map_nil, List.append_nil, if_neg hxc]
        exact hx
    · simp at hs
  | poll c =>
    simp only [World.step, Bag.propsFor] at hs
    have keep : ∀ pc', (w.threads c).pc ≠ .idle → (w.threads c).pc ≠ .prepared →
        pc' ≠ .idle → pc' ≠ .prepared →
        (∀ x, ConnSimple (w.setThread c ⟨pc', (w.threads c).frame⟩) x) := by
      intro pc' h1 h2 h3 h4 x
      have hx := hc x
      simp only [ConnSimple, World.setThread, pending] at hx ⊢
      by_cases hxc : x = c
      · subst hxc
        simp only [if_true]
        cases hpc : (w.threads x).pc <;> rw [hpc] at hx h1 h2 <;> simp at h1 h2 <;>
          cases pc' <;> simp at h3 h4 <;> exact hx
      · simpa [hxc] using hx
    split at hs
    · next nap hpc =>
      have n1 : (w.threads c).pc ≠ .idle := by rw [hpc]; simp
      have n2 : (w.threads c).pc ≠ .prepared := by rw [hpc]; simp
      split at hs
      · split at hs
        · simp only [Option.some.injEq] at hs
          subst hs
          exact ⟨keep _ n1 n2 (by simp) (by simp), ha⟩
        · simp only [Option.some.injEq] at hs
          subst hs
          exact ⟨keep _ n1 n2 (by simp) (by simp), ha⟩
      · simp only [Option.some.injEq] at hs
        subst hs
        exact ⟨keep _ n1 n2 (by simp) (by simp), ha⟩
    · simp at hs
  | remove c =>
    simp only [World.step] at hs
    split at hs
    · next hpc =>
      simp only [Option.some.injEq] at hs
      subst hs
      refine ⟨fun x => ?_, ha⟩
      have hx := hc x
      simp only [ConnSimple, World.setThread, pending] at hx ⊢
      by_cases hxc : x = c
      · subst hxc; rw [hpc] at hx; simp only [if_true]; exact hx
      · simpa [hxc] using hx
    · simp at hs
  | answer c =>
    simp only [World.step] at hs
    split at hs
    · next hpc =>
      have hi := hinv.1 c
      simp only [ConnOk, hpc] at hi
      obtain ⟨-, hi1, hi2⟩ := hi
      have hcc := hc c
      simp only [ConnSimple, hpc] at hcc
      obtain ⟨s1, s2, s3⟩ := hcc
      have hlen := List.length_pos_iff.2 hi2
      simp only [Option.some.injEq] at hs
      subst hs
      refine ⟨fun x => ?_, ha.snoc ?_⟩
      · have hx := hc x
        simp only [ConnSimple, World.setThread, pending] at hx s3 ⊢
        rw [view_other x _ _ (by simp)]
        by_cases hxc : x = c
        · subst hxc
          simp only [if_true]
          exact List.eq_nil_of_length_eq_zero (by omega)
        · simpa [hxc] using hx
      · intro c' n he
        simp only [AckEvent.answered.injEq] at he
        obtain ⟨rfl, rfl⟩ := he
        obtain ⟨a, b, e1, e2, e3⟩ := view_split c w.trace _ hi1
        obtain ⟨m, hm⟩ := List.exists_mem_of_ne_nil _ hi2
        exact ⟨m, ⟨a, b, e1, e3, (e2 m).2 hm⟩, s2 m hm⟩
    · simp at hs
  | sinkAck c n =>
    simp only [World.step] at hs
    split at hs
    · next hmem =>
      simp only [Option.some.injEq] at hs
      subst hs
      refine ⟨fun x => ?_, ha.snoc (by simp)⟩
      have hx := hc x
      obtain ⟨p1, p2⟩ := pending_erase x c n w (w.bag.ack c) (w.trace ++ [.acked c n]) hmem
      simp only [ConnSimple] at hx ⊢
      by_cases hxc : x = c
      · subst hxc
        obtain ⟨q1, q2, q3⟩ := p2 rfl
        rw [view_snoc]
        simp only [if_true]
        have hne : pending x w ≠ [] := List.ne_nil_of_mem q1
        generalize pending x { w with inflight := w.inflight.erase (x, n), bag := w.bag.ack x, trace := w.trace ++ [.acked x n] } = pw at q2 q3
        have fin : ((∀ m ∈ pending x w, m = (w.threads x).frame) ∧
            (∀ m ∈ (view x w.trace).2, m = (w.threads x).frame) ∧
            (pending x w).length + (view x w.trace).2.length ≤ 1) →
            ((∀ m ∈ pw, m = (w.threads x).frame) ∧
            (∀ m ∈ (view x w.trace).2 ++ [n], m = (w.threads x).frame) ∧
            pw.length + ((view x w.trace).2 ++ [n]).length ≤ 1) := by
          rintro ⟨a1, a2, a3⟩
          refine ⟨fun m hm => a1 m (q2 m hm), ?_, by simp only [List.length_append, List.length_singleton]; omega⟩
          intro m hm
          rcases List.mem_append.1 hm with hm | hm
          · exact a2 m hm
          · rw [List.mem_singleton.1 hm]; exact a1 n q1
        cases hpc : (w.threads x).pc <;> rw [hpc] at hx <;> simp only at hx ⊢
        · exact absurd hx hne
        · exact absurd hx.1 hne
        · exact fin hx
        · exact fin hx
        · exact fin hx
      · rw [view_other x _ _ (by
          intro c' n h
          rcases h with h | h
          · simp at h
          · simp only [AckEvent.acked.injEq] at h; rw [← h.1]; exact fun e => hxc e.symm),
          p1 (fun e => hxc e.symm)]
        exact hx
    · simp at hs

theorem invS_run (w w' : World) (as : List Act) (h : InvS w) (hsimple : ∀ a ∈ as, a.simple)
    (hr : w.run as = some w') : InvS w' := by
  induction as generalizing w with
  | nil => simp only [World.run, Option.some.injEq] at hr; subst hr; exact h
  | cons a as ih =>
    simp only [World.run, Option.bind_eq_some_iff] at hr
    obtain ⟨w1, h1, h2⟩ := hr
    exact ih w1 (invS_step w w1 a h (hsimple a (by simp)) h1) (fun a ha => hsimple a (by simp [ha])) h2

end Verif.Ack
