import Verif.Spec.Resend
/-!
# C154: an Avro client that repeats what was not answered
-/
namespace Verif
open Ack

/-- Nothing of connection `c` is on its way. -/
private def clear (c : Nat) (w : World) : Prop := ∀ n, (c, n) ∉ w.inflight

private structure Steady (c : Nat) (w : World) : Prop where
  answered : answeredOf c w.trace = List.range (w.threads c).frame
  idle : (w.threads c).pc = .idle → clear c w ∧ ackedOf c w.trace = List.range (w.threads c).frame ∧ sentOf c w.trace = List.range (w.threads c).frame
  prepared : (w.threads c).pc = .prepared → clear c w ∧ ackedOf c w.trace = List.range (w.threads c).frame ∧ sentOf c w.trace = List.range (w.threads c).frame ∧
    w.bag c = some 0
  waiting : ∀ nap, (w.threads c).pc = .waiting nap → sentOf c w.trace = List.range ((w.threads c).frame + 1) ∧
    ((w.bag c = some 0 ∧ ackedOf c w.trace = List.range (w.threads c).frame ∧ w.inflight.count (c, (w.threads c).frame) ≤ 1 ∧
        ∀ n, (c, n) ∈ w.inflight → n = (w.threads c).frame) ∨
      (w.bag c = some 1 ∧ clear c w ∧ ackedOf c w.trace = List.range ((w.threads c).frame + 1)))
  finishing : (w.threads c).pc = .released ∨ (w.threads c).pc = .answering → clear c w ∧
    ackedOf c w.trace = List.range ((w.threads c).frame + 1) ∧ sentOf c w.trace = List.range ((w.threads c).frame + 1)

private theorem acked_snoc (c : Nat) (t : List AckEvent) (e : AckEvent) :
    ackedOf c (t ++ [e]) = ackedOf c t ++ (match e with | .acked c' n => if c' = c then [n] else [] | _ => []) := by
  cases e <;> simp only [ackedOf, List.filterMap_append, List.filterMap_cons, List.filterMap_nil, List.append_nil]
  split <;> rename_i h <;> split at h <;> simp_all

private theorem sent_snoc (c : Nat) (t : List AckEvent) (e : AckEvent) :
    sentOf c (t ++ [e]) = sentOf c t ++ (match e with | .sent c' n => if c' = c then [n] else [] | _ => []) := by
  cases e <;> simp only [sentOf, List.filterMap_append, List.filterMap_cons, List.filterMap_nil, List.append_nil]
  split <;> rename_i h <;> split at h <;> simp_all

private theorem answered_snoc (c : Nat) (t : List AckEvent) (e : AckEvent) :
    answeredOf c (t ++ [e]) = answeredOf c t ++ (match e with | .answered c' n => if c' = c then [n] else [] | _ => []) := by
  cases e <;> simp only [answeredOf, List.filterMap_append, List.filterMap_cons, List.filterMap_nil, List.append_nil]
  split <;> rename_i h <;> split at h <;> simp_all

/-- What happens to others leaves a connection as it is. -/
private theorem steady_of (c : Nat) (w w' : World) (h : Steady c w) (ht : w'.threads c = w.threads c) (hb : w'.bag c = w.bag c)
    (hi : ∀ n, w'.inflight.count (c, n) = w.inflight.count (c, n)) (h1 : ackedOf c w'.trace = ackedOf c w.trace)
    (h2 : sentOf c w'.trace = sentOf c w.trace) (h3 : answeredOf c w'.trace = answeredOf c w.trace) : Steady c w' := by
  have hm : ∀ n, (c, n) ∈ w'.inflight ↔ (c, n) ∈ w.inflight := by
    intro n
    rw [← List.count_pos_iff, ← List.count_pos_iff, hi n]
  have hcl : clear c w → clear c w' := fun g n hn => g n ((hm n).1 hn)
  constructor
  · rw [h3, ht]; exact h.answered
  · rw [h1, h2, ht]; intro g; obtain ⟨a, b⟩ := h.idle g; exact ⟨hcl a, b⟩
  · rw [h1, h2, ht, hb]; intro g; obtain ⟨a, b⟩ := h.prepared g; exact ⟨hcl a, b⟩
  · intro nap
    rw [h1, h2, ht, hb, hi]
    intro g
    obtain ⟨a, b⟩ := h.waiting nap g
    refine ⟨a, ?_⟩
    rcases b with ⟨b1, b2, b3, b4⟩ | ⟨b1, b2, b3⟩
    · exact .inl ⟨b1, b2, b3, fun n hn => b4 n ((hm n).1 hn)⟩
    · exact .inr ⟨b1, hcl b2, b3⟩
  · rw [h1, h2, ht]; intro g; obtain ⟨a, b⟩ := h.finishing g; exact ⟨hcl a, b⟩

private theorem steady_step (c : Nat) (w w' : World) (a : Act) (h : Steady c w) (ha : a.SyncOnly c) (hs : w.step a = some w') : Steady c w' := by
  cases a with
  | publishAsync d copies =>
    simp only [Act.SyncOnly] at ha
    simp only [World.step] at hs
    split at hs
    · injection hs with hs; subst hs
      have hdc : ¬ c = d := fun e => ha e.symm
      refine steady_of c w _ h ?_ rfl ?_ ?_ ?_ ?_
      · simp [World.setThread, hdc]
      · intro n
        simp [List.count_append, List.count_replicate, ha]
      · rw [acked_snoc]; simp
      · rw [sent_snoc]; simp [ha]
      · rw [answered_snoc]; simp
    · cases hs
  | publishSync d =>
    simp only [World.step] at hs
    split at hs
    · rename_i hpc
      injection hs with hs; subst hs
      by_cases hdc : c = d
      · subst hdc
        obtain ⟨i1, i2, i3⟩ := h.idle hpc
        have i0 := h.answered
        constructor <;> simp only [World.setThread, if_true, acked_snoc, sent_snoc, answered_snoc, List.append_nil, Bag.prepareWait]
        · exact i0
        · intro g; cases g
        · intro _; exact ⟨i1, i2, i3, trivial⟩
        · intro nap g; cases g
        · rintro (g | g) <;> cases g
      · refine steady_of c w _ h ?_ ?_ (fun _ => rfl) ?_ ?_ ?_
        · simp [World.setThread, hdc]
        · simp [Bag.prepareWait, hdc]
        · rw [acked_snoc]; simp
        · rw [sent_snoc]; simp
        · rw [answered_snoc]; simp
    · cases hs
  | send d copies =>
    simp only [Act.SyncOnly] at ha
    simp only [World.step] at hs
    split at hs
    · rename_i hpc
      injection hs with hs; subst hs
      by_cases hdc : c = d
      · subst hdc
        have hc1 := ha rfl
        obtain ⟨i1, i2, i3, i4⟩ := h.prepared hpc
        have i0 := h.answered
        constructor <;> simp only [World.setThread, if_true, acked_snoc, sent_snoc, answered_snoc, List.append_nil]
        · exact i0
        · intro g; cases g
        · intro g; cases g
        · intro nap _
          refine ⟨by rw [i3, List.range_succ], .inl ⟨i4, i2, ?_, ?_⟩⟩
          · have : w.inflight.count (c, (w.threads c).frame) = 0 := List.count_eq_zero.2 (i1 _)
            simp only [List.count_append, this, List.count_replicate, beq_self_eq_true, if_true]
            omega
          · intro n hn
            rcases List.mem_append.1 hn with hn | hn
            · exact absurd hn (i1 n)
            · have := List.eq_of_mem_replicate hn
              injection this
        · rintro (g | g) <;> cases g
      · have hdc' : ¬ d = c := fun e => hdc e.symm
        refine steady_of c w _ h ?_ rfl ?_ ?_ ?_ ?_
        · simp [World.setThread, hdc]
        · intro n
          simp [List.count_append, List.count_replicate, hdc']
        · rw [acked_snoc]; simp
        · rw [sent_snoc]; simp [hdc']
        · rw [answered_snoc]; simp
    · cases hs
  | poll d =>
    have key : ∀ pc, w' = w.setThread d ⟨pc, (w.threads d).frame⟩ → c ≠ d → Steady c w' := by
      intro pc e hdc
      subst e
      exact steady_of c w _ h (by simp [World.setThread, hdc]) rfl (fun _ => rfl) rfl rfl rfl
    simp only [World.step] at hs
    split at hs
    · rename_i nap hpc
      by_cases hdc : c = d
      · subst hdc
        obtain ⟨i1, i2⟩ := h.waiting nap hpc
        have i0 := h.answered
        simp only [Bag.propsFor] at hs
        rcases i2 with ⟨j1, j2⟩ | ⟨j1, j2, j3⟩
        · simp only [j1, if_true] at hs
          injection hs with hs; subst hs
          constructor <;> simp only [World.setThread, if_true]
          · exact i0
          · intro g; cases g
          · intro g; cases g
          · intro _ _; exact ⟨i1, .inl ⟨j1, j2⟩⟩
          · rintro (g | g) <;> cases g
        · simp only [j1, Nat.one_ne_zero, if_false] at hs
          injection hs with hs; subst hs
          constructor <;> simp only [World.setThread, if_true]
          · exact i0
          · intro g; cases g
          · intro g; cases g
          · intro _ g; cases g
          · intro _; exact ⟨j2, j3, i1⟩
      · split at hs
        · split at hs <;> (injection hs with hs; exact key _ hs.symm hdc)
        · injection hs with hs; exact key _ hs.symm hdc
    · cases hs
  | remove d =>
    simp only [World.step] at hs
    split at hs
    · rename_i hpc
      injection hs with hs; subst hs
      by_cases hdc : c = d
      · subst hdc
        obtain ⟨i1, i2, i3⟩ := h.finishing (.inl hpc)
        have i0 := h.answered
        constructor <;> simp only [World.setThread, if_true]
        · exact i0
        · intro g; cases g
        · intro g; cases g
        · intro _ g; cases g
        · intro _; exact ⟨i1, i2, i3⟩
      · refine steady_of c w _ h ?_ ?_ (fun _ => rfl) rfl rfl rfl
        · simp [World.setThread, hdc]
        · simp [Bag.remove, hdc]
    · cases hs
  | answer d =>
    simp only [World.step] at hs
    split at hs
    · rename_i hpc
      injection hs with hs; subst hs
      by_cases hdc : c = d
      · subst hdc
        obtain ⟨i1, i2, i3⟩ := h.finishing (.inr hpc)
        have i0 := h.answered
        constructor <;> simp only [World.setThread, if_true, acked_snoc, sent_snoc, answered_snoc, List.append_nil]
        · rw [i0, List.range_succ]
        · intro _; exact ⟨i1, i2, i3⟩
        · intro g; cases g
        · intro _ g; cases g
        · rintro (g | g) <;> cases g
      · have hdc' : ¬ d = c := fun e => hdc e.symm
        refine steady_of c w _ h ?_ rfl (fun _ => rfl) ?_ ?_ ?_
        · simp [World.setThread, hdc]
        · rw [acked_snoc]; simp
        · rw [sent_snoc]; simp
        · rw [answered_snoc]; simp [hdc']
    · cases hs
  | sinkAck d n =>
    simp only [World.step] at hs
    split at hs
    · rename_i hin
      injection hs with hs; subst hs
      by_cases hdc : c = d
      · subst hdc
        have i0 := h.answered
        cases hpc : (w.threads c).pc with
        | idle => exact absurd hin ((h.idle hpc).1 n)
        | prepared => exact absurd hin ((h.prepared hpc).1 n)
        | released => exact absurd hin ((h.finishing (.inl hpc)).1 n)
        | answering => exact absurd hin ((h.finishing (.inr hpc)).1 n)
        | waiting nap =>
          obtain ⟨i1, i2⟩ := h.waiting nap hpc
          rcases i2 with ⟨j1, j2, j3, j4⟩ | ⟨-, j2, -⟩
          · have hn := j4 n hin
            subst hn
            constructor <;> simp only [hpc, if_true, acked_snoc, sent_snoc, answered_snoc, List.append_nil]
            · exact i0
            · intro g; cases g
            · intro g; cases g
            · intro _ _
              refine ⟨i1, .inr ⟨by simp [Bag.ack, j1, Ack.ack, usizeMax], ?_, by rw [j2, List.range_succ]⟩⟩
              intro m hm
              have hm' := j4 m (List.mem_of_mem_erase hm)
              subst hm'
              have h1 : (w.inflight.erase (c, (w.threads c).frame)).count (c, (w.threads c).frame) = w.inflight.count (c, (w.threads c).frame) - 1 :=
                List.count_erase_self
              have h2 := List.count_pos_iff.2 hm
              dsimp only at h2
              omega
            · rintro (g | g) <;> cases g
          · exact absurd hin (j2 n)
      · have hdc' : ¬ d = c := fun e => hdc e.symm
        refine steady_of c w _ h rfl ?_ ?_ ?_ ?_ ?_
        · simp [Bag.ack, hdc]
        · intro m
          exact List.count_erase_of_ne (by intro e; injection e; exact hdc ‹_›)
        · rw [acked_snoc]; simp [hdc']
        · rw [sent_snoc]; simp
        · rw [answered_snoc]; simp
    · cases hs

private theorem steady_run (c : Nat) : ∀ (acts : List Act) (w w' : World), Steady c w → (∀ a ∈ acts, a.SyncOnly c) → w.run acts = some w' → Steady c w' := by
  intro acts
  induction acts with
  | nil => intro w w' h _ hr; simp only [World.run] at hr; injection hr with hr; subst hr; exact h
  | cons a acts ih =>
    intro w w' h ha hr
    simp only [World.run] at hr
    cases hs : w.step a with
    | none => rw [hs] at hr; cases hr
    | some w1 =>
      rw [hs] at hr
      exact ih w1 w' (steady_step c w w1 a h (ha a (by simp)) hs) (fun x hx => ha x (by simp [hx])) hr

private theorem steady_init (c : Nat) : Steady c {} := by
  constructor <;> simp [answeredOf, ackedOf, sentOf, clear]

/-- **C154 (one life).**  However the threads take turns and whenever the life ends: of a connection that publishes synchronously to one channel, the frames answered, the frames acknowledged and the
frames that went to the channel are each the first so many, each frame once and in order; what was answered was acknowledged, what was acknowledged had gone to the channel, and at most one frame
beyond the answered ones has. -/
theorem C154_one_life (c : Nat) (schedule : List Act) (w : World) (h : World.run {} schedule = some w) (hs : ∀ a ∈ schedule, a.SyncOnly c) :
    ∃ answers acks sends, answeredOf c w.trace = List.range answers ∧ ackedOf c w.trace = List.range acks ∧ sentOf c w.trace = List.range sends ∧
      answers ≤ acks ∧ acks ≤ sends ∧ sends ≤ answers + 1 := by
  have i := steady_run c schedule {} w (steady_init c) hs h
  refine ⟨(w.threads c).frame, ?_⟩
  cases hpc : (w.threads c).pc with
  | idle => obtain ⟨-, h1, h2⟩ := i.idle hpc; exact ⟨_, _, i.answered, h1, h2, by omega, by omega, by omega⟩
  | prepared => obtain ⟨-, h1, h2, -⟩ := i.prepared hpc; exact ⟨_, _, i.answered, h1, h2, by omega, by omega, by omega⟩
  | released => obtain ⟨-, h1, h2⟩ := i.finishing (.inl hpc); exact ⟨_, _, i.answered, h1, h2, by omega, by omega, by omega⟩
  | answering => obtain ⟨-, h1, h2⟩ := i.finishing (.inr hpc); exact ⟨_, _, i.answered, h1, h2, by omega, by omega, by omega⟩
  | waiting nap =>
    obtain ⟨h2, h1⟩ := i.waiting nap hpc
    rcases h1 with ⟨-, h1, -⟩ | ⟨-, -, h1⟩
    · exact ⟨_, _, i.answered, h1, h2, by omega, by omega, by omega⟩
    · exact ⟨_, _, i.answered, h1, h2, by omega, by omega, by omega⟩

/-- Two frames; the life ends when the second has been acknowledged and not answered.  Another connection publishes asynchronously meanwhile. -/
private def cutOff : List Act :=
  [.publishSync 7, .publishAsync 8 2, .send 7 1, .poll 7, .sinkAck 7 0, .poll 7, .remove 7, .sinkAck 8 0, .answer 7, .publishSync 7, .send 7 1, .sinkAck 7 1, .poll 7]

example : (∀ a ∈ cutOff, a.SyncOnly 7) ∧ (World.run {} cutOff).map (fun w => (answeredOf 7 w.trace, ackedOf 7 w.trace, sentOf 7 w.trace)) =
    some ([0], [0, 1], [0, 1]) := by
  refine ⟨?_, by decide⟩
  intro a ha
  simp only [cutOff, List.mem_cons, List.not_mem_nil, or_false] at ha
  rcases ha with rfl | rfl | rfl | rfl | rfl | rfl | rfl | rfl | rfl | rfl | rfl | rfl | rfl <;> simp [Act.SyncOnly]

private theorem shape (l : Ack.Life) (h : l.Happens) (hs : l.Sync) :
    ∃ acks sends, ackedOf l.conn l.trace = List.range acks ∧ sentOf l.conn l.trace = List.range sends ∧
      l.received ≤ acks ∧ acks ≤ sends ∧ sends ≤ (answeredOf l.conn l.trace).length + 1 := by
  obtain ⟨h1, h2⟩ := h
  cases hr : World.run {} l.schedule with
  | none => rw [hr] at h1; cases h1
  | some w =>
    obtain ⟨a, k, s, e1, e2, e3, l1, l2, l3⟩ := C154_one_life l.conn l.schedule w hr hs
    have ht : l.trace = w.trace := by simp [Ack.Life.trace, hr]
    rw [ht] at h2 ⊢
    rw [e1, List.length_range] at h2 ⊢
    exact ⟨k, s, e2, e3, by omega, l2, l3⟩

/-- **C154 (nothing is lost).**  However often cernan is stopped or killed, and at whatever moments: a client that publishes synchronously to a source with one channel, and in each life starts again with
the first message it has no answer for, has all messages it has an answer for acknowledged by the sink. -/
theorem C154_none_lost (next : Nat) (lives : List Ack.Life) (h : ∀ l ∈ lives, l.Happens) (hs : ∀ l ∈ lives, l.Sync) (m : Nat) (h1 : next ≤ m)
    (h2 : m < next + receivedIn lives) : m ∈ ackedOver next lives := by
  induction lives generalizing next with
  | nil => simp [receivedIn] at h2; omega
  | cons l ls ih =>
    obtain ⟨k, s, e1, -, l1, -, -⟩ := shape l (h l (by simp)) (hs l (by simp))
    simp only [ackedOver, e1, List.mem_append, List.mem_map, List.mem_range]
    by_cases hm : m < next + l.received
    · exact .inl ⟨m - next, by omega, by omega⟩
    · refine .inr (ih (next + l.received) (fun x hx => h x (by simp [hx])) (fun x hx => hs x (by simp [hx])) (by omega) ?_)
      simp only [receivedIn, List.map_cons, List.sum_cons] at h2 ⊢
      omega

/-- **C154 (order).**  Whenever a message is acknowledged, all earlier ones have been: the first acknowledgements come in the order of the messages. -/
theorem C154_in_order (next : Nat) (lives : List Ack.Life) (h : ∀ l ∈ lives, l.Happens) (hs : ∀ l ∈ lives, l.Sync) (pre post : List Nat) (m : Nat)
    (e : ackedOver next lives = pre ++ m :: post) : next ≤ m ∧ ∀ n, next ≤ n → n < m → n ∈ pre := by
  induction lives generalizing next pre with
  | nil => simp [ackedOver] at e
  | cons l ls ih =>
    obtain ⟨k, s, e1, -, l1, -, -⟩ := shape l (h l (by simp)) (hs l (by simp))
    simp only [ackedOver, e1] at e
    rcases List.append_eq_append_iff.1 e with ⟨r, e2, e3⟩ | ⟨r, e2, e3⟩
    · -- in a later life
      obtain ⟨g1, g2⟩ := ih (next + l.received) (fun x hx => h x (by simp [hx])) (fun x hx => hs x (by simp [hx])) r e3
      refine ⟨by omega, fun n hn hnm => ?_⟩
      rw [e2]
      by_cases hk : n < next + l.received
      · exact List.mem_append_left _ (List.mem_map.2 ⟨n - next, List.mem_range.2 (by omega), by omega⟩)
      · exact List.mem_append_right _ (g2 n (by omega) hnm)
    · cases r with
      | nil =>
        simp only [List.append_nil, List.nil_append] at e2 e3
        obtain ⟨g1, g2⟩ := ih (next + l.received) (fun x hx => h x (by simp [hx])) (fun x hx => hs x (by simp [hx])) [] e3.symm
        refine ⟨by omega, fun n hn hnm => ?_⟩
        rw [← e2]
        by_cases hk : n < next + l.received
        · exact List.mem_map.2 ⟨n - next, List.mem_range.2 (by omega), by omega⟩
        · have := g2 n (by omega) hnm; simp at this
      | cons x r =>
        simp only [List.cons_append, List.cons.injEq] at e3
        obtain ⟨rfl, -⟩ := e3
        have hlen : pre.length < k := by
          have := congrArg List.length e2
          simp at this
          omega
        have hat : ∀ i (hi : i < pre.length), pre[i] = next + i := by
          intro i hi
          have := congrArg (fun z => z[i]?) e2
          simp only [List.getElem?_map, List.getElem?_append_left hi] at this
          rw [List.getElem?_range (by omega), List.getElem?_eq_getElem hi] at this
          simpa using this.symm
        have hm : m = next + pre.length := by
          have := congrArg (fun z => z[pre.length]?) e2
          simp only [List.getElem?_map, List.getElem?_append_right (Nat.le_refl _), Nat.sub_self] at this
          rw [List.getElem?_range (by omega)] at this
          simpa using this.symm
        refine ⟨by omega, fun n hn hnm => ?_⟩
        have := hat (n - next) (by omega)
        exact List.mem_iff_getElem.2 ⟨n - next, by omega, by omega⟩

/-- **C154 (repetitions).**  No message goes to the channel twice in one life, so none more often than there are lives, and of all of them together no more go to the channel than frames were answered,
and one for each life.  All that is acknowledged went to the channel in the same life. -/
theorem C154_repeats (next : Nat) (lives : List Ack.Life) (h : ∀ l ∈ lives, l.Happens) (hs : ∀ l ∈ lives, l.Sync) :
    (∀ m, (Ack.sentOver next lives).count m ≤ lives.length) ∧
    (Ack.sentOver next lives).length ≤ (lives.map fun l => (answeredOf l.conn l.trace).length).sum + lives.length ∧
    (ackedOver next lives).Sublist (Ack.sentOver next lives) := by
  induction lives generalizing next with
  | nil => simp [Ack.sentOver, ackedOver]
  | cons l ls ih =>
    obtain ⟨k, s, e1, e2, -, l2, l3⟩ := shape l (h l (by simp)) (hs l (by simp))
    obtain ⟨i1, i2, i3⟩ := ih (next + l.received) (fun x hx => h x (by simp [hx])) (fun x hx => hs x (by simp [hx]))
    simp only [Ack.sentOver, ackedOver, e1, e2]
    refine ⟨fun m => ?_, ?_, List.Sublist.append ?_ i3⟩
    · have hn : ((List.range s).map (next + ·)).Nodup := by
        have := List.nodup_range (n := s)
        rw [List.nodup_iff_pairwise_ne] at *
        rw [List.pairwise_map]
        exact this.imp fun hne e => hne (by omega)
      have := List.nodup_iff_count.1 hn m
      have := i1 m
      simp only [List.count_append, List.length_cons]
      omega
    · simp only [List.length_append, List.length_map, List.length_range, List.map_cons, List.sum_cons, List.length_cons]
      omega
    · refine List.Sublist.map _ ?_
      exact List.range_sublist.2 l2

/-- **C154 (exactly once).**  The messages go to the channel exactly once each and in order, if and only if in each life the client got the answer to all that went there before the life ended. -/
theorem C154_exactly_once_iff (next : Nat) (lives : List Ack.Life) (h : ∀ l ∈ lives, l.Happens) (hs : ∀ l ∈ lives, l.Sync) :
    Ack.sentOver next lives = List.range' next (receivedIn lives) ↔ ∀ l ∈ lives, (sentOf l.conn l.trace).length = l.received := by
  have len : ∀ (next : Nat) (ls : List Ack.Life), (∀ l ∈ ls, l.Happens) → (∀ l ∈ ls, l.Sync) →
      receivedIn ls ≤ (Ack.sentOver next ls).length ∧ ((Ack.sentOver next ls).length = receivedIn ls → ∀ l ∈ ls, (sentOf l.conn l.trace).length = l.received) := by
    intro next ls
    induction ls generalizing next with
    | nil => intro _ _; simp [receivedIn, Ack.sentOver]
    | cons l ls ih =>
      intro h hs
      obtain ⟨k, s, -, e2, l1, l2, -⟩ := shape l (h l (by simp)) (hs l (by simp))
      obtain ⟨i1, i2⟩ := ih (next + l.received) (fun x hx => h x (by simp [hx])) (fun x hx => hs x (by simp [hx]))
      have hsum : receivedIn (l :: ls) = l.received + receivedIn ls := by simp [receivedIn]
      have hlen : (Ack.sentOver next (l :: ls)).length = s + (Ack.sentOver (next + l.received) ls).length := by simp [Ack.sentOver, e2]
      refine ⟨by omega, fun e x hx => ?_⟩
      rcases List.mem_cons.1 hx with rfl | hx
      · rw [e2, List.length_range]; omega
      · exact i2 (by omega) x hx
  constructor
  · intro e
    exact (len next lives h hs).2 (by rw [e, List.length_range'])
  · intro he
    clear len
    induction lives generalizing next with
    | nil => rfl
    | cons l ls ih =>
      obtain ⟨k, s, -, e2, -, -, -⟩ := shape l (h l (by simp)) (hs l (by simp))
      have e3 := he l (by simp)
      rw [e2, List.length_range] at e3
      subst e3
      have hsum : receivedIn (l :: ls) = l.received + receivedIn ls := by simp [receivedIn]
      rw [Ack.sentOver, ih (next + l.received) (fun x hx => h x (by simp [hx])) (fun x hx => hs x (by simp [hx])) (fun x hx => he x (by simp [hx])), e2, hsum]
      rw [List.range_eq_range', List.map_add_range', Nat.add_zero, List.range'_append_1]

/-- Three lives.  In the first the second message is acknowledged and not answered; the second ends before anything is sent; in the third it is published again. -/
private def threeLives : List Ack.Life :=
  [⟨7, cutOff, 1⟩, ⟨3, [.publishSync 3], 0⟩, ⟨5, [.publishSync 5, .send 5 1, .sinkAck 5 0, .poll 5, .remove 5, .answer 5], 1⟩]

example : (∀ l ∈ threeLives, l.Happens) ∧ (∀ l ∈ threeLives, l.Sync) ∧ receivedIn threeLives = 2 ∧ ackedOver 0 threeLives = [0, 1, 1] ∧
    Ack.sentOver 0 threeLives = [0, 1, 1] := by
  refine ⟨?_, ?_, by decide, by decide, by decide⟩
  · intro l hl
    simp only [threeLives, List.mem_cons, List.not_mem_nil, or_false] at hl
    rcases hl with rfl | rfl | rfl <;> exact ⟨by decide, by decide⟩
  · intro l hl
    simp only [threeLives, List.mem_cons, List.not_mem_nil, or_false] at hl
    rcases hl with rfl | rfl | rfl
    all_goals
      intro a ha
      simp only [cutOff, List.mem_cons, List.not_mem_nil, or_false] at ha
    · rcases ha with rfl | rfl | rfl | rfl | rfl | rfl | rfl | rfl | rfl | rfl | rfl | rfl | rfl <;> simp [Act.SyncOnly]
    · rcases ha with rfl; simp [Act.SyncOnly]
    · rcases ha with rfl | rfl | rfl | rfl | rfl | rfl <;> simp [Act.SyncOnly]

example : Ack.sentOver 0 (threeLives.drop 2) = List.range' 0 (receivedIn (threeLives.drop 2)) ∧ receivedIn (threeLives.drop 2) = 1 ∧
    Ack.sentOver 0 threeLives ≠ List.range' 0 (receivedIn threeLives) := by decide

/-- **C154 is false of the code for a source that forwards to two acknowledging sinks**: the answer to the first message may come from one of them, and that to the second from the other one's
acknowledgement of the first.  The life ends; the client has answers for both messages and will not repeat the second, which nobody acknowledged. -/
theorem C154_two_channels_false : ∃ lives : List Ack.Life, (∀ l ∈ lives, l.Happens) ∧
    (∀ l ∈ lives, ∀ a ∈ l.schedule, (∀ c n, a ≠ .publishAsync c n) ∧ ∀ c n, a = .send c n → n = 2) ∧ receivedIn lives = 2 ∧ ackedOver 0 lives = [0, 0] := by
  refine ⟨[⟨0, [.publishSync 0, .send 0 2, .sinkAck 0 0, .poll 0, .remove 0, .answer 0, .publishSync 0, .sinkAck 0 0, .send 0 2, .poll 0, .remove 0, .answer 0], 2⟩], ?_, ?_,
    by decide, by decide⟩
  · intro l hl
    rw [List.mem_singleton] at hl; subst hl
    exact ⟨by decide, by decide⟩
  · intro l hl a ha
    rw [List.mem_singleton] at hl; subst hl
    simp only [List.mem_cons, List.not_mem_nil, or_false] at ha
    rcases ha with rfl | rfl | rfl | rfl | rfl | rfl | rfl | rfl | rfl | rfl | rfl | rfl <;> simp
    all_goals (intro c n _ e; exact e.symm)

end Verif
