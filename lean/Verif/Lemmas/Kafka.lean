import Verif.Spec.Kafka
namespace Verif.Kafka

theorem finals_append (a b : List KEvent) : finals (a ++ b) = finals a ++ finals b := by
  simp [finals]
theorem acks_append (a b : List KEvent) : acks (a ++ b) = acks a ++ acks b := by
  simp [acks]
theorem submissions_append (a b : List KEvent) :
    submissions (a ++ b) = submissions a ++ submissions b := by
  simp [submissions]
theorem endedAs_append (v : Verdict) (a b : List KEvent) :
    endedAs v (a ++ b) = endedAs v a + endedAs v b := by
  simp [endedAs, List.countP_append]

/-- The acknowledgement events for a list of ids. -/
def ackEvents (ids : List (Option Nat)) : List KEvent := (ids.filterMap id).map .ack

theorem ackEvents_facts (ids : List (Option Nat)) :
    finals (ackEvents ids) = [] ∧ acks (ackEvents ids) = ids.filterMap id ∧
    submissions (ackEvents ids) = [] ∧ ∀ v, endedAs v (ackEvents ids) = 0 := by
  unfold ackEvents
  generalize ids.filterMap id = l
  induction l with
  | nil => exact ⟨rfl, rfl, rfl, fun _ => rfl⟩
  | cons c l ih =>
    simp only [finals, acks, submissions, endedAs] at ih ⊢
    simp [ih.1, ih.2.1, ih.2.2.1, ih.2.2.2]

theorem foldl_acknowledge (ids : List (Option Nat)) (k : Kafka) :
    ids.foldl acknowledge k = { k with trace := k.trace ++ ackEvents ids } := by
  induction ids generalizing k with
  | nil => simp [ackEvents]
  | cons c ids ih =>
    rw [List.foldl_cons, ih]
    cases c with
    | none => simp [acknowledge, ackEvents]
    | some c => simp [acknowledge, ackEvents]

theorem tryPayload_eq {utf8 : Bytes → Bool} {k k' : Kafka} {p key md c m}
    (h : k.tryPayload utf8 p key md c = some (m, k')) :
    m.sub = ⟨k.topicName, p, key, md.getD [], c⟩ ∧
    m.outcome = (k.script.head?.getD fun _ => .published) m.sub ∧
    k' = { k with script := k.script.tail, trace := k.trace ++ [.submitted m.sub] } := by
  unfold tryPayload at h
  simp only at h
  split at h
  · simp only [Option.some.injEq, Prod.mk.injEq] at h
    obtain ⟨rfl, rfl⟩ := h
    exact ⟨rfl, rfl, rfl⟩
  · simp at h

/-- The scan: everything it returns, in terms of the messages. -/
theorem scan_spec (ms : List InFlight) :
    ∃ rs ids p r f es, scan ms = (rs, ids, p, r, f, es) ∧ finals es = ids ∧ acks es = [] ∧
      submissions es = [] ∧ endedAs .published es = p ∧ endedAs .failed es = f ∧
      endedAs .unretryable es = 0 ∧ rs.length = r ∧
      (∀ o, (rs.map (·.connectionId)).count o + ids.count o =
        (ms.map (·.sub.connectionId)).count o) ∧
      (∀ f ∈ rs, ∃ m ∈ ms, m.outcome = .retryable f.message ∧
        m.sub.connectionId = f.connectionId) ∧
      rs = (ms.filterMap fun m => match m.outcome with
        | .retryable o => some ⟨o, m.sub.connectionId⟩
        | _ => none) := by
  induction ms with
  | nil => exact ⟨[], [], 0, 0, 0, [], rfl, rfl, rfl, rfl, rfl, rfl, rfl, rfl, by simp, by simp, rfl⟩
  | cons m ms ih =>
    obtain ⟨rs, ids, p, r, f, es, h0, h1, h2, h3, h4, h5, h6, h7, h8, h9, h10⟩ := ih
    have up : ∀ g ∈ rs, ∃ m' ∈ m :: ms, m'.outcome = .retryable g.message ∧
        m'.sub.connectionId = g.connectionId := by
      intro g hg
      obtain ⟨x, hx, hx2⟩ := h9 g hg
      exact ⟨x, by simp [hx], hx2⟩
    have bad : ∀ v, v = Verdict.published ∨ v = .failed → ∀ o,
        (rs.map (·.connectionId)).count o + (m.sub.connectionId :: ids).count o =
          ((m :: ms).map (·.sub.connectionId)).count o := by
      intro v _ o
      rw [List.map_cons, List.count_cons, List.count_cons]
      have := h8 o
      omega
    simp only [scan, h0]
    cases ho : m.outcome with
    | published =>
      refine ⟨rs, m.sub.connectionId :: ids, p + 1, r, f, .final m.sub.connectionId .published :: es,
        rfl, ?_, ?_, ?_, ?_, ?_, ?_, h7, bad .published (by simp), up, by simp [ho, h10]⟩
      · simpa [finals] using h1
      · simpa [acks] using h2
      · simpa [submissions] using h3
      · simp only [endedAs] at h4 ⊢; simp [h4]
      · simpa [endedAs] using h5
      · simpa [endedAs] using h6
    | fatal =>
      refine ⟨rs, m.sub.connectionId :: ids, p, r, f + 1, .final m.sub.connectionId .failed :: es,
        rfl, ?_, ?_, ?_, ?_, ?_, ?_, h7, bad .failed (by simp), up, by simp [ho, h10]⟩
      · simpa [finals] using h1
      · simpa [acks] using h2
      · simpa [submissions] using h3
      · simpa [endedAs] using h4
      · simp only [endedAs] at h5 ⊢; simp [h5]
      · simpa [endedAs] using h6
    | canceled =>
      refine ⟨rs, m.sub.connectionId :: ids, p, r, f + 1, .final m.sub.connectionId .failed :: es,
        rfl, ?_, ?_, ?_, ?_, ?_, ?_, h7, bad .failed (by simp), up, by simp [ho, h10]⟩
      · simpa [finals] using h1
      · simpa [acks] using h2
      · simpa [submissions] using h3
      · simpa [endedAs] using h4
      · simp only [endedAs] at h5 ⊢; simp [h5]
      · simpa [endedAs] using h6
    | retryable o =>
      refine ⟨⟨o, m.sub.connectionId⟩ :: rs, ids, p, r + 1, f, es, rfl, h1, h2, h3, h4, h5, h6,
        by simp [h7], ?_, ?_, by simp [ho, h10]⟩
      · intro x
        rw [List.map_cons, List.map_cons, List.count_cons, List.count_cons]
        have := h8 x
        simp only
        omega
      · intro g hg
        rcases List.mem_cons.1 hg with rfl | hg
        · exact ⟨m, by simp, ho, rfl⟩
        · exact up g hg

/-- Resubmission. -/
theorem resubmit_spec (utf8 : Bytes → Bool) (fs : List Failed) (k k' : Kafka) (ms ids)
    (h : resubmit utf8 k fs = some (k', ms, ids)) :
    ∃ es, k'.trace = k.trace ++ es ∧ finals es = ids ∧ acks es = [] ∧
      submissions es = ms.map (·.sub) ∧ endedAs .published es = 0 ∧ endedAs .failed es = 0 ∧
      endedAs .unretryable es = ids.length ∧
      k'.publish = k.publish ∧ k'.publishFailed = k.publishFailed ∧ k'.retry = k.retry ∧
      k'.retryFailed = k.retryFailed + ids.length ∧ ms.length + ids.length = fs.length ∧
      k'.script = k.script.drop ms.length ∧ k'.topicName = k.topicName ∧
      k'.maxMessageBytes = k.maxMessageBytes ∧
      (∀ o, (ms.map (·.sub.connectionId)).count o + ids.count o =
        (fs.map (·.connectionId)).count o) ∧
      (k.script = [] → ∀ m ∈ ms, m.outcome = .published) ∧
      (∀ m ∈ ms, m.outcome = .published ∨ ∃ f ∈ k.script, m.outcome = f m.sub) := by
  induction fs generalizing k k' ms ids with
  | nil =>
    simp only [resubmit, Option.some.injEq, Prod.mk.injEq] at h
    obtain ⟨rfl, rfl, rfl⟩ := h
    exact ⟨[], by simp [finals, acks, submissions, endedAs]⟩
  | cons f fs ih =>
    have hbad : (∀ p key, f.message.payload = some p → f.message.key = some key → False) →
        resubmit utf8 k (f :: fs) =
        (resubmit utf8 { k with retryFailed := k.retryFailed + 1,
                                trace := k.trace ++ [.final f.connectionId .unretryable] } fs).map
          fun (k, ms, ids) => (k, ms, f.connectionId :: ids) := by
      intro hb
      cases hp : f.message.payload with
      | none => simp [resubmit, hp]
      | some p =>
        cases hk : f.message.key with
        | none => simp [resubmit, hp, hk]
        | some key => exact absurd trivial (fun _ => hb p key hp hk)
    by_cases hgood : ∃ p key, f.message.payload = some p ∧ f.message.key = some key
    · obtain ⟨p, key, hp, hk⟩ := hgood
      simp only [resubmit, hp, hk] at h
      cases ht : k.tryPayload utf8 p key f.metadata f.connectionId with
      | none => simp [ht] at h
      | some x =>
        obtain ⟨m, k1⟩ := x
        rw [ht] at h
        simp only [Option.map_eq_some_iff, Prod.exists] at h
        obtain ⟨k2, ms2, ids2, h1, h2⟩ := h
        simp only [Prod.mk.injEq] at h2
        obtain ⟨rfl, rfl, rfl⟩ := h2
        obtain ⟨t1, t2, t3⟩ := tryPayload_eq ht
        obtain ⟨es, i1, i2, i3, i4, i5, i6, i7, i8, i9, i10, i11, i12, i13, i14, i15, i16, i17, i18⟩ :=
          ih _ _ _ _ h1
        subst t3
        refine ⟨.submitted m.sub :: es, ?_, ?_, ?_, ?_, ?_, ?_, ?_, i8, i9, i10, i11, ?_, ?_, i14, i15,
          ?_, ?_, ?_⟩
        · rw [i1]; simp
        · simpa [finals] using i2
        · simpa [acks] using i3
        · simp only [submissions] at i4 ⊢; simp [i4]
        · simpa [endedAs] using i5
        · simpa [endedAs] using i6
        · simpa [endedAs] using i7
        · simp; omega
        · rw [i13]; simp
        · intro o
          have := i16 o
          simp only [List.map_cons, List.count_cons]
          rw [t1]; simp only; omega
        · intro hs x hx
          rcases List.mem_cons.1 hx with rfl | hx
          · rw [t2, hs]; rfl
          · exact i17 (by simp [hs]) x hx
        · intro x hx
          rcases List.mem_cons.1 hx with rfl | hx
          · cases hsc : k.script with
            | nil => left; rw [t2, hsc]; rfl
            | cons g gs => right; exact ⟨g, by simp, by rw [t2, hsc]; rfl⟩
          · rcases i18 x hx with h | ⟨g, hg, hx⟩
            · exact Or.inl h
            · exact Or.inr ⟨g, List.mem_of_mem_tail hg, hx⟩
    · rw [hbad (fun p key h1 h2 => hgood ⟨p, key, h1, h2⟩)] at h
      simp only [Option.map_eq_some_iff, Prod.exists] at h
      obtain ⟨k2, ms2, ids2, h1, h2⟩ := h
      simp only [Prod.mk.injEq] at h2
      obtain ⟨rfl, rfl, rfl⟩ := h2
      obtain ⟨es, i1, i2, i3, i4, i5, i6, i7, i8, i9, i10, i11, i12, i13, i14, i15, i16, i17, i18⟩ :=
          ih _ _ _ _ h1
      refine ⟨.final f.connectionId .unretryable :: es, ?_, ?_, ?_, ?_, ?_, ?_, ?_, i8, i9, i10, ?_, ?_,
        i13, i14, i15, ?_, i17, i18⟩
      · rw [i1]; simp
      · simp only [finals] at i2 ⊢; simp [i2]
      · simpa [acks] using i3
      · simpa [submissions] using i4
      · simpa [endedAs] using i5
      · simpa [endedAs] using i6
      · simp only [endedAs] at i7 ⊢; simp [i7]
      · rw [i11]; simp; omega
      · simp; omega
      · intro o
        have := i16 o
        simp only [List.map_cons, List.count_cons]
        omega

theorem prefix_append_cases {α : Type} {p a b : List α} (h : p <+: a ++ b) :
    p <+: a ∨ ∃ d, p = a ++ d ∧ d <+: b := by
  obtain ⟨t, ht⟩ := h
  rcases List.append_eq_append_iff.1 ht with ⟨x, h1, h2⟩ | ⟨x, h1, h2⟩
  · exact Or.inl ⟨x, h1.symm⟩
  · exact Or.inr ⟨x, h1, ⟨t, h2.symm⟩⟩

/-- Acknowledgements never run ahead of final outcomes. -/
def Causal (es : List KEvent) : Prop :=
  ∀ pre, pre <+: es → ∀ c : Nat, (acks pre).count c ≤ (finals pre).count (some c)

theorem Causal.append {a b : List KEvent} (ha : Causal a) (hb : Causal b) : Causal (a ++ b) := by
  intro pre hpre c
  rcases prefix_append_cases hpre with h | ⟨d, rfl, hd⟩
  · exact ha pre h c
  · have h1 := ha a (List.prefix_refl a) c
    have h2 := hb d hd c
    rw [acks_append, finals_append, List.count_append, List.count_append]
    omega

theorem Causal.of_no_acks {a : List KEvent} (h : acks a = []) : Causal a := by
  intro pre hpre c
  obtain ⟨d, rfl⟩ := hpre
  rw [acks_append] at h
  rw [(List.append_eq_nil_iff.1 h).1]
  simp

theorem count_filterMap_id (l : List (Option Nat)) (c : Nat) :
    (l.filterMap id).count c = l.count (some c) := by
  induction l with
  | nil => rfl
  | cons x l ih =>
    cases x with
    | none => simp [ih]
    | some x => simp [List.count_cons, ih]

/-- Acks that are covered by earlier finals. -/
theorem Causal.append_acks {a : List KEvent} (ha : Causal a) (ids : List (Option Nat))
    (h : ∀ c : Nat, (acks a).count c + ids.count (some c) ≤ (finals a).count (some c)) :
    Causal (a ++ ackEvents ids) := by
  intro pre hpre c
  rcases prefix_append_cases hpre with h' | ⟨d, rfl, hd⟩
  · exact ha pre h' c
  · rw [acks_append, finals_append, List.count_append, List.count_append]
    obtain ⟨e, he⟩ := hd
    have hc : (acks d).count c ≤ ids.count (some c) := by
      have : acks (d ++ e) = ids.filterMap id := by rw [he]; exact (ackEvents_facts ids).2.1
      rw [acks_append] at this
      rw [← count_filterMap_id, ← this, List.count_append]
      omega
    have := h c
    omega

/-- One round of the flush loop. -/
theorem round_spec (utf8 : Bytes → Bool) (k k' : Kafka) (ms ids)
    (h : resubmit utf8 k.awaitInflight.2 k.awaitInflight.1 = some (k', ms, ids)) :
    ∃ es, k'.trace = k.trace ++ es ∧ Causal es ∧
      (∀ c : Nat, (acks es).count c + ids.count (some c) = (finals es).count (some c)) ∧
      (∀ o, (finals es).count o + (ms.map (·.sub.connectionId)).count o =
        (k.messages.map (·.sub.connectionId)).count o) ∧
      (finals es).length + ms.length = k.messages.length ∧
      submissions es = ms.map (·.sub) ∧
      k'.publish = k.publish + endedAs .published es ∧
      k'.publishFailed = k.publishFailed + endedAs .failed es ∧
      k'.retryFailed = k.retryFailed + endedAs .unretryable es ∧
      k'.retry = k.retry + (submissions es).length + endedAs .unretryable es ∧
      k'.script = k.script.drop ms.length ∧ k'.topicName = k.topicName ∧
      k'.maxMessageBytes = k.maxMessageBytes ∧
      (k.script = [] → ∀ m ∈ ms, m.outcome = .published) ∧
      ((∀ m ∈ k.messages, m.outcome = .published) → ms = []) := by
  obtain ⟨rs, aids, p, r, f, es, h0, h1, h2, h3, h4, h5, h6, h7, h8, h9, h10⟩ :=
    scan_spec k.messages
  have hlen : ∀ ms : List InFlight, ∀ rs aids p r f es, scan ms = (rs, aids, p, r, f, es) →
      aids.length + rs.length = ms.length := by
    intro ms
    induction ms with
    | nil => intro rs aids p r f es h; simp [scan] at h; simp [← h.1, ← h.2.1]
    | cons m ms ih =>
      intro rs aids p r f es h
      rcases hs : scan ms with ⟨rs', aids', p', r', f', es'⟩
      have := ih _ _ _ _ _ _ hs
      simp only [scan, hs] at h
      cases ho : m.outcome <;> rw [ho] at h <;> simp at h <;>
        (obtain ⟨rfl, rfl, _⟩ := h; simp; omega)
  have hl := hlen _ _ _ _ _ _ _ h0
  simp only [awaitInflight, h0, foldl_acknowledge] at h
  obtain ⟨es2, i1, i2, i3, i4, i5, i6, i7, i8, i9, i10, i11, i12, i13, i14, i15, i16, i17, i18⟩ :=
    resubmit_spec utf8 _ _ _ _ _ h
  obtain ⟨a1, a2, a3, a4⟩ := ackEvents_facts aids
  simp only at i1 i8 i9 i10 i11 i13 i14 i15 i17
  refine ⟨es ++ ackEvents aids ++ es2, ?_, ?_, ?_, ?_, ?_, ?_, ?_, ?_, ?_, ?_, i13, i14, i15, i17, ?_⟩
  · rw [i1]; simp
  · refine ((Causal.of_no_acks h2).append_acks aids ?_).append (Causal.of_no_acks i3)
    intro c; rw [h1, h2]; simp
  · intro c
    rw [acks_append, acks_append, finals_append, finals_append, h1, h2, i2, i3, a1, a2]
    simp [count_filterMap_id]
  · intro o
    rw [finals_append, finals_append, h1, a1, i2]
    have e1 := h8 o
    have e2 := i16 o
    simp only [List.count_append, List.append_nil]
    omega
  · rw [finals_append, finals_append, h1, a1, i2]
    simp only [List.length_append, List.length_nil]
    omega
  · rw [submissions_append, submissions_append, h3, a3, i4]; simp
  · rw [i8, endedAs_append, endedAs_append, h4, a4, i5]; omega
  · rw [i9, endedAs_append, endedAs_append, h5, a4, i6]; omega
  · rw [i11, endedAs_append, endedAs_append, h6, a4, i7]; omega
  · rw [i10, endedAs_append, endedAs_append, h6, a4, i7, submissions_append, submissions_append, h3,
      a3, i4]
    simp; omega
  · intro hall
    have hrs : rs = [] := by
      rw [h10]
      apply List.filterMap_eq_nil_iff.2
      intro m hm
      rw [hall m hm]
    rw [hrs] at i12
    simp at i12
    exact i12.1

/-- The whole loop. -/
theorem flushLoop_spec (utf8 : Bytes → Bool) (n : Nat) (k k' : Kafka) (ids ids')
    (h : flushLoop utf8 n k ids = some (k', ids')) :
    ∃ es more, k'.trace = k.trace ++ es ∧ ids' = ids ++ more ∧ Causal es ∧
      (∀ c : Nat, (acks es).count c + more.count (some c) = (finals es).count (some c)) ∧
      (∀ o, (finals es).count o + (k'.messages.map (·.sub.connectionId)).count o =
        (k.messages.map (·.sub.connectionId)).count o) ∧
      (finals es).length + k'.messages.length = k.messages.length ∧
      k'.publish = k.publish + endedAs .published es ∧
      k'.publishFailed = k.publishFailed + endedAs .failed es ∧
      k'.retryFailed = k.retryFailed + endedAs .unretryable es ∧
      k'.retry = k.retry + (submissions es).length + endedAs .unretryable es ∧
      k'.topicName = k.topicName ∧ k'.maxMessageBytes = k.maxMessageBytes ∧
      ((∀ m ∈ k.messages, m.outcome = .published) → 1 ≤ n → k'.messages = []) ∧
      (k.script.length + 2 ≤ n → k'.messages = []) := by
  induction n generalizing k ids with
  | zero =>
    simp only [flushLoop, Option.some.injEq, Prod.mk.injEq] at h
    obtain ⟨rfl, rfl⟩ := h
    exact ⟨[], [], by simp [acks, finals, submissions, endedAs, Causal]⟩
  | succ n ih =>
    unfold flushLoop at h
    cases hm : k.messages with
    | nil =>
      simp only [hm, List.isEmpty_nil, if_true, Option.some.injEq, Prod.mk.injEq] at h
      obtain ⟨rfl, rfl⟩ := h
      refine ⟨[], [], ?_⟩
      simp [acks, finals, submissions, endedAs, Causal, hm]
    | cons m0 ms0 =>
      simp only [hm, List.isEmpty_cons, Bool.false_eq_true, if_false] at h
      split at h
      · simp at h
      · next kr msr mor hres =>
        obtain ⟨es, r1, r2, r3, r4, r5, r6, r7, r8, r9, r10, r11, r12, r13, r14, r15⟩ :=
          round_spec utf8 k kr msr mor hres
        obtain ⟨es', more, q1, q2, q3, q4, q5, q6, q7, q8, q9, q10, q11, q12, q13, q14⟩ := ih _ _ h
        simp only at q1 q7 q8 q9 q10 q11 q12 q5 q6 q13 q14
        rw [← hm]
        refine ⟨es ++ es', mor ++ more, ?_, ?_, r2.append q3, ?_, ?_, ?_, ?_, ?_, ?_, ?_, ?_, ?_, ?_, ?_⟩
        · rw [q1, r1]; simp
        · rw [q2]; simp
        · intro c
          have e1 := r3 c
          have e2 := q4 c
          rw [acks_append, finals_append]
          simp only [List.count_append]
          omega
        · intro o
          have e1 := r4 o
          have e2 := q5 o
          rw [finals_append]
          simp only [List.count_append]
          omega
        · rw [finals_append]; simp only [List.length_append]; omega
        · rw [q7, r7, endedAs_append]; omega
        · rw [q8, r8, endedAs_append]; omega
        · rw [q9, r9, endedAs_append]; omega
        · rw [q10, r10, endedAs_append, submissions_append]; simp only [List.length_append]; omega
        · rw [q11, r12]
        · rw [q12, r13]
        · intro hall _
          have hms := r15 hall
          have : msr = [] := hms
          subst this
          cases n with
          | zero => simp only [flushLoop, Option.some.injEq, Prod.mk.injEq] at h; rw [← h.1]
          | succ n => exact q13 (by simp) (by omega)
        · intro hfuel
          have hsc : ({ kr with messages := msr } : Kafka).script = k.script.drop msr.length := r11
          by_cases hmsr : msr = []
          · subst hmsr
            cases n with
            | zero => simp only [flushLoop, Option.some.injEq, Prod.mk.injEq] at h; rw [← h.1]
            | succ n => exact q13 (by simp) (by omega)
          · by_cases hse : k.script = []
            · exact q13 (fun m hm => r14 hse m hm) (by omega)
            · apply q14
              rw [r11, List.length_drop]
              have l1 : 0 < msr.length := List.length_pos_iff.2 hmsr
              have l2 : 0 < k.script.length := List.length_pos_iff.2 hse
              omega

end Verif.Kafka
