import Verif.Lemmas.Kafka
/-!
# Kafka sink: C27-C30
-/
namespace Verif
open Kafka

theorem Kafka.flush_spec {utf8 : Bytes → Bool} {k k' : Kafka} (h : k.flush utf8 = some k') :
    ∃ es, k'.trace = k.trace ++ es ∧ k'.messages = [] ∧ k'.messageBytes = 0 ∧ Causal es ∧
      (∀ c : Nat, (acks es).count c = (finals es).count (some c)) ∧
      (∀ o, (finals es).count o = (k.messages.map (·.sub.connectionId)).count o) ∧
      (finals es).length = k.messages.length ∧
      k'.publish = k.publish + endedAs .published es ∧
      k'.publishFailed = k.publishFailed + endedAs .failed es ∧
      k'.retryFailed = k.retryFailed + endedAs .unretryable es ∧
      k'.retry = k.retry + (submissions es).length + endedAs .unretryable es ∧
      k'.topicName = k.topicName ∧ k'.maxMessageBytes = k.maxMessageBytes := by
  unfold Kafka.flush at h
  simp only [Option.map_eq_some_iff, Prod.exists] at h
  obtain ⟨k1, ids, h1, h2⟩ := h
  obtain ⟨es, more, q1, q2, q3, q4, q5, q6, q7, q8, q9, q10, q11, q12, q13, q14⟩ :=
    flushLoop_spec utf8 _ _ _ _ _ h1
  have hm := q14 (Nat.le_refl _)
  rw [foldl_acknowledge] at h2
  subst h2
  obtain ⟨a1, a2, a3, a4⟩ := ackEvents_facts ids
  simp only [List.nil_append] at q2
  subst q2
  refine ⟨es ++ ackEvents ids, ?_, hm, rfl, ?_, ?_, ?_, ?_, ?_, ?_, ?_, ?_, q11, q12⟩
  · simp [q1]
  · exact q3.append_acks ids (fun c => Nat.le_of_eq (q4 c))
  · intro c
    rw [acks_append, finals_append, a1, a2, List.count_append, count_filterMap_id, q4]; simp
  · intro o
    have := q5 o
    rw [hm] at this
    rw [finals_append, a1]; simpa using this
  · rw [hm] at q6; rw [finals_append, a1]; simpa using q6
  · simp only [q7, endedAs_append, a4]; omega
  · simp only [q8, endedAs_append, a4]; omega
  · simp only [q9, endedAs_append, a4]; omega
  · simp only [q10, endedAs_append, submissions_append, a3, a4]; simp

private theorem ended_total (es : List KEvent) :
    endedAs .published es + endedAs .failed es + endedAs .unretryable es = (finals es).length := by
  induction es with
  | nil => rfl
  | cons e es ih =>
    simp only [endedAs, finals] at ih ⊢
    rcases e with s | ⟨c, v⟩ | c
    · simpa using ih
    · cases v <;> simp <;> omega
    · simpa using ih

theorem Kafka.flush_max {utf8 : Bytes → Bool} {k k' : Kafka} (h : k.flush utf8 = some k') :
    k'.maxMessageBytes = k.maxMessageBytes := by
  obtain ⟨es, h⟩ := Kafka.flush_spec h
  exact h.2.2.2.2.2.2.2.2.2.2.2.2

/-- **C27.** When a flush returns, nothing is in flight and the byte count is zero; each
message that was in flight has reached a final outcome exactly once (for every
connection id — and for messages without one — as many finals as messages); and the
counters moved accordingly: published, failed and unretryable by the number of messages
that ended that way, retried by the number of resubmissions plus the unretryable ones. -/
theorem C27_flush_accounts (utf8 : Bytes → Bool) (k k' : Kafka) (h : k.flush utf8 = some k') :
    k'.messages = [] ∧ k'.messageBytes = 0 ∧
    ∃ es, k'.trace = k.trace ++ es ∧
      (∀ o, (finals es).count o = (k.messages.map (·.sub.connectionId)).count o) ∧
      endedAs .published es + endedAs .failed es + endedAs .unretryable es = k.messages.length ∧
      k'.publish = k.publish + endedAs .published es ∧
      k'.publishFailed = k.publishFailed + endedAs .failed es ∧
      k'.retryFailed = k.retryFailed + endedAs .unretryable es ∧
      k'.retry = k.retry + (submissions es).length + endedAs .unretryable es := by
  obtain ⟨es, h1, h2, h3, _, _, h6, h7, h8, h9, h10, h11, _⟩ := Kafka.flush_spec h
  refine ⟨h2, h3, es, h1, h6, ?_, h8, h9, h10, h11⟩
  rw [← h7]; exact ended_total es

/-- **C28.** Over a flush every connection is acknowledged exactly as many times as it had
messages in flight — whatever retries happen — and messages without a connection id
acknowledge nothing.  At every point during the flush the acknowledgements made to a
connection do not exceed the number of its messages that have reached a final outcome. -/
theorem C28_acks_exactly_once (utf8 : Bytes → Bool) (k k' : Kafka) (h : k.flush utf8 = some k') :
    ∃ es, k'.trace = k.trace ++ es ∧
      (∀ c : Nat, (acks es).count c = (k.messages.map (·.sub.connectionId)).count (some c)) ∧
      (∀ pre, pre <+: es → ∀ c : Nat, (acks pre).count c ≤ (finals pre).count (some c)) := by
  obtain ⟨es, h1, _, _, h4, h5, h6, _⟩ := Kafka.flush_spec h
  exact ⟨es, h1, fun c => by rw [h5, h6], h4⟩

/-- The keys of a header list are distinct. -/
def DistinctKeys (hs : List (Bytes × Bytes)) : Prop := (hs.map Prod.fst).Nodup

theorem Kafka.insertMeta_new (m : Metadata) (kv : Bytes × Bytes)
    (h : ∀ x ∈ m, x.1 ≠ kv.1) : insertMeta m kv = m ++ [kv] := by
  induction m with
  | nil => rfl
  | cons x m ih =>
    simp only [insertMeta, if_neg (h x (by simp)), ih (fun y hy => h y (by simp [hy])),
      List.cons_append]

theorem Kafka.rebuild (hs acc : Metadata) (h : DistinctKeys (acc ++ hs)) :
    hs.foldl insertMeta acc = acc ++ hs := by
  induction hs generalizing acc with
  | nil => simp
  | cons x hs ih =>
    have hx : ∀ y ∈ acc, y.1 ≠ x.1 := by
      intro y hy he
      simp only [DistinctKeys, List.map_append, List.map_cons, List.nodup_append] at h
      exact h.2.2 y.1 (List.mem_map_of_mem hy) x.1 (by simp) he
    rw [List.foldl_cons, insertMeta_new _ _ hx, ih]
    · simp
    · simpa using h

private theorem resubmit_retryable (utf8 : Bytes → Bool) (top : Str) (msgs : List InFlight)
    (k0 k' : Kafka) (ms : List InFlight) (ids : List (Option Nat))
    (hin : ∀ m ∈ msgs, m.sub.topic = top ∧ Faithful m.sub m.outcome ∧
      DistinctKeys m.sub.headers)
    (htop : k0.topicName = top)
    (h : resubmit utf8 k0 (msgs.filterMap fun m => match m.outcome with
      | .retryable o => some ⟨o, m.sub.connectionId⟩
      | _ => none) = some (k', ms, ids)) :
    ms.map (·.sub) = (msgs.filter fun m => isRetryable m.outcome).map (·.sub) ∧ ids = [] := by
  induction msgs generalizing k0 k' ms ids with
  | nil =>
    simp only [List.filterMap_nil, resubmit, Option.some.injEq, Prod.mk.injEq] at h
    simp [← h.2.1, ← h.2.2]
  | cons m msgs ih =>
    have hin' : ∀ m' ∈ msgs, m'.sub.topic = top ∧ Faithful m'.sub m'.outcome ∧
        DistinctKeys m'.sub.headers := fun x hx => hin x (by simp [hx])
    obtain ⟨m1, m2, m3⟩ := hin m (by simp)
    cases ho : m.outcome with
    | retryable o =>
      rw [ho] at m2
      obtain ⟨f1, f2, f3⟩ := m2
      simp only [List.filterMap_cons, ho, resubmit, f1, f2] at h
      split at h
      · simp at h
      · next x m' k1 ht =>
        simp only [Option.map_eq_some_iff, Prod.exists, Prod.mk.injEq] at h
        obtain ⟨k2, ms2, ids2, h1, rfl, rfl, rfl⟩ := h
        obtain ⟨t1, -, t3⟩ := tryPayload_eq ht
        obtain ⟨i1, i2⟩ := ih k1 _ _ _ hin' (by rw [t3]; exact htop) h1
        refine ⟨?_, i2⟩
        simp only [List.map_cons, List.filter_cons, ho, isRetryable, if_true, i1]
        congr 1
        rw [t1, htop, ← m1]
        have hmeta : (Failed.metadata ⟨o, m.sub.connectionId⟩).getD [] = m.sub.headers := by
          simp only [Failed.metadata]
          cases hh : o.headers with
          | none => rw [hh] at f3; simpa using f3
          | some hs =>
            rw [hh] at f3
            simp only [Option.getD_some] at f3
            simp only [Option.map_some, Option.getD_some]
            rw [f3, rebuild m.sub.headers [] (by simpa using m3)]; simp
        rw [hmeta]
    | published =>
      simp only [List.filterMap_cons, ho] at h
      simpa [List.filter_cons, ho, isRetryable] using ih k0 _ _ _ hin' htop h
    | fatal =>
      simp only [List.filterMap_cons, ho] at h
      simpa [List.filter_cons, ho, isRetryable] using ih k0 _ _ _ hin' htop h
    | canceled =>
      simp only [List.filterMap_cons, ho] at h
      simpa [List.filter_cons, ho, isRetryable] using ih k0 _ _ _ hin' htop h

/-- **C29 (one round).** With a broker that hands back what was submitted: the messages
resubmitted in a round are exactly those that got a retryable error, in order, each with
the same topic, payload, key, headers and connection id; none is given up as unretryable. -/
theorem C29_retry_preserves_message (utf8 : Bytes → Bool) (k k' : Kafka) (ms : List InFlight)
    (ids : List (Option Nat))
    (hin : ∀ m ∈ k.messages, m.sub.topic = k.topicName ∧ Faithful m.sub m.outcome ∧
      DistinctKeys m.sub.headers)
    (h : resubmit utf8 k.awaitInflight.2 k.awaitInflight.1 = some (k', ms, ids)) :
    ms.map (·.sub) = (k.messages.filter fun m => isRetryable m.outcome).map (·.sub) ∧ ids = [] := by
  obtain ⟨rs, aids, p, r, f, es, h0, -, -, -, -, -, -, -, -, -, h10⟩ := scan_spec k.messages
  simp only [awaitInflight, h0, foldl_acknowledge] at h
  rw [h10] at h
  exact resubmit_retryable utf8 k.topicName k.messages _ _ _ _ hin (by rfl) h

/-- **C29 (whole flush).** Hence, with such a broker, everything submitted during a flush,
however many rounds it takes, is one of the messages that were in flight when it began,
and nothing is lost as unretryable. -/
theorem C29_flush_only_resubmits (utf8 : Bytes → Bool) (k k' : Kafka)
    (hin : ∀ m ∈ k.messages, m.sub.topic = k.topicName ∧ Faithful m.sub m.outcome ∧
      DistinctKeys m.sub.headers)
    (hsc : ∀ f ∈ k.script, ∀ s, Faithful s (f s)) (h : k.flush utf8 = some k') :
    ∃ es, k'.trace = k.trace ++ es ∧ (∀ s ∈ submissions es, ∃ m ∈ k.messages, s = m.sub) ∧
      k'.retryFailed = k.retryFailed := by
  have key : ∀ n (k k' : Kafka) (ids ids' : List (Option Nat)),
      (∀ m ∈ k.messages, m.sub.topic = k.topicName ∧ Faithful m.sub m.outcome ∧
        DistinctKeys m.sub.headers) →
      (∀ f ∈ k.script, ∀ s, Faithful s (f s)) → flushLoop utf8 n k ids = some (k', ids') →
      ∃ es, k'.trace = k.trace ++ es ∧ (∀ s ∈ submissions es, ∃ m ∈ k.messages, s = m.sub) ∧
        k'.retryFailed = k.retryFailed := by
    intro n
    induction n with
    | zero =>
      intro k k' ids ids' _ _ h
      simp only [flushLoop, Option.some.injEq, Prod.mk.injEq] at h
      obtain ⟨rfl, rfl⟩ := h
      exact ⟨[], by simp [submissions]⟩
    | succ n ih =>
      intro k k' ids ids' hin hsc h
      unfold flushLoop at h
      split at h
      · simp only [Option.some.injEq, Prod.mk.injEq] at h
        obtain ⟨rfl, rfl⟩ := h
        exact ⟨[], by simp [submissions]⟩
      · simp only at h
        split at h
        · simp at h
        · next kr msr mor hres =>
          obtain ⟨c1, c2⟩ := C29_retry_preserves_message utf8 k kr msr mor hin hres
          obtain ⟨es, r1, -, r3, -, -, r6, -, -, r9, r10, r11, r12, -⟩ :=
            round_spec utf8 k kr msr mor hres
          have hmem : ∀ m ∈ msr, ∃ m' ∈ k.messages, m.sub = m'.sub := by
            intro m hm
            have : m.sub ∈ msr.map (·.sub) := List.mem_map_of_mem hm
            rw [c1] at this
            obtain ⟨m', hm', he⟩ := List.mem_map.1 this
            exact ⟨m', (List.mem_filter.1 hm').1, he.symm⟩
          have hout : ∀ m ∈ msr, Faithful m.sub m.outcome := by
            intro m hm
            obtain ⟨rs, aids, p, r, f, es, h0, -⟩ := scan_spec k.messages
            simp only [awaitInflight, h0, foldl_acknowledge] at hres
            obtain ⟨_, -, -, -, -, -, -, -, -, -, -, -, -, -, -, -, -, -, i18⟩ :=
              resubmit_spec utf8 _ _ _ _ _ hres
            rcases i18 m hm with ho | ⟨g, hg, ho⟩
            · rw [ho]; trivial
            · rw [ho]; exact hsc g hg _
          obtain ⟨es', q1, q2, q3⟩ := ih _ _ _ _ (by
              intro m hm
              obtain ⟨m', hm', he⟩ := hmem m hm
              obtain ⟨a1, -, a3⟩ := hin m' hm'
              exact ⟨by rw [he, a1]; exact r12.symm, hout m hm, by rw [he]; exact a3⟩)
            (by
              intro f hf s
              have hf : f ∈ kr.script := hf
              rw [r11] at hf
              exact hsc f (List.mem_of_mem_drop hf) s) h
          simp only at q1 q2 q3
          refine ⟨es ++ es', by rw [q1, r1]; simp, ?_, ?_⟩
          · intro s hs
            rw [submissions_append] at hs
            rcases List.mem_append.1 hs with hs | hs
            · rw [r6] at hs
              obtain ⟨m, hm, rfl⟩ := List.mem_map.1 hs
              exact hmem m hm
            · obtain ⟨m, hm, rfl⟩ := q2 s hs
              exact hmem m hm
          · obtain ⟨rs, aids, p, r, f, es0, h0, -⟩ := scan_spec k.messages
            simp only [awaitInflight, h0, foldl_acknowledge] at hres
            obtain ⟨_, -, -, -, -, -, -, -, -, -, -, i11, -⟩ := resubmit_spec utf8 _ _ _ _ _ hres
            rw [q3, i11, c2]; rfl
  unfold Kafka.flush at h
  simp only [Option.map_eq_some_iff, Prod.exists] at h
  obtain ⟨k1, ids, h1, h2⟩ := h
  obtain ⟨es, e1, e2, e3⟩ := key _ _ _ _ _ hin hsc h1
  rw [foldl_acknowledge] at h2
  subst h2
  refine ⟨es ++ ackEvents ids, by simp [e1], ?_, e3⟩
  rw [submissions_append, (ackEvents_facts ids).2.2.1, List.append_nil]
  exact e2

/-- **C30.** After any sequence of deliveries and flushes on a new sink, the byte count is
the total payload size accepted since the last flush, and the valve is closed exactly
when that total has reached the configured maximum. -/
theorem C30_valve_tracks_bytes (utf8 : Bytes → Bool) (topic : Str) (maxBytes : Nat)
    (script : List (Submission → KOutcome)) (ops : List Op) (k' : Kafka)
    (h : Kafka.run utf8 { topicName := topic, maxMessageBytes := maxBytes, script := script } ops
      = some k') :
    k'.messageBytes = bytesSinceFlush ops ∧
      (k'.valveOpen = false ↔ maxBytes ≤ bytesSinceFlush ops) := by
  have key : ∀ ops (k : Kafka), Kafka.run utf8 k ops = some k' →
      k'.messageBytes = ops.foldl (fun n op => match op with
        | .deliver r => n + r.bytes.length
        | .flush => 0) k.messageBytes ∧ k'.maxMessageBytes = k.maxMessageBytes := by
    intro ops
    induction ops with
    | nil => intro k h; simp only [Kafka.run, Option.some.injEq] at h; subst h; exact ⟨rfl, rfl⟩
    | cons op ops ih =>
      intro k h
      cases op with
      | deliver r =>
        simp only [Kafka.run, Option.bind_eq_some_iff] at h
        obtain ⟨k1, h1, h2⟩ := h
        simp only [deliverRaw, Option.map_eq_some_iff, Prod.exists] at h1
        obtain ⟨m, k2, h3, rfl⟩ := h1
        obtain ⟨-, -, t3⟩ := tryPayload_eq h3
        obtain ⟨i1, i2⟩ := ih _ h2
        subst t3
        exact ⟨i1, i2⟩
      | flush =>
        simp only [Kafka.run, Option.bind_eq_some_iff] at h
        obtain ⟨k1, h1, h2⟩ := h
        obtain ⟨_, -, -, b3, -, -, -, -, -, -, -, -, -, b13⟩ := flush_spec h1
        obtain ⟨i1, i2⟩ := ih _ h2
        rw [b3] at i1
        rw [b13] at i2
        exact ⟨i1, i2⟩
  obtain ⟨h1, h2⟩ := key ops _ h
  refine ⟨h1, ?_⟩
  simp only [valveOpen, h1, h2, decide_eq_false_iff_not, Nat.not_lt]
  rfl

/-! ### C66 — panics -/

/-- **C66 is false of the code**: a raw event whose metadata has a key that is not valid
UTF-8 makes the sink panic, whatever its state. -/
theorem C66_kafka_never_panics_false (utf8 : Bytes → Bool) (k : Kafka) (r : RawEvent)
    (key v : Bytes) (rest : Metadata) (hkey : utf8 key = false)
    (hr : r.metadata = some ((key, v) :: rest)) : k.deliverRaw utf8 r = none := by
  simp [deliverRaw, tryPayload, hr, hkey]

/-- A header list whose keys are all valid UTF-8. -/
def ValidHeaders (utf8 : Bytes → Bool) (hs : List (Bytes × Bytes)) : Prop :=
  ∀ kv ∈ hs, utf8 kv.1 = true

/-- The message handed back with a retryable error has valid header keys. -/
def ValidReturn (utf8 : Bytes → Bool) : KOutcome → Prop
  | .retryable m => ValidHeaders utf8 (m.headers.getD [])
  | _ => True

private theorem insertMeta_mem (m : Metadata) (kv x : Bytes × Bytes) (h : x ∈ insertMeta m kv) :
    x = kv ∨ x ∈ m := by
  induction m with
  | nil => simpa [insertMeta] using h
  | cons y m ih =>
    simp only [insertMeta] at h
    split at h
    · rcases List.mem_cons.1 h with h | h
      · exact Or.inl h
      · exact Or.inr (by simp [h])
    · rcases List.mem_cons.1 h with h | h
      · exact Or.inr (by simp [h])
      · rcases ih h with h | h
        · exact Or.inl h
        · exact Or.inr (by simp [h])

private theorem rebuild_mem (hs acc : Metadata) (x : Bytes × Bytes)
    (h : x ∈ hs.foldl insertMeta acc) : x ∈ hs ∨ x ∈ acc := by
  induction hs generalizing acc with
  | nil => exact Or.inr h
  | cons y hs ih =>
    rw [List.foldl_cons] at h
    rcases ih _ h with h | h
    · exact Or.inl (by simp [h])
    · rcases insertMeta_mem _ _ _ h with h | h
      · exact Or.inl (by simp [h])
      · exact Or.inr h

private theorem tryPayload_isSome {utf8 : Bytes → Bool} (k : Kafka) (p key md c)
    (h : ValidHeaders utf8 (md.getD [])) : ∃ x, k.tryPayload utf8 p key md c = some x := by
  unfold tryPayload
  have : (md.getD []).all (fun kv => utf8 kv.1) = true := by
    rw [List.all_eq_true]; exact h
  exact ⟨_, by simp only [this, if_true]; rfl⟩

/-- **C66 (partial).** A raw event whose metadata keys are valid UTF-8 is always accepted,
and a flush never panics if the messages librdkafka hands back have valid header keys.
Missing: raw events with other metadata keys (`C66_kafka_never_panics_false`). -/
theorem C66_kafka_never_panics_partial (utf8 : Bytes → Bool) (k : Kafka) :
    (∀ r : RawEvent, ValidHeaders utf8 (r.metadata.getD []) → ∃ k', k.deliverRaw utf8 r = some k') ∧
    ((∀ m ∈ k.messages, ValidReturn utf8 m.outcome) →
      (∀ f ∈ k.script, ∀ s, ValidReturn utf8 (f s)) → ∃ k', k.flush utf8 = some k') := by
  have hres : ∀ (fs : List Failed) (k : Kafka),
      (∀ f ∈ fs, ValidHeaders utf8 (f.message.headers.getD [])) →
      ∃ x, resubmit utf8 k fs = some x := by
    intro fs
    induction fs with
    | nil => intro k _; exact ⟨_, rfl⟩
    | cons f fs ih =>
      intro k hf
      have hmd : ValidHeaders utf8 (f.metadata.getD []) := by
        intro x hx
        simp only [Failed.metadata] at hx
        have h0 := hf f (by simp)
        cases hh : f.message.headers with
        | none => rw [hh] at hx; simp at hx
        | some hs =>
          rw [hh] at hx h0
          simp only [Option.map_some, Option.getD_some] at hx h0
          rcases rebuild_mem _ _ _ hx with h | h
          · exact h0 x h
          · simp at h
      have hrest : ∀ g ∈ fs, ValidHeaders utf8 (g.message.headers.getD []) :=
        fun g hg => hf g (by simp [hg])
      cases hp : f.message.payload with
      | none =>
        simp only [resubmit, hp]
        obtain ⟨x, hx⟩ := ih _ hrest
        rw [hx]; exact ⟨_, rfl⟩
      | some p =>
        cases hk : f.message.key with
        | none =>
          simp only [resubmit, hp, hk]
          obtain ⟨x, hx⟩ := ih _ hrest
          rw [hx]; exact ⟨_, rfl⟩
        | some key =>
          simp only [resubmit, hp, hk]
          obtain ⟨⟨m, k1⟩, ht⟩ := tryPayload_isSome k p key f.metadata f.connectionId hmd
          obtain ⟨x, hx⟩ := ih k1 hrest
          rw [ht]
          simp only [hx]
          exact ⟨_, rfl⟩
  have key : ∀ n (k : Kafka) (ids : List (Option Nat)),
      (∀ m ∈ k.messages, ValidReturn utf8 m.outcome) →
      (∀ f ∈ k.script, ∀ s, ValidReturn utf8 (f s)) → ∃ x, flushLoop utf8 n k ids = some x := by
    intro n
    induction n with
    | zero => intro k ids _ _; exact ⟨_, rfl⟩
    | succ n ih =>
      intro k ids hm hs
      unfold flushLoop
      split
      · exact ⟨_, rfl⟩
      · obtain ⟨rs, aids, p, r, f, es, h0, -, -, -, -, -, -, -, -, h9, -⟩ := scan_spec k.messages
        have hrs : k.awaitInflight.1 = rs := by simp only [awaitInflight, h0]
        have hsc : k.awaitInflight.2.script = k.script := by
          simp only [awaitInflight, h0, foldl_acknowledge]
        obtain ⟨⟨kr, msr, mor⟩, hx⟩ := hres k.awaitInflight.1 k.awaitInflight.2 (by
          rw [hrs]
          intro g hg
          obtain ⟨m, hm1, hm2, -⟩ := h9 g hg
          have := hm m hm1
          rw [hm2] at this
          exact this)
        simp only [hx]
        obtain ⟨_, -, -, -, -, -, -, -, -, -, -, -, -, i13, -, -, -, -, i18⟩ :=
          resubmit_spec utf8 _ _ _ _ _ hx
        apply ih
        · intro m hm'
          rcases i18 m hm' with ho | ⟨g, hg, ho⟩
          · rw [ho]; trivial
          · rw [ho]; exact hs g (by rw [← hsc]; exact hg) _
        · intro g hg s
          have hg : g ∈ kr.script := hg
          rw [i13, hsc] at hg
          exact hs g (List.mem_of_mem_drop hg) s
  refine ⟨fun r hr => ?_, fun hm hs => ?_⟩
  · obtain ⟨⟨m, k1⟩, ht⟩ := tryPayload_isSome k r.bytes (hex r.orderBy) r.metadata r.connectionId hr
    simp only [deliverRaw, ht]; exact ⟨_, rfl⟩
  · obtain ⟨x, hx⟩ := key (k.script.length + 2) k [] hm hs
    simp only [Kafka.flush, hx]; exact ⟨_, rfl⟩

/-! ### Examples -/

/-- A broker that answers: retryable (faithfully), fatal, then for the retry: published. -/
private def demo : Kafka :=
  { topicName := ['t'], maxMessageBytes := 3,
    script := [fun s => .retryable ⟨some s.payload, some s.key, some s.headers⟩, fun _ => .fatal] }

private def raw (b : Bytes) (c : Option Nat) : RawEvent := ⟨255, .avro, b, some [([104], [118])], c⟩

/-- C27-C30 on two messages: the first is retried once and published, the second fails;
each is acknowledged once and the valve closed in between. -/
example :
    let mid := (Kafka.run (fun _ => true) demo [.deliver (raw [1, 2] (some 7)), .deliver (raw [3] (some 8))]).getD demo
    let fin := (mid.flush fun _ => true).getD demo
    mid.messages.length = 2 ∧ mid.valveOpen = false ∧ mid.messageBytes = 3 ∧
    fin.messages = [] ∧ fin.valveOpen = true ∧ acks fin.trace = [8, 7] ∧
    fin.publish = 1 ∧ fin.publishFailed = 1 ∧ fin.retry = 1 ∧ fin.retryFailed = 0 ∧
    (submissions fin.trace).map (·.payload) = [[1, 2], [3], [1, 2]] ∧
    (submissions fin.trace).map (·.key) = [[70, 70], [70, 70], [70, 70]] := by
  decide

/-- Such states meet the hypotheses of C29. -/
example :
    let mid := (Kafka.run (fun _ => true) demo [.deliver (raw [1, 2] (some 7)), .deliver (raw [3] (some 8))]).getD demo
    (mid.flush fun _ => true).isSome = true ∧
    (∀ m ∈ mid.messages, m.sub.topic = mid.topicName ∧ Faithful m.sub m.outcome ∧
      DistinctKeys m.sub.headers) := by
  refine ⟨by decide, ?_⟩
  intro m hm
  have hm : m ∈ ([⟨⟨['t'], [1, 2], [70, 70], [([104], [118])], some 7⟩,
      .retryable ⟨some [1, 2], some [70, 70], some [([104], [118])]⟩⟩,
    ⟨⟨['t'], [3], [70, 70], [([104], [118])], some 8⟩, .fatal⟩] : List InFlight) := hm
  simp only [List.mem_cons, List.not_mem_nil, or_false] at hm
  rcases hm with rfl | rfl
  · exact ⟨rfl, ⟨rfl, rfl, rfl⟩, by simp [DistinctKeys]⟩
  · exact ⟨rfl, trivial, by simp [DistinctKeys]⟩

end Verif
