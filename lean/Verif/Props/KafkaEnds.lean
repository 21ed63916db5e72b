import Verif.Props.Kafka
/-!
# C118, C119: what the Kafka sink's acknowledgements are worth, and whether its flushes end
-/
namespace Verif
open Kafka

/-! ## C118: acknowledged means published -/

private theorem finals_split (c : Nat) (es : List KEvent) :
    (finals es).count (some c) = publishedOf c es + lostOf c es := by
  induction es with
  | nil => rfl
  | cons e es ih =>
    simp only [finals, publishedOf, lostOf] at ih ⊢
    rcases e with s | ⟨d, v⟩ | d
    · simpa using ih
    · by_cases hd : d = some c
      · subst hd; cases v <;> simp <;> omega
      · cases v <;> simp [hd] <;> omega
    · simpa using ih

private theorem lost_le (c : Nat) (es : List KEvent) :
    lostOf c es ≤ endedAs .failed es + endedAs .unretryable es := by
  induction es with
  | nil => simp [lostOf]
  | cons e es ih =>
    simp only [endedAs, lostOf] at ih ⊢
    rcases e with s | ⟨d, v⟩ | d
    · simpa using ih
    · cases v <;> simp [List.countP_cons] <;> (try split) <;> omega
    · simpa using ih

/-- **C118 (accounting).**  Over a flush, a connection is acknowledged once for each of its messages that is published and once for each
that is given up. -/
theorem C118_acks (utf8 : Bytes → Bool) (k k' : Kafka) (h : k.flush utf8 = some k') :
    ∃ es, k'.trace = k.trace ++ es ∧ ∀ c, (acks es).count c = publishedOf c es + lostOf c es := by
  obtain ⟨es, h1, _, _, _, h5, _⟩ := Kafka.flush_spec h
  exact ⟨es, h1, fun c => by rw [h5, finals_split]⟩

private theorem scan_hopeful (ms : List InFlight) (h : ∀ m ∈ ms, Hopeful m.outcome) :
    (scan ms).2.2.2.2.1 = 0 ∧ ∀ f ∈ (scan ms).1, f.message.payload.isSome ∧ f.message.key.isSome := by
  induction ms with
  | nil => exact ⟨rfl, by simp [scan]⟩
  | cons m ms ih =>
    obtain ⟨i1, i2⟩ := ih (fun x hx => h x (by simp [hx]))
    have hm := h m (by simp)
    cases ho : m.outcome with
    | published => simp only [scan, ho]; exact ⟨i1, i2⟩
    | retryable o =>
      rw [ho] at hm
      simp only [scan, ho]
      refine ⟨i1, fun f hf => ?_⟩
      rcases List.mem_cons.mp hf with rfl | hf
      · exact hm
      · exact i2 f hf
    | fatal => rw [ho] at hm; exact hm.elim
    | canceled => rw [ho] at hm; exact hm.elim

private theorem resubmit_hopeful (utf8 : Bytes → Bool) (fs : List Failed)
    (hf : ∀ f ∈ fs, f.message.payload.isSome ∧ f.message.key.isSome) (k k' : Kafka) (ms ids)
    (h : resubmit utf8 k fs = some (k', ms, ids)) : ids = [] := by
  induction fs generalizing k k' ms ids with
  | nil => simp only [resubmit, Option.some.injEq, Prod.mk.injEq] at h; exact h.2.2.symm
  | cons f fs ih =>
    obtain ⟨h1, h2⟩ := hf f (by simp)
    obtain ⟨p, hp⟩ := Option.isSome_iff_exists.mp h1
    obtain ⟨key, hk⟩ := Option.isSome_iff_exists.mp h2
    simp only [resubmit, hp, hk] at h
    split at h
    · simp at h
    · simp only [Option.map_eq_some_iff, Prod.exists, Prod.mk.injEq] at h
      obtain ⟨k2, ms2, ids2, h1, rfl, rfl, rfl⟩ := h
      exact ih (fun g hg => hf g (by simp [hg])) _ _ _ _ h1

private theorem loop_hopeful (utf8 : Bytes → Bool) (n : Nat) : ∀ (k k' : Kafka) (ids ids' : List (Option Nat)),
    (∀ m ∈ k.messages, Hopeful m.outcome) → (∀ f ∈ k.script, ∀ s, Hopeful (f s)) →
    flushLoop utf8 n k ids = some (k', ids') →
    k'.publishFailed = k.publishFailed ∧ k'.retryFailed = k.retryFailed := by
  induction n with
  | zero =>
    intro k k' ids ids' _ _ h
    simp only [flushLoop, Option.some.injEq, Prod.mk.injEq] at h
    obtain ⟨rfl, rfl⟩ := h
    exact ⟨rfl, rfl⟩
  | succ n ih =>
    intro k k' ids ids' hm hs h
    unfold flushLoop at h
    split at h
    · simp only [Option.some.injEq, Prod.mk.injEq] at h
      obtain ⟨rfl, rfl⟩ := h
      exact ⟨rfl, rfl⟩
    · obtain ⟨s1, s2⟩ := scan_hopeful k.messages hm
      rcases hsc : scan k.messages with ⟨rs, aids, p, r, f, es⟩
      rw [hsc] at s1 s2
      simp only at s1 s2
      have hw1 : k.awaitInflight.1 = rs := by simp only [awaitInflight, hsc]
      have hw2 : k.awaitInflight.2.publishFailed = k.publishFailed + f ∧ k.awaitInflight.2.retryFailed = k.retryFailed ∧
          k.awaitInflight.2.script = k.script := by
        simp [awaitInflight, hsc, foldl_acknowledge]
      rcases hk : k.awaitInflight with ⟨rs', kw⟩
      rw [hk] at h hw1 hw2
      simp only at h hw1 hw2
      subst hw1
      obtain ⟨w1, w2, w3⟩ := hw2
      split at h
      · simp at h
      · next kr msr mor hres =>
        have hmor := resubmit_hopeful utf8 rs' s2 _ _ _ _ hres
        obtain ⟨_, -, -, -, -, -, -, -, -, r9, -, r11, -, r13, -, -, -, -, r18⟩ := resubmit_spec utf8 _ _ _ _ _ hres
        rw [w3] at r13 r18
        obtain ⟨q1, q2⟩ := ih { kr with messages := msr } k' _ _ (fun m hm' => by
            rcases r18 m hm' with ho | ⟨g, hg, ho⟩
            · rw [ho]; trivial
            · rw [ho]; exact hs g hg _)
          (fun g hg s => hs g (List.mem_of_mem_drop (by rw [← r13]; exact hg)) s) h
        simp only at q1 q2
        rw [q1, q2, r9, r11, hmor, w1, w2, s1]
        exact ⟨rfl, rfl⟩

/-- **C118, partial.**  While librdkafka publishes every message, or hands it back with a recoverable error, each acknowledgement of a
connection is one message of it published.  Missing: unrecoverable errors, see `C118_full_queue_false`. -/
theorem C118_published_partial (utf8 : Bytes → Bool) (k k' : Kafka) (hm : ∀ m ∈ k.messages, Hopeful m.outcome)
    (hs : ∀ f ∈ k.script, ∀ s, Hopeful (f s)) (h : k.flush utf8 = some k') :
    ∃ es, k'.trace = k.trace ++ es ∧ ∀ c, (acks es).count c = publishedOf c es := by
  obtain ⟨es, h1, _, _, _, h5, _, _, _, h9, h10, _⟩ := Kafka.flush_spec h
  refine ⟨es, h1, fun c => ?_⟩
  have hz : k'.publishFailed = k.publishFailed ∧ k'.retryFailed = k.retryFailed := by
    unfold Kafka.flush at h
    simp only [Option.map_eq_some_iff, Prod.exists] at h
    obtain ⟨k1, ids, h1, h2⟩ := h
    have := loop_hopeful utf8 _ _ _ _ _ hm hs h1
    rw [foldl_acknowledge] at h2
    subst h2
    exact this
  have := lost_le c es
  rw [h5, finals_split]
  omega

/-- **C118 is false** of unrecoverable errors, and of errors that the sink takes for such: when librdkafka's own queue is full, it refuses
the message at once (the sink does not let it wait, `block_ms` is 0), the sink does not submit the message again, and acknowledges it. -/
theorem C118_full_queue_false (utf8 : Bytes → Bool) (topic : Str) (max : Nat) (r : RawEvent) (c : Nat) (hc : r.connectionId = some c)
    (hr : ValidHeaders utf8 (r.metadata.getD [])) (m : OwnedMessage) (rest : List (Submission → KOutcome)) :
    ∃ k', run utf8 { topicName := topic, maxMessageBytes := max, script := (fun _ => .of (.err (.messageProduction .queueFull) m)) :: rest }
        [.deliver r, .flush] = some k' ∧
      acks k'.trace = [c] ∧ publishedOf c k'.trace = 0 ∧ (submissions k'.trace).length = 1 ∧ k'.messages = [] := by
  have hh : (r.metadata.getD []).all (fun kv => utf8 kv.1) = true := by rw [List.all_eq_true]; exact hr
  refine ⟨_, by simp only [run, deliverRaw, tryPayload, hh, if_true, Option.map_some, Option.bind_some, Kafka.flush, flushLoop,
    List.nil_append, List.isEmpty_cons, Bool.false_eq_true, if_false, awaitInflight, scan, List.head?_cons, Option.getD_some, KOutcome.of,
    List.foldl_cons, List.foldl_nil, acknowledge, hc, resubmit, List.isEmpty_nil]; rfl, ?_⟩
  simp [acks, publishedOf, submissions]

/-! ## C119: flushes end -/

private theorem loop_done (utf8 : Bytes → Bool) (n : Nat) (k : Kafka) (ids) (h : k.messages = []) :
    flushLoop utf8 n k ids = some (k, ids) := by
  cases n with
  | zero => rfl
  | succ n => simp [flushLoop, h]

private theorem scan_final (ms : List InFlight) (h : ∀ m ∈ ms, isRetryable m.outcome = false) : (scan ms).1 = [] := by
  induction ms with
  | nil => rfl
  | cons m ms ih =>
    have hm := h m (by simp)
    have ih := ih (fun x hx => h x (by simp [hx]))
    cases ho : m.outcome with
    | retryable o => rw [ho] at hm; simp [isRetryable] at hm
    | _ => simp only [scan, ho]; exact ih

/-- **C119, partial.**  If librdkafka answers at most `early` submissions with recoverable errors, counted from the first, the flush
ends, after at most two turns more than that, whatever the answers are otherwise.  Missing: brokers that do not recover, see
`C119_for_ever_false`. -/
theorem C119_ends_partial (utf8 : Bytes → Bool) (n : Nat) : ∀ (k k' : Kafka) (ids ids' : List (Option Nat))
    (early late : List (Submission → KOutcome)), k.script = early ++ late →
    (∀ f ∈ late, ∀ s, isRetryable (f s) = false) → early.length + 2 ≤ n →
    flushLoop utf8 n k ids = some (k', ids') →
    k'.messages = [] ∧ ∀ m, n ≤ m → flushLoop utf8 m k ids = some (k', ids') := by
  have one : ∀ (k k' : Kafka) (ids ids' : List (Option Nat)) (n : Nat), (∀ m ∈ k.messages, isRetryable m.outcome = false) →
      flushLoop utf8 (n + 1) k ids = some (k', ids') →
      k'.messages = [] ∧ ∀ m, n + 1 ≤ m → flushLoop utf8 m k ids = some (k', ids') := by
    intro k k' ids ids' n hm h
    have hw : k.awaitInflight.1 = [] := by
      have := scan_final k.messages hm
      rcases hsc : scan k.messages with ⟨rs, aids, p, r, f, es⟩
      rw [hsc] at this
      simp only [awaitInflight, hsc]; exact this
    by_cases he : k.messages = []
    · rw [loop_done utf8 _ k ids he] at h
      simp only [Option.some.injEq, Prod.mk.injEq] at h
      obtain ⟨rfl, rfl⟩ := h
      exact ⟨he, fun m _ => loop_done utf8 _ _ _ he⟩
    · have hne : k.messages.isEmpty = false := by simpa using he
      have step : ∀ m, flushLoop utf8 (m + 1) k ids = some ({ k.awaitInflight.2 with messages := [] }, ids) := by
        intro m
        simp only [flushLoop, hne, Bool.false_eq_true, if_false, hw, resubmit, List.append_nil]
        exact loop_done utf8 _ _ _ rfl
      rw [step] at h
      simp only [Option.some.injEq, Prod.mk.injEq] at h
      obtain ⟨rfl, rfl⟩ := h
      refine ⟨rfl, fun m hm => ?_⟩
      obtain ⟨m, rfl⟩ : ∃ m', m = m' + 1 := ⟨m - 1, by omega⟩
      exact step m
  induction n with
  | zero => intro k k' ids ids' early late _ _ hn; omega
  | succ n ih =>
    intro k k' ids ids' early late hs hl hn h
    by_cases he : k.messages = []
    · rw [loop_done utf8 _ k ids he] at h
      simp only [Option.some.injEq, Prod.mk.injEq] at h
      obtain ⟨rfl, rfl⟩ := h
      exact ⟨he, fun m _ => loop_done utf8 _ _ _ he⟩
    have hne : k.messages.isEmpty = false := by simpa using he
    have hstep : ∀ m, flushLoop utf8 (m + 1) k ids = match resubmit utf8 k.awaitInflight.2 k.awaitInflight.1 with
        | none => none
        | some (k, ms, more) => flushLoop utf8 m { k with messages := ms } (ids ++ more) := by
      intro m
      rw [flushLoop, hne]
      rfl
    rw [hstep] at h
    cases hres : resubmit utf8 k.awaitInflight.2 k.awaitInflight.1 with
    | none => rw [hres] at h; simp at h
    | some x =>
      obtain ⟨kr, msr, mor⟩ := x
      rw [hres] at h
      simp only at h
      have hawait : k.awaitInflight.2.script = k.script := by
        rcases hsc : scan k.messages with ⟨rs, aids, p, r, f, es⟩
        simp only [awaitInflight, hsc, foldl_acknowledge]
      obtain ⟨_, -, -, -, -, -, -, -, -, -, -, -, -, r13, -, -, -, -, r18⟩ := resubmit_spec utf8 _ _ _ _ _ hres
      rw [hawait, hs] at r13 r18
      suffices hk : k'.messages = [] ∧ ∀ m, n ≤ m → flushLoop utf8 m { kr with messages := msr } (ids ++ mor) = some (k', ids') by
        refine ⟨hk.1, fun m hm => ?_⟩
        obtain ⟨m, rfl⟩ : ∃ m', m = m' + 1 := ⟨m - 1, by omega⟩
        rw [hstep, hres]
        exact hk.2 m (by omega)
      by_cases hms : msr = []
      · rw [loop_done utf8 _ _ _ hms] at h
        simp only [Option.some.injEq, Prod.mk.injEq] at h
        obtain ⟨rfl, rfl⟩ := h
        exact ⟨hms, fun m _ => loop_done utf8 _ _ _ hms⟩
      have hpos : 0 < msr.length := List.length_pos_iff.mpr hms
      by_cases hz : early = []
      · obtain ⟨n, rfl⟩ : ∃ n', n = n' + 1 := ⟨n - 1, by omega⟩
        refine one _ _ _ _ n (fun m hm => ?_) h
        rcases r18 m hm with ho | ⟨g, hg, ho⟩
        · rw [ho]; rfl
        · rw [ho]; exact hl g (by simpa [hz] using hg) _
      · have hpe : 0 < early.length := List.length_pos_iff.mpr hz
        refine ih { kr with messages := msr } k' _ _ (early.drop msr.length) (late.drop (msr.length - early.length)) ?_ (fun g hg => hl g (List.mem_of_mem_drop hg)) ?_ h
        · simp only [r13, List.drop_append]
        · simp only [List.length_drop]; omega

private def failedOf (m : InFlight) : Option Failed :=
  match m.outcome with
  | .retryable o => some ⟨o, m.sub.connectionId⟩
  | _ => none

private theorem resubmit_again (utf8 : Bytes → Bool) (msgs : List InFlight) : ∀ (k : Kafka),
    (∀ m ∈ msgs, m.sub.topic = k.topicName ∧ DistinctKeys m.sub.headers ∧ ValidHeaders utf8 m.sub.headers ∧ Again m.sub m.outcome) →
    msgs.length ≤ k.script.length → (∀ f ∈ k.script, ∀ s, Again s (f s)) →
    ∃ k' ms, resubmit utf8 k (msgs.filterMap failedOf) = some (k', ms, []) ∧ ms.map (·.sub) = msgs.map (·.sub) ∧ (∀ m ∈ ms, Again m.sub m.outcome) ∧
      k'.script = k.script.drop msgs.length ∧ k'.topicName = k.topicName ∧ k'.trace = k.trace ++ msgs.map fun m => .submitted m.sub := by
  induction msgs with
  | nil => intro k _ _ _; exact ⟨k, [], rfl, rfl, by simp, rfl, rfl, by simp⟩
  | cons m msgs ih =>
    intro k hm hlen hs
    obtain ⟨m1, m2, m3, m4, m5⟩ := hm m (by simp)
    cases ho : m.outcome with
    | retryable o =>
      rw [ho] at m5
      obtain ⟨f1, f2, f3⟩ := m5
      have hmeta : (Failed.metadata ⟨o, m.sub.connectionId⟩).getD [] = m.sub.headers := by
        simp only [Failed.metadata]
        cases hh : o.headers with
        | none => rw [hh] at f3; simpa using f3
        | some hs =>
          rw [hh] at f3
          simp only [Option.getD_some] at f3
          simp only [Option.map_some, Option.getD_some]
          rw [f3, Kafka.rebuild m.sub.headers [] (by simpa using m2)]; simp
      have hall : m.sub.headers.all (fun kv => utf8 kv.1) = true := by rw [List.all_eq_true]; exact m3
      cases hsc : k.script with
      | nil => rw [hsc] at hlen; simp at hlen
      | cons g gs =>
        have hsub : (⟨k.topicName, m.sub.payload, m.sub.key, m.sub.headers, m.sub.connectionId⟩ : Submission) = m.sub := by
          rw [← m1]
        obtain ⟨k', ms, i1, i2, i3, i4, i5, i6⟩ := ih { k with script := gs, trace := k.trace ++ [.submitted m.sub] }
          (fun x hx => hm x (by simp [hx])) (by rw [hsc] at hlen; simpa using hlen)
          (fun f hf => hs f (by rw [hsc]; simp [hf]))
        refine ⟨k', ⟨m.sub, g m.sub⟩ :: ms, ?_, by simp [i2], ?_, by simpa using i4, i5, ?_⟩
        · simp only [List.filterMap_cons, failedOf, ho, resubmit, f1, f2, tryPayload, hmeta, hall, if_true, hsc, List.head?_cons, Option.getD_some,
            List.tail_cons, hsub]
          rw [i1]; rfl
        · intro x hx
          rcases List.mem_cons.mp hx with rfl | hx
          · exact hs g (by rw [hsc]; simp) _
          · exact i3 x hx
        · rw [i6]; simp
    | published => rw [ho] at m4; simp [isRetryable] at m4
    | fatal => rw [ho] at m4; simp [isRetryable] at m4
    | canceled => rw [ho] at m4; simp [isRetryable] at m4

private theorem scan_again (ms : List InFlight) (h : ∀ m ∈ ms, isRetryable m.outcome = true) :
    ∃ rs r, scan ms = (rs, [], 0, r, 0, []) := by
  induction ms with
  | nil => exact ⟨[], 0, rfl⟩
  | cons m ms ih =>
    obtain ⟨rs, r, i⟩ := ih (fun x hx => h x (by simp [hx]))
    have hm := h m (by simp)
    cases ho : m.outcome with
    | retryable o => exact ⟨⟨o, m.sub.connectionId⟩ :: rs, r + 1, by simp only [scan, ho, i]⟩
    | published => rw [ho] at hm; simp [isRetryable] at hm
    | fatal => rw [ho] at hm; simp [isRetryable] at hm
    | canceled => rw [ho] at hm; simp [isRetryable] at hm

/-- **C119 is false** of brokers that do not recover: as long as every answer is "try again", after any number of turns all messages are
in flight still; all that has happened is that each has been submitted once more per turn, and nobody has been acknowledged.  There is
neither a limit nor a pause, and meanwhile the sink reads nothing from its queue, `Shutdown` included. -/
theorem C119_for_ever_false (utf8 : Bytes → Bool) (n : Nat) : ∀ (k : Kafka) (ids : List (Option Nat)), k.messages ≠ [] →
    (∀ m ∈ k.messages, m.sub.topic = k.topicName ∧ DistinctKeys m.sub.headers ∧ ValidHeaders utf8 m.sub.headers ∧ Again m.sub m.outcome) →
    n * k.messages.length ≤ k.script.length → (∀ f ∈ k.script, ∀ s, Again s (f s)) →
    ∃ k', flushLoop utf8 n k ids = some (k', ids) ∧ k'.messages.map (·.sub) = k.messages.map (·.sub) ∧
      k'.trace = k.trace ++ (List.replicate n (k.messages.map fun m => KEvent.submitted m.sub)).flatten := by
  induction n with
  | zero => intro k ids _ _ _ _; exact ⟨k, rfl, rfl, by simp⟩
  | succ n ih =>
    intro k ids hne hm hlen hs
    have hemp : k.messages.isEmpty = false := by simpa using hne
    obtain ⟨rs, aids, p, r, f, es, h0, -, -, -, -, -, -, -, -, -, h10⟩ := scan_spec k.messages
    obtain ⟨rs', r', h0'⟩ := scan_again k.messages (fun m hm' => (hm m hm').2.2.2.1)
    rw [h0] at h0'
    simp only [Prod.mk.injEq] at h0'
    obtain ⟨rfl, rfl, rfl, rfl, rfl, rfl⟩ := h0'
    have hw : k.awaitInflight = (rs, { k with retry := k.retry + r }) := by
      simp [awaitInflight, h0]
    have hlen' : (n + 1) * k.messages.length = n * k.messages.length + k.messages.length := Nat.succ_mul ..
    obtain ⟨kr, ms, i1, i2, i3, i4, i5, i6⟩ := resubmit_again utf8 k.messages { k with retry := k.retry + r } hm
      (by simp only; omega) hs
    rw [show k.messages.filterMap failedOf = rs from h10.symm] at i1
    have hl : ms.length = k.messages.length := by simpa using congrArg List.length i2
    obtain ⟨k', j1, j2, j3⟩ := ih { kr with messages := ms } ids
      (fun h => hne (by simp only at h; rw [h] at hl; exact List.length_eq_zero_iff.mp hl.symm))
      (fun m hm' => by
        have : m.sub ∈ k.messages.map (·.sub) := by rw [← i2]; exact List.mem_map_of_mem hm'
        obtain ⟨x, hx, hxe⟩ := List.mem_map.mp this
        obtain ⟨a1, a2, a3, _⟩ := hm x hx
        simp only [i5]
        exact ⟨by rw [← hxe]; exact a1, by rw [← hxe]; exact a2, by rw [← hxe]; exact a3, i3 m hm'⟩)
      (by simp only [i4, List.length_drop, hl]; omega)
      (fun f hf => hs f (List.mem_of_mem_drop (by rw [← i4]; exact hf)))
    refine ⟨k', ?_, by rw [j2]; exact i2, ?_⟩
    · simp only [flushLoop, hemp, Bool.false_eq_true, if_false, hw, i1, List.append_nil]
      exact j1
    · have hsubs : ms.map (fun m => KEvent.submitted m.sub) = k.messages.map fun m => KEvent.submitted m.sub := by
        have := congrArg (List.map KEvent.submitted) i2
        rw [List.map_map, List.map_map] at this
        exact this
      rw [j3]
      simp only [hsubs, i6, List.append_assoc, List.replicate_succ, List.flatten_cons]

/-! ### Examples -/

private def timedOut (s : Submission) : KOutcome :=
  .of (.err (.messageProduction .messageTimedOut) ⟨some s.payload, some s.key, some s.headers⟩)

private def two (script : List (Submission → KOutcome)) : Kafka :=
  let s : Submission := ⟨['t'], [1, 2], [70], [([104], [118])], some 7⟩
  let s' : Submission := ⟨['t'], [3], [70], [], some 8⟩
  { topicName := ['t'], maxMessageBytes := 3, messages := [⟨s, timedOut s⟩, ⟨s', .published⟩], script := script }

/-- The hypotheses of `C118_published_partial` hold of a message that is retried once, beside one that is published at once. -/
example : (∀ m ∈ (two [timedOut]).messages, Hopeful m.outcome) ∧ (∀ f ∈ (two [timedOut]).script, ∀ s, Hopeful (f s)) ∧
    ((two [timedOut]).flush fun _ => true).map (fun k => acks k.trace) = some [8, 7] := by
  refine ⟨?_, ?_, by decide⟩
  · intro m hm
    simp only [two, List.mem_cons, List.not_mem_nil, or_false] at hm
    rcases hm with rfl | rfl <;> simp [timedOut, Hopeful, KOutcome.of]
  · intro f hf s
    simp only [two, List.mem_singleton] at hf
    subst hf
    simp [timedOut, Hopeful, KOutcome.of]

/-- The hypotheses of `C119_ends_partial` hold of two time-outs before an unrecoverable error: the flush ends after four turns. -/
example : let k := two ([timedOut, timedOut] ++ [fun _ => .of .none])
    (∀ f ∈ [fun _ : Submission => KOutcome.of .none], ∀ s, isRetryable (f s) = false) ∧
    (flushLoop (fun _ => true) 4 k []).map (fun r => (r.1.messages.length, (submissions r.1.trace).length)) = some (0, 3) ∧
    (flushLoop (fun _ => true) 3 k []).map (fun r => r.1.messages.length) = some 1 := by
  refine ⟨?_, by decide, by decide⟩
  intro f hf s
  simp only [List.mem_singleton] at hf
  subst hf; rfl

/-- The hypotheses of `C119_for_ever_false` hold of a message for a broker that cannot be reached. -/
example (n : Nat) : let s : Submission := ⟨['t'], [1, 2], [70], [([104], [118])], some 7⟩
    let k : Kafka := { topicName := ['t'], maxMessageBytes := 3, messages := [⟨s, timedOut s⟩], script := List.replicate n timedOut }
    k.messages ≠ [] ∧ (∀ m ∈ k.messages, m.sub.topic = k.topicName ∧ DistinctKeys m.sub.headers ∧
      ValidHeaders (fun _ => true) m.sub.headers ∧ Again m.sub m.outcome) ∧
    n * k.messages.length ≤ k.script.length ∧ ∀ f ∈ k.script, ∀ s, Again s (f s) := by
  refine ⟨by simp, ?_, by simp, ?_⟩
  · intro m hm
    simp only [List.mem_singleton] at hm
    subst hm
    exact ⟨rfl, by simp [DistinctKeys], fun _ _ => rfl, rfl, rfl, rfl, rfl⟩
  · intro f hf s
    have := List.eq_of_mem_replicate hf
    subst this
    exact ⟨rfl, rfl, rfl, rfl⟩

end Verif
