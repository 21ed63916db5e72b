import Verif.Props.Kafka
import Verif.Spec.Native
/-!
# C101: every raw event becomes one Kafka message, keyed by its ordering value
-/
namespace Verif
open Kafka
open Native (Each)

private theorem readHex_append (xs ys : Bytes) (n : Nat) :
    readHex n (xs ++ ys) = (readHex n xs).bind fun m => readHex m ys := by
  induction xs generalizing n with
  | nil => rfl
  | cons b xs ih =>
    simp only [List.cons_append, readHex]
    cases digitOf b <;> simp [ih]

private def digit (d : Nat) : UInt8 := if d < 10 then UInt8.ofNat (48 + d) else UInt8.ofNat (55 + d)

private theorem digitOf_digit : ∀ d, d < 16 → digitOf (digit d) = some d ∧ (digit d = 48 → d = 0) := by decide

private theorem hexLoop_acc (n v : Nat) (acc : Bytes) : hexLoop n v acc = hexLoop n v [] ++ acc := by
  induction n generalizing v acc with
  | zero => rfl
  | succ n ih =>
    simp only [hexLoop]
    split
    · rfl
    · rw [ih, ih (v / 16) [_]]; simp

private theorem hexLoop_numeral (n v : Nat) (hv : v < 16 ^ n) (hn : 0 < n) : IsNumeral v (hexLoop n v []) := by
  induction n generalizing v with
  | zero => omega
  | succ n ih =>
    obtain ⟨d1, d2⟩ := digitOf_digit (v % 16) (Nat.mod_lt _ (by omega))
    simp only [digit] at d1 d2
    simp only [hexLoop]
    by_cases h : v / 16 = 0
    · rw [if_pos h]
      refine ⟨by simp, ?_, ?_⟩
      · simp only [readHex, d1, Option.bind_some]
        congr 1; omega
      · intro h'
        simpa using h'
    · rw [if_neg h, hexLoop_acc]
      have hn' : 0 < n := by
        cases n with
        | zero => simp only [Nat.zero_add, Nat.pow_one] at hv; omega
        | succ n => omega
      obtain ⟨i1, i2, i3⟩ := ih (v / 16) (by
        rw [Nat.pow_succ] at hv
        exact Nat.div_lt_of_lt_mul (by rw [Nat.mul_comm]; exact hv)) hn'
      refine ⟨by simp, ?_, ?_⟩
      · rw [readHex_append, i2]
        simp only [Option.bind_some, readHex, d1]
        congr 1; omega
      · intro h'
        have hh : (hexLoop n (v / 16) []).head? = some 48 := by
          cases hx : hexLoop n (v / 16) [] with
          | nil => exact absurd hx i1
          | cons b bs => rw [hx] at h'; simpa using h'
        have := i3 hh
        rw [this] at i2
        simp only [readHex, digitOf] at i2
        simp at i2
        omega

/-- The key of an event with a 64-bit ordering value is its numeral. -/
theorem Kafka.hex_numeral (v : Nat) (hv : v < 18446744073709551616) : IsNumeral v (hex v) :=
  hexLoop_numeral 16 v (by simpa using hv) (by omega)

private theorem flushLoop_script (utf8 : Bytes → Bool) (n : Nat) (k k' : Kafka) (ids ids')
    (h : flushLoop utf8 n k ids = some (k', ids')) : ∀ f ∈ k'.script, f ∈ k.script := by
  induction n generalizing k ids with
  | zero =>
    simp only [flushLoop, Option.some.injEq, Prod.mk.injEq] at h
    obtain ⟨rfl, rfl⟩ := h
    exact fun f hf => hf
  | succ n ih =>
    unfold flushLoop at h
    split at h
    · simp only [Option.some.injEq, Prod.mk.injEq] at h
      obtain ⟨rfl, rfl⟩ := h
      exact fun f hf => hf
    · simp only at h
      split at h
      · simp at h
      · next kr msr mor hres =>
        obtain ⟨es, r1, -, r3, -, -, r6, -, -, r9, r10, r11, r12, -⟩ := round_spec utf8 k kr msr mor hres
        intro f hf
        have : f ∈ kr.script := ih _ _ h f hf
        rw [r11] at this
        exact List.mem_of_mem_drop this

theorem Kafka.flush_keeps {utf8 : Bytes → Bool} {k k' : Kafka} (h : k.flush utf8 = some k') :
    (∀ f ∈ k'.script, f ∈ k.script) ∧ k'.messages = [] ∧ k'.topicName = k.topicName := by
  have hm := (C27_flush_accounts utf8 k k' h).1
  unfold Kafka.flush at h
  simp only [Option.map_eq_some_iff, Prod.exists] at h
  obtain ⟨k1, ids, h1, h2⟩ := h
  have h3 := flushLoop_script utf8 _ _ _ _ _ h1
  obtain ⟨es, more, -, -, -, -, -, -, -, -, -, -, q11, -⟩ := flushLoop_spec utf8 _ _ _ _ _ h1
  rw [foldl_acknowledge] at h2
  subst h2
  exact ⟨h3, hm, q11⟩

theorem Kafka.deliver_eq {utf8 : Bytes → Bool} {k k' : Kafka} {r : RawEvent} (h : k.deliverRaw utf8 r = some k') :
    ∃ m : InFlight, m.sub = ⟨k.topicName, r.bytes, hex r.orderBy, r.metadata.getD [], r.connectionId⟩ ∧
      k'.messages = k.messages ++ [m] ∧ k'.trace = k.trace ++ [.submitted m.sub] ∧ k'.topicName = k.topicName ∧
      (∀ f ∈ k'.script, f ∈ k.script) ∧ (m.outcome = .published ∨ ∃ f ∈ k.script, m.outcome = f m.sub) := by
  simp only [deliverRaw, Option.map_eq_some_iff, Prod.exists] at h
  obtain ⟨m, k1, h1, rfl⟩ := h
  obtain ⟨t1, t2, rfl⟩ := tryPayload_eq h1
  refine ⟨m, t1, rfl, rfl, rfl, fun f hf => List.mem_of_mem_tail hf, ?_⟩
  cases hs : k.script with
  | nil => left; rw [t2, hs]; rfl
  | cons f fs => right; exact ⟨f, List.mem_cons_self .., by rw [t2, hs]; rfl⟩

/-! ### C66: exactly which histories panic -/

private def GoodMsg (utf8 : Bytes → Bool) (m : InFlight) : Prop :=
  ValidHeaders utf8 m.sub.headers ∧ Faithful m.sub m.outcome

private theorem insert_sub (m : Metadata) (kv x : Bytes × Bytes) (h : x ∈ insertMeta m kv) : x = kv ∨ x ∈ m := by
  induction m with
  | nil => simpa [insertMeta] using h
  | cons y m ih =>
    simp only [insertMeta] at h
    split at h
    · rcases List.mem_cons.1 h with h | h
      · exact Or.inl h
      · exact Or.inr (by simp [h])
    · rcases List.mem_cons.1 h with h | h
      · exact Or.inr (by simp [h])
      · rcases ih h with h | h
        · exact Or.inl h
        · exact Or.inr (by simp [h])

private theorem fold_sub (hs acc : Metadata) (x : Bytes × Bytes) (h : x ∈ hs.foldl insertMeta acc) : x ∈ hs ∨ x ∈ acc := by
  induction hs generalizing acc with
  | nil => exact Or.inr h
  | cons y hs ih =>
    rw [List.foldl_cons] at h
    rcases ih _ h with h | h
    · exact Or.inl (by simp [h])
    · rcases insert_sub _ _ _ h with h | h
      · exact Or.inl (by simp [h])
      · exact Or.inr h

private theorem try_good {utf8 : Bytes → Bool} (k : Kafka) (p key md c) (h : ValidHeaders utf8 (md.getD []))
    (hs : ∀ f ∈ k.script, ∀ s, Faithful s (f s)) :
    ∃ m k', k.tryPayload utf8 p key md c = some (m, k') ∧ GoodMsg utf8 m ∧ (∀ f ∈ k'.script, f ∈ k.script) ∧
      k'.messages = k.messages := by
  have ha : (md.getD []).all (fun kv => utf8 kv.1) = true := by rw [List.all_eq_true]; exact h
  simp only [tryPayload, ha, if_true]
  refine ⟨_, _, rfl, ⟨h, ?_⟩, fun f hf => List.mem_of_mem_tail hf, rfl⟩
  cases hk : k.script with
  | nil => exact trivial
  | cons f fs => exact hs f (by rw [hk]; simp) _

private theorem resubmit_good {utf8 : Bytes → Bool} : ∀ (fs : List Failed) (k : Kafka),
    (∀ f ∈ fs, ValidHeaders utf8 (f.message.headers.getD [])) → (∀ f ∈ k.script, ∀ s, Faithful s (f s)) →
    ∃ k' ms ids, resubmit utf8 k fs = some (k', ms, ids) ∧ (∀ m ∈ ms, GoodMsg utf8 m) ∧ (∀ f ∈ k'.script, f ∈ k.script) := by
  intro fs
  induction fs with
  | nil => intro k _ _; exact ⟨_, _, _, rfl, by simp, fun f hf => hf⟩
  | cons f fs ih =>
    intro k hf hs
    have hmd : ValidHeaders utf8 (f.metadata.getD []) := by
      intro x hx
      simp only [Failed.metadata] at hx
      have h0 := hf f (by simp)
      cases hh : f.message.headers with
      | none => rw [hh] at hx; simp at hx
      | some hs =>
        rw [hh] at hx h0
        simp only [Option.map_some, Option.getD_some] at hx h0
        rcases fold_sub _ _ _ hx with h | h
        · exact h0 x h
        · simp at h
    have hrest : ∀ g ∈ fs, ValidHeaders utf8 (g.message.headers.getD []) := fun g hg => hf g (by simp [hg])
    cases hp : f.message.payload with
    | none =>
      simp only [resubmit, hp]
      obtain ⟨k', ms, ids, e1, e2, e3⟩ := ih { k with retryFailed := k.retryFailed + 1, trace := k.trace ++ [.final f.connectionId .unretryable] } hrest hs
      rw [e1]; exact ⟨_, _, _, rfl, e2, e3⟩
    | some p =>
      cases hk : f.message.key with
      | none =>
        simp only [resubmit, hp, hk]
        obtain ⟨k', ms, ids, e1, e2, e3⟩ := ih { k with retryFailed := k.retryFailed + 1, trace := k.trace ++ [.final f.connectionId .unretryable] } hrest hs
        rw [e1]; exact ⟨_, _, _, rfl, e2, e3⟩
      | some key =>
        simp only [resubmit, hp, hk]
        obtain ⟨m, k1, t1, t2, t3, -⟩ := try_good k p key f.metadata f.connectionId hmd hs
        obtain ⟨k', ms, ids, e1, e2, e3⟩ := ih k1 hrest (fun g hg => hs g (t3 g hg))
        rw [t1]
        simp only [e1]
        refine ⟨_, _, _, rfl, ?_, fun g hg => t3 g (e3 g hg)⟩
        intro m' hm'
        rcases List.mem_cons.1 hm' with rfl | hm'
        · exact t2
        · exact e2 m' hm'

private theorem flush_good {utf8 : Bytes → Bool} (k : Kafka) (hm : ∀ m ∈ k.messages, GoodMsg utf8 m)
    (hs : ∀ f ∈ k.script, ∀ s, Faithful s (f s)) : ∃ k', k.flush utf8 = some k' := by
  have key : ∀ n (k : Kafka) (ids : List (Option Nat)), (∀ m ∈ k.messages, GoodMsg utf8 m) →
      (∀ f ∈ k.script, ∀ s, Faithful s (f s)) → ∃ x, flushLoop utf8 n k ids = some x := by
    intro n
    induction n with
    | zero => intro k ids _ _; exact ⟨_, rfl⟩
    | succ n ih =>
      intro k ids hm hs
      unfold flushLoop
      split
      · exact ⟨_, rfl⟩
      · obtain ⟨rs, aids, p, r, f, es, h0, -, -, -, -, -, -, -, -, h9, -⟩ := scan_spec k.messages
        have hrs : k.awaitInflight.1 = rs := by simp only [awaitInflight, h0]
        have hsc : k.awaitInflight.2.script = k.script := by simp only [awaitInflight, h0, foldl_acknowledge]
        obtain ⟨k', ms, more, e1, e2, e3⟩ := resubmit_good (utf8 := utf8) k.awaitInflight.1 k.awaitInflight.2 (by
          rw [hrs]
          intro g hg
          obtain ⟨m, hm1, hm2, -⟩ := h9 g hg
          obtain ⟨g1, g2⟩ := hm m hm1
          rw [hm2] at g2
          rw [g2.2.2]
          exact g1) (by rw [hsc]; exact hs)
        simp only [e1]
        exact ih _ _ e2 (fun g hg => hs g (by rw [← hsc]; exact e3 g hg))
  obtain ⟨x, hx⟩ := key (k.script.length + 2) k [] hm hs
  simp only [Kafka.flush, hx]; exact ⟨_, rfl⟩

/-- **C66, exactly.**  Whatever the broker answers, as long as it hands back what was submitted: a history of raw events and flushes makes
the sink panic iff some raw event has a metadata key that is not UTF-8. -/
theorem C66_exact_partial (utf8 : Bytes → Bool) (topic : Str) (maxBytes : Nat) (script : List (Submission → KOutcome))
    (hsc : ∀ f ∈ script, ∀ s, Faithful s (f s)) (ops : List Op) :
    run utf8 { topicName := topic, maxMessageBytes := maxBytes, script := script } ops = none ↔
      ∃ r ∈ delivered ops, ∃ kv ∈ r.metadata.getD [], utf8 kv.1 = false := by
  have key : ∀ (ops : List Op) (k : Kafka), (∀ m ∈ k.messages, GoodMsg utf8 m) → (∀ f ∈ k.script, ∀ s, Faithful s (f s)) →
      (run utf8 k ops = none ↔ ∃ r ∈ delivered ops, ∃ kv ∈ r.metadata.getD [], utf8 kv.1 = false) := by
    intro ops
    induction ops with
    | nil => intro k _ _; simp [run, delivered]
    | cons o ops ih =>
      intro k hm hs
      cases o with
      | deliver r =>
        simp only [run, delivered]
        by_cases hv : ValidHeaders utf8 (r.metadata.getD [])
        · obtain ⟨m, k1, t1, t2, t3, t4⟩ := try_good k r.bytes (hex r.orderBy) r.metadata r.connectionId hv hs
          simp only [deliverRaw, t1, Option.map_some, Option.bind_some]
          rw [ih { k1 with messages := k1.messages ++ [m], messageBytes := k1.messageBytes + r.bytes.length } ?_ (fun f hf => hs f (t3 f hf))]
          · constructor
            · rintro ⟨r', h1, h2⟩; exact ⟨r', by simp [h1], h2⟩
            · rintro ⟨r', h1, kv, h2, h3⟩
              rcases List.mem_cons.1 h1 with rfl | h1
              · rw [hv kv h2] at h3; simp at h3
              · exact ⟨r', h1, kv, h2, h3⟩
          · intro m' hm'
            simp only [t4, List.mem_append, List.mem_singleton] at hm'
            rcases hm' with hm' | rfl
            · exact hm m' hm'
            · exact t2
        · have hn : k.deliverRaw utf8 r = none := by
            have : ((r.metadata.getD []).all fun kv => utf8 kv.1) = false := by
              rw [Bool.eq_false_iff]; intro h; exact hv (List.all_eq_true.1 h)
            simp only [deliverRaw, tryPayload, this]; rfl
          have hb : ∃ kv ∈ r.metadata.getD [], utf8 kv.1 = false := by
            simpa [ValidHeaders] using hv
          simp only [hn, Option.bind_none, true_iff]
          exact ⟨r, by simp, hb⟩
      | flush =>
        simp only [run, delivered]
        obtain ⟨k1, h1⟩ := flush_good k hm hs
        obtain ⟨f1, f2, -⟩ := flush_keeps h1
        rw [h1]
        exact ih k1 (by rw [f2]; simp) (fun f hf => hs f (f1 f hf))
  exact key ops _ (by simp) hsc

example : (run (fun k => k.all (· < 128)) { topicName := ['t'], maxMessageBytes := 9, script := [fun s => .retryable ⟨some s.payload, some s.key, some s.headers⟩] }
      [.deliver ⟨1, .raw, [1], some [([65], [255])], none⟩, .flush, .deliver ⟨1, .raw, [1], some [([66], []), ([200], [1])], none⟩]).isNone = true ∧
    (run (fun k => k.all (· < 128)) { topicName := ['t'], maxMessageBytes := 9, script := [fun s => .retryable ⟨some s.payload, some s.key, some s.headers⟩] }
      [.deliver ⟨1, .raw, [1], some [([65], [255])], none⟩, .flush]).isSome = true := by decide +kernel

/-- **C101.**  Whatever the broker answers, every raw event delivered becomes one message: its topic is the sink's,
its payload the event's bytes, its headers the event's metadata, its key the numeral of the event's ordering value.
The messages are first submitted in the order of the events, and nothing else is ever submitted than these and
repetitions of them. -/
theorem C101_messages (utf8 : Bytes → Bool) (topic : Str) (maxBytes : Nat) (script : List (Submission → KOutcome))
    (hsc : ∀ f ∈ script, ∀ s, Faithful s (f s)) (ops : List Op)
    (hd : ∀ r ∈ delivered ops, DistinctKeys (r.metadata.getD [])) (k' : Kafka)
    (h : Kafka.run utf8 { topicName := topic, maxMessageBytes := maxBytes, script := script } ops = some k') :
    ∃ (key : Nat → Bytes) (firsts : List Submission), (∀ n, n < 18446744073709551616 → IsNumeral n (key n)) ∧
      Each (IsMessage topic key) (delivered ops) firsts ∧
      firsts.Sublist (submissions k'.trace) ∧ ∀ s ∈ submissions k'.trace, s ∈ firsts := by
  refine ⟨hex, ?_⟩
  have key : ∀ ops (k : Kafka), (∀ r ∈ delivered ops, DistinctKeys (r.metadata.getD [])) →
      (∀ m ∈ k.messages, m.sub.topic = k.topicName ∧ Faithful m.sub m.outcome ∧ DistinctKeys m.sub.headers) →
      (∀ f ∈ k.script, ∀ s, Faithful s (f s)) → Kafka.run utf8 k ops = some k' →
      ∃ (firsts : List Submission) (es : List KEvent), k'.trace = k.trace ++ es ∧
        Each (IsMessage k.topicName hex) (delivered ops) firsts ∧ firsts.Sublist (submissions es) ∧
        ∀ s ∈ submissions es, s ∈ firsts ∨ ∃ m ∈ k.messages, s = m.sub := by
    intro ops
    induction ops with
    | nil =>
      intro k _ _ _ h
      simp only [Kafka.run, Option.some.injEq] at h
      subst h
      exact ⟨[], [], by simp, .nil, by simp [submissions], by simp [submissions]⟩
    | cons op ops ih =>
      intro k hd hin hsc h
      cases op with
      | deliver r =>
        simp only [Kafka.run, Option.bind_eq_some_iff] at h
        obtain ⟨k1, h1, h2⟩ := h
        obtain ⟨m, m1, m2, m3, m4, m5, m6⟩ := deliver_eq h1
        obtain ⟨firsts, es, e1, e2, e3, e4⟩ := ih k1 (fun r hr => hd r (List.mem_cons_of_mem _ hr)) (by
          rw [m2, m4]
          intro x hx
          rcases List.mem_append.1 hx with hx | hx
          · exact hin x hx
          · rw [List.mem_singleton] at hx
            subst hx
            refine ⟨by rw [m1], ?_, by rw [m1]; exact hd r (List.mem_cons_self ..)⟩
            rcases m6 with ho | ⟨f, hf, ho⟩
            · rw [ho]; trivial
            · rw [ho]; exact hsc f hf _) (fun f hf => hsc f (m5 f hf)) h2
        refine ⟨m.sub :: firsts, .submitted m.sub :: es, by rw [e1, m3]; simp, ?_, ?_, ?_⟩
        · refine .cons ⟨by rw [m1], by rw [m1], by rw [m1], by rw [m1], by rw [m1]⟩ ?_
          rw [m4] at e2
          exact e2
        · simpa [submissions] using e3
        · intro s hs
          have hs : s = m.sub ∨ s ∈ submissions es := by simpa [submissions] using hs
          rcases hs with rfl | hs
          · exact .inl (List.mem_cons_self ..)
          · rcases e4 s hs with hs | ⟨x, hx, rfl⟩
            · exact .inl (List.mem_cons_of_mem _ hs)
            · rw [m2] at hx
              rcases List.mem_append.1 hx with hx | hx
              · exact .inr ⟨x, hx, rfl⟩
              · rw [List.mem_singleton] at hx
                subst hx
                exact .inl (List.mem_cons_self ..)
      | flush =>
        simp only [Kafka.run, Option.bind_eq_some_iff] at h
        obtain ⟨k1, h1, h2⟩ := h
        obtain ⟨f1, f2, f3⟩ := flush_keeps h1
        obtain ⟨es0, g1, g2, -⟩ := C29_flush_only_resubmits utf8 k k1 hin hsc h1
        obtain ⟨firsts, es, e1, e2, e3, e4⟩ := ih k1 hd (by simp [f2]) (fun f hf => hsc f (f1 f hf)) h2
        refine ⟨firsts, es0 ++ es, by rw [e1, g1]; simp, by rw [f3] at e2; exact e2, ?_, ?_⟩
        · rw [submissions_append]
          exact e3.trans (List.sublist_append_right _ _)
        · intro s hs
          rw [submissions_append] at hs
          rcases List.mem_append.1 hs with hs | hs
          · exact .inr (g2 s hs)
          · rcases e4 s hs with hs | ⟨x, hx, -⟩
            · exact .inl hs
            · rw [f2] at hx; cases hx
  obtain ⟨firsts, es, e1, e2, e3, e4⟩ := key ops _ hd (by simp) hsc h
  refine ⟨firsts, hex_numeral, e2, ?_, ?_⟩
  · rw [e1]; simpa using e3
  · intro s hs
    rw [e1] at hs
    rcases e4 s (by simpa using hs) with hs | ⟨x, hx, -⟩
    · exact hs
    · cases hx

/-- Two events of the same ordering value and one of another, the first of which is retried. -/
example :
    let r (o : Nat) (b : UInt8) : RawEvent := ⟨o, .raw, [b], some [([1], [2])], none⟩
    let ops := [Op.deliver (r 171 1), .deliver (r 171 2), .flush, .deliver (r 16 3)]
    let script : List (Submission → KOutcome) := [fun s => .retryable ⟨some s.payload, some s.key, some s.headers⟩]
    (∀ f ∈ script, ∀ s, Faithful s (f s)) ∧ (∀ x ∈ delivered ops, DistinctKeys (x.metadata.getD [])) ∧
    (Kafka.run (fun _ => true) { topicName := ['t'], maxMessageBytes := 9, script := script } ops).map
      (fun k => (submissions k.trace).map fun s => (s.payload, s.key)) =
      some [([1], [65, 66]), ([2], [65, 66]), ([1], [65, 66]), ([3], [49, 48])] := by
  refine ⟨?_, ?_, by decide +kernel⟩
  · intro f hf s
    rw [List.mem_singleton] at hf
    subst hf
    exact ⟨rfl, rfl, rfl⟩
  · intro x hx
    simp only [delivered, List.mem_cons, List.not_mem_nil, or_false] at hx
    rcases hx with rfl | rfl | rfl <;> simp [DistinctKeys]

/-- Keys that are numerals tell ordering values apart. -/
theorem C101_keys_differ (a b : Nat) (key : Bytes) (ha : IsNumeral a key) (hb : IsNumeral b key) : a = b := by
  have := ha.2.1.symm.trans hb.2.1
  simpa using this

private theorem flush_final {utf8 : Bytes → Bool} {k k' : Kafka}
    (hin : ∀ m ∈ k.messages, isRetryable m.outcome = false) (h : k.flush utf8 = some k') :
    ∃ es, k'.trace = k.trace ++ es ∧ submissions es = [] := by
  unfold Kafka.flush at h
  simp only [Option.map_eq_some_iff, Prod.exists] at h
  obtain ⟨k1, ids, h1, h2⟩ := h
  have key : ∃ es, k1.trace = k.trace ++ es ∧ submissions es = [] := by
    unfold flushLoop at h1
    split at h1
    · simp only [Option.some.injEq, Prod.mk.injEq] at h1
      obtain ⟨rfl, rfl⟩ := h1
      exact ⟨[], by simp [submissions]⟩
    · simp only at h1
      split at h1
      · simp at h1
      · next kr msr mor hres =>
        obtain ⟨es, r1, -, r3, -, r5, r6, -⟩ := round_spec utf8 k kr msr mor hres
        have hms : msr = [] := by
          obtain ⟨rs, aids, p, r, f, es0, h0, -, -, -, -, -, -, -, -, -, h10⟩ := scan_spec k.messages
          have hrs : rs = [] := by
            rw [h10, List.filterMap_eq_nil_iff]
            intro m hm
            have := hin m hm
            cases ho : m.outcome <;> simp [ho, isRetryable] at this ⊢
          simp only [awaitInflight, h0, hrs, resubmit, Option.some.injEq, Prod.mk.injEq] at hres
          exact hres.2.1.symm
        subst hms
        unfold flushLoop at h1
        simp only [List.isEmpty_nil, if_true, Option.some.injEq, Prod.mk.injEq] at h1
        obtain ⟨rfl, rfl⟩ := h1
        exact ⟨es, r1, by simpa using r6⟩
  obtain ⟨es, e1, e2⟩ := key
  rw [foldl_acknowledge] at h2
  subst h2
  refine ⟨es ++ ackEvents ids, by simp [e1], ?_⟩
  rw [submissions_append, (ackEvents_facts ids).2.2.1, e2]
  rfl

/-- **C101, order.**  If the broker asks for no retry, the messages are submitted once each, in the order of the
events.  Missing: retries, which break the order even among events of the same ordering value
(`C101_order_false`). -/
theorem C101_order_partial (utf8 : Bytes → Bool) (topic : Str) (maxBytes : Nat) (script : List (Submission → KOutcome))
    (hsc : ∀ f ∈ script, ∀ s, isRetryable (f s) = false) (ops : List Op) (k' : Kafka)
    (h : Kafka.run utf8 { topicName := topic, maxMessageBytes := maxBytes, script := script } ops = some k') :
    ∃ (key : Nat → Bytes), (∀ n, n < 18446744073709551616 → IsNumeral n (key n)) ∧
      Each (IsMessage topic key) (delivered ops) (submissions k'.trace) := by
  refine ⟨hex, hex_numeral, ?_⟩
  have key : ∀ ops (k : Kafka), (∀ m ∈ k.messages, isRetryable m.outcome = false) →
      (∀ f ∈ k.script, ∀ s, isRetryable (f s) = false) → Kafka.run utf8 k ops = some k' →
      ∃ es : List KEvent, k'.trace = k.trace ++ es ∧ Each (IsMessage k.topicName hex) (delivered ops) (submissions es) := by
    intro ops
    induction ops with
    | nil =>
      intro k _ _ h
      simp only [Kafka.run, Option.some.injEq] at h
      subst h
      exact ⟨[], by simp, .nil⟩
    | cons op ops ih =>
      intro k hin hsc h
      cases op with
      | deliver r =>
        simp only [Kafka.run, Option.bind_eq_some_iff] at h
        obtain ⟨k1, h1, h2⟩ := h
        obtain ⟨m, m1, m2, m3, m4, m5, m6⟩ := deliver_eq h1
        obtain ⟨es, e1, e2⟩ := ih k1 (by
          rw [m2]
          intro x hx
          rcases List.mem_append.1 hx with hx | hx
          · exact hin x hx
          · rw [List.mem_singleton] at hx
            subst hx
            rcases m6 with ho | ⟨f, hf, ho⟩
            · rw [ho]; rfl
            · rw [ho]; exact hsc f hf _) (fun f hf => hsc f (m5 f hf)) h2
        refine ⟨.submitted m.sub :: es, by rw [e1, m3]; simp, ?_⟩
        have : submissions (.submitted m.sub :: es) = m.sub :: submissions es := by simp [submissions]
        rw [this]
        refine .cons ⟨by rw [m1], by rw [m1], by rw [m1], by rw [m1], by rw [m1]⟩ ?_
        rw [m4] at e2
        exact e2
      | flush =>
        simp only [Kafka.run, Option.bind_eq_some_iff] at h
        obtain ⟨k1, h1, h2⟩ := h
        obtain ⟨f1, f2, f3⟩ := flush_keeps h1
        obtain ⟨es0, g1, g2⟩ := flush_final hin h1
        obtain ⟨es, e1, e2⟩ := ih k1 (by simp [f2]) (fun f hf => hsc f (f1 f hf)) h2
        refine ⟨es0 ++ es, by rw [e1, g1]; simp, ?_⟩
        rw [submissions_append, g2, List.nil_append]
        rw [f3] at e2
        exact e2
  obtain ⟨es, e1, e2⟩ := key ops _ (by simp) hsc h
  rw [e1]
  simpa using e2

/-- C101 does not hold of the order when messages are retried: of two events of the same ordering value the
second is published first. -/
theorem C101_order_false : ∃ (a b : RawEvent) (x y : Submission) (script : List (Submission → KOutcome)) (k' : Kafka),
    a.orderBy = b.orderBy ∧ (∀ f ∈ script, ∀ s, Faithful s (f s)) ∧ x.payload = a.bytes ∧ y.payload = b.bytes ∧
    Kafka.run (fun _ => true) { topicName := ['t'], maxMessageBytes := 9, script := script }
      [.deliver a, .deliver b, .flush] = some k' ∧
    k'.trace = [.submitted x, .submitted y, .final (some 2) .published, .ack 2, .submitted x,
      .final (some 1) .published, .ack 1] := by
  refine ⟨⟨7, .raw, [1], none, some 1⟩, ⟨7, .raw, [2], none, some 2⟩, ⟨['t'], [1], [55], [], some 1⟩,
    ⟨['t'], [2], [55], [], some 2⟩, [fun s => .retryable ⟨some s.payload, some s.key, some s.headers⟩], _, rfl,
    ?_, rfl, rfl, rfl, ?_⟩
  · intro f hf s
    rw [List.mem_singleton] at hf
    subst hf
    exact ⟨rfl, rfl, rfl⟩
  · decide +kernel

end Verif
