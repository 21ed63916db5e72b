import Verif.Spec.AvroKafka
import Verif.Props.Avro
import Verif.Props.KafkaKeys
import Verif.Props.KafkaEnds
import Verif.Props.SinkImpls
/-!
# C120: from an Avro client to the messages handed to Kafka
-/
namespace Verif
open Wire Avro Kafka Native

section
variable {F : Type} [F64 F]

private theorem run_snoc (utf8 : Bytes → Bool) (o : Op) : ∀ (ops : List Op) (k : Kafka),
    Kafka.run utf8 k (ops ++ [o]) = (Kafka.run utf8 k ops).bind fun k => Kafka.run utf8 k [o] := by
  intro ops
  induction ops with
  | nil => intro k; simp [Kafka.run]
  | cons op ops ih =>
    intro k
    cases op with
    | deliver r =>
      simp only [List.cons_append, Kafka.run]
      cases k.deliverRaw utf8 r with
      | none => rfl
      | some k => exact ih k
    | flush =>
      simp only [List.cons_append, Kafka.run]
      cases k.flush utf8 with
      | none => rfl
      | some k => exact ih k

private theorem delivered_snoc (o : Op) : ∀ ops : List Op, delivered (ops ++ [o]) = delivered ops ++ delivered [o]
  | [] => rfl
  | .deliver r :: ops => by simp only [List.cons_append, delivered, delivered_snoc o ops]
  | .flush :: ops => by simp only [List.cons_append, delivered, delivered_snoc o ops]

private theorem rawsIn_payload (es : List (Event F)) : rawsIn (es.filter Event.isPayload) = rawsIn es := by
  induction es with
  | nil => rfl
  | cons e es ih => cases e <;> simp_all [rawsIn, Event.isPayload, List.filter_cons]

/-- The run-loop gives the sink the raw events, in order, with flushes in between. -/
private theorem loop_ops (utf8 : Bytes → Bool) (interval : Nat) (k0 : Kafka) (sources n : Nat) (recv : List (Option (Event F)))
    (hret : (SinkRun.steps (kafkaImpl utf8 interval) sources n { state := some k0, queue := recv }).returned = true) :
    ∃ ops, delivered ops = rawsIn (untilShutdown (arrivals recv)) ∧
      (SinkRun.steps (kafkaImpl utf8 interval) sources n { state := some k0, queue := recv }).state =
        Kafka.run utf8 k0 (ops ++ [.flush]) := by
  have hind := SinkRun.induction (kafkaImpl (F := F) utf8 interval)
    (fun s d => ∃ ops, delivered ops = rawsIn d ∧ s = Kafka.run utf8 k0 ops)
    (fun s d => ∃ ops, delivered ops = rawsIn d ∧ s = Kafka.run utf8 k0 (ops ++ [.flush]))
    ?_ ?_ ?_ ?_ ?_ sources n (some k0) ⟨[], rfl, rfl⟩ recv
  · obtain ⟨ops, h1, h2⟩ := hind.2 hret
    rw [delivered_at_return (kafkaImpl (F := F) utf8 interval) (some interval) (fun _ => rfl) sources n _ recv hret,
      rawsIn_payload] at h1
    exact ⟨ops, h1, h2⟩
  · rintro s d t ⟨ops, h1, h2⟩ _
    exact ⟨ops, by rw [h1]; simp [rawsIn], h2⟩
  · rintro s d t ⟨ops, h1, h2⟩ _
    exact ⟨ops, by rw [h1]; simp [rawsIn], h2⟩
  · rintro s d t ⟨ops, h1, h2⟩ _
    refine ⟨ops ++ [.deliver t], ?_, ?_⟩
    · rw [delivered_snoc, h1]; simp [rawsIn, delivered]
    · rw [run_snoc, ← h2]
      simp only [kafkaImpl, Kafka.run]
      cases s with
      | none => rfl
      | some k => simp only [Option.bind_some]; cases k.deliverRaw utf8 t <;> rfl
  · rintro s d ⟨ops, h1, h2⟩
    refine ⟨ops ++ [.flush], ?_, ?_⟩
    · rw [delivered_snoc, h1]; simp [delivered]
    · rw [run_snoc, ← h2]
      simp only [kafkaImpl, Kafka.run]
      cases s with
      | none => rfl
      | some k => simp only [Option.bind_some]; cases k.flush utf8 <;> rfl
  · rintro s d ⟨ops, h1, h2⟩ _
    refine ⟨ops, h1, ?_⟩
    rw [run_snoc, ← h2]
    simp only [kafkaImpl, Kafka.run]
    cases s with
    | none => rfl
    | some k => simp only [Option.bind_some]; cases k.flush utf8 <;> rfl

private theorem each_filter {α β : Type} {R : α → β → Prop} (p : α → Bool) (q : β → Bool) (hpq : ∀ a b, R a b → p a = q b) :
    ∀ {as : List α} {bs : List β}, Each R as bs → Each R (as.filter p) (bs.filter q) := by
  intro as bs h
  induction h with
  | nil => exact .nil
  | @cons a b as bs h _ ih =>
    have := hpq a b h
    by_cases hp : p a = true
    · rw [List.filter_cons_of_pos hp, List.filter_cons_of_pos (by rw [← this]; exact hp)]
      exact .cons h ih
    · rw [List.filter_cons_of_neg hp, List.filter_cons_of_neg (by rw [← this]; exact hp)]
      exact ih

private theorem published_message (topic : Str) (key : Nat → Bytes) (hk : ∀ n, n < 18446744073709551616 → IsNumeral n (key n))
    (cid : Nat) {fs : List Frame} {rs : List RawEvent} (h : AllPublished cid fs rs) : ∀ {ss : List Submission},
    (∀ f ∈ fs, f.Fits) → Each (IsMessage topic key) rs ss → Each (Frame.MessageOf topic cid) fs ss := by
  induction h with
  | nil => intro ss _ hs; cases hs; exact .nil
  | cons hp _ ih =>
    intro ss hf hs
    cases hs with
    | cons hm hrest =>
      refine .cons ?_ (ih (fun f hf' => hf f (List.mem_cons_of_mem _ hf')) hrest)
      have hfit := hf _ (List.mem_cons_self ..)
      obtain ⟨m1, m2⟩ := hp.metadata
      refine ⟨hm.topic, by rw [hm.payload, hp.bytes], ?_, ?_, ?_, ?_, by rw [hm.connection, hp.connectionId]⟩
      · rw [hm.key, hp.orderBy]; exact hk _ hfit.orderBy
      · intro hno; rw [hm.headers, m1 hno]; rfl
      · rw [hm.headers]
        rename_i f r _ _ _ _ _
        by_cases hyes : f.hasMetadata
        · obtain ⟨m, e1, e2, _⟩ := m2 hyes
          rw [e1]; exact e2
        · rw [m1 hyes]; exact List.nodup_nil
      · intro hyes
        obtain ⟨m, e1, _, e3⟩ := m2 hyes
        rw [hm.headers, e1]; exact e3

private theorem published_meta (cid : Nat) {fs : List Frame} {rs : List RawEvent} (h : AllPublished cid fs rs) :
    rs.length = fs.length ∧ ∀ r ∈ rs, r.connectionId = some cid ∧ ∃ f ∈ fs, f.CarriesMetadata r.metadata := by
  induction h with
  | nil => simp
  | @cons f r fs rs hp _ ih =>
    refine ⟨by simp [ih.1], fun x hx => ?_⟩
    rcases List.mem_cons.1 hx with rfl | hx
    · exact ⟨hp.connectionId, f, List.mem_cons_self .., hp.metadata⟩
    · obtain ⟨h1, g, hg, h2⟩ := ih.2 x hx
      exact ⟨h1, g, List.mem_cons_of_mem _ hg, h2⟩

private theorem carried_key {f : Frame} {md : Option Metadata} (h : f.CarriesMetadata md) :
    DistinctKeys (md.getD []) ∧ ∀ kv ∈ md.getD [], f.hasMetadata ∧ ∃ kv' ∈ f.kvs, kv'.1 = kv.1 := by
  by_cases hyes : f.hasMetadata
  · obtain ⟨m, rfl, e2, e3⟩ := h.2 hyes
    refine ⟨e2, fun kv hkv => ⟨hyes, ?_⟩⟩
    have h1 : ((m.find? (fun x => x.1 = kv.1)).map Prod.snd).isSome = true := by
      simp only [Option.isSome_map, List.find?_isSome]
      exact ⟨kv, hkv, by simp⟩
    rw [e3, lastValue, Option.isSome_map, List.find?_isSome] at h1
    obtain ⟨kv', h2, h3⟩ := h1
    exact ⟨kv', List.mem_reverse.1 h2, by simpa using h3⟩
  · rw [h.1 hyes]; exact ⟨List.nodup_nil, by simp⟩

/-- **C120.**  Any number of Avro clients with connections of their own send valid frames, however their bytes are cut up by the network,
and close; the Kafka sink receives what the source publishes for them, interleaved in any way that keeps each client's own order, with
anything else that is no raw event in between, and then is shut down.  If the keys of the metadata are UTF-8 and the broker hands back
what it was given, the sink does not panic; each frame is the payload of one message, whose key is the numeral of its ordering value and
whose headers are its metadata; each client's messages are first handed to the broker in the order the client sent them; nothing else is
handed over but these again; each client's connection is acknowledged once per frame. -/
theorem C120_clients_to_messages (utf8 avroOk : Bytes → Bool) (interval : Nat) (topic : Str) (maxBytes : Nat)
    (script : List (Submission → KOutcome)) (hsc : ∀ f ∈ script, ∀ s, Faithful s (f s)) (clients : List Client)
    (hc : ∀ c ∈ clients, c.Good avroOk)
    (hutf : ∀ c ∈ clients, ∀ f ∈ c.frames, f.hasMetadata → ∀ kv ∈ f.kvs, utf8 kv.1 = true)
    (sources n : Nat) (recv : List (Option (Event F)))
    (horder : ∀ c ∈ clients, (rawsIn (untilShutdown (arrivals recv))).filter (fun r => r.connectionId = some c.id) = c.events avroOk)
    (honly : ∀ r ∈ rawsIn (untilShutdown (arrivals recv)), ∃ c ∈ clients, r.connectionId = some c.id)
    (hret : (SinkRun.steps (kafkaImpl utf8 interval) sources n
      { state := some { topicName := topic, maxMessageBytes := maxBytes, script := script }, queue := recv }).returned = true) :
    ∃ k, (SinkRun.steps (kafkaImpl utf8 interval) sources n
        { state := some { topicName := topic, maxMessageBytes := maxBytes, script := script }, queue := recv }).state = some k ∧
      k.messages = [] ∧
      ∃ firsts : List Submission, firsts.Sublist (submissions k.trace) ∧ (∀ s ∈ submissions k.trace, s ∈ firsts) ∧
        (∀ s ∈ firsts, ∃ c ∈ clients, s.connectionId = some c.id) ∧
        ∀ c ∈ clients, Each (Frame.MessageOf topic c.id) c.frames (firsts.filter fun s => s.connectionId = some c.id) ∧
          (acks k.trace).count c.id = c.frames.length := by
  have hpub : ∀ c ∈ clients, AllPublished c.id c.frames (c.events avroOk) := fun c h =>
    (C33_from_socket avroOk c.id c.frames c.net (hc c h).reads (hc c h).framed (hc c h).fits _ (Nat.lt_succ_self _)).1
  have hof : ∀ r ∈ rawsIn (untilShutdown (arrivals recv)), ∃ c ∈ clients, ∃ f ∈ c.frames, f.CarriesMetadata r.metadata := by
    intro r hr
    obtain ⟨c, h1, h2⟩ := honly r hr
    have : r ∈ c.events avroOk := by
      rw [← horder c h1, List.mem_filter]; exact ⟨hr, by simpa using h2⟩
    obtain ⟨-, f, h3, h4⟩ := (published_meta _ (hpub c h1)).2 r this
    exact ⟨c, h1, f, h3, h4⟩
  obtain ⟨ops, o1, o2⟩ := loop_ops utf8 interval _ sources n recv hret
  have od : delivered (ops ++ [.flush]) = rawsIn (untilShutdown (arrivals recv)) := by
    rw [delivered_snoc, o1]; simp [delivered]
  have hsome : ∃ k, Kafka.run utf8 { topicName := topic, maxMessageBytes := maxBytes, script := script } (ops ++ [.flush]) = some k := by
    cases hr : Kafka.run utf8 { topicName := topic, maxMessageBytes := maxBytes, script := script } (ops ++ [.flush]) with
    | some k => exact ⟨k, rfl⟩
    | none =>
      obtain ⟨r, h1, kv, h2, h3⟩ := (C66_exact_partial utf8 topic maxBytes script hsc _).1 hr
      rw [od] at h1
      obtain ⟨c, h4, f, h5, h6⟩ := hof r h1
      obtain ⟨h7, kv', h8, h9⟩ := (carried_key h6).2 kv h2
      rw [← h9, hutf c h4 f h5 h7 kv' h8] at h3
      simp at h3
  obtain ⟨k, hk⟩ := hsome
  rw [hk] at o2
  refine ⟨k, o2, ?_⟩
  obtain ⟨q1, -, q3⟩ := C86_kafka utf8 interval topic maxBytes script sources n recv k hret o2
  refine ⟨q1, ?_⟩
  obtain ⟨key, firsts, k1, k2, k3, k4⟩ := C101_messages utf8 topic maxBytes script hsc _
    (fun r hr => by rw [od] at hr; obtain ⟨c, _, f, _, h⟩ := hof r hr; exact (carried_key h).1) k hk
  rw [od] at k2
  refine ⟨firsts, k3, k4, ?_, fun c hcm => ⟨?_, ?_⟩⟩
  · have hmem : ∀ {rs : List RawEvent} {ss : List Submission}, Each (IsMessage topic key) rs ss →
        ∀ s ∈ ss, ∃ r ∈ rs, s.connectionId = r.connectionId := by
      intro rs ss h
      induction h with
      | nil => simp
      | @cons r s rs ss h _ ih =>
        intro x hx
        rcases List.mem_cons.1 hx with rfl | hx
        · exact ⟨r, List.mem_cons_self .., h.connection⟩
        · obtain ⟨y, hy, e⟩ := ih x hx
          exact ⟨y, List.mem_cons_of_mem _ hy, e⟩
    intro s hs
    obtain ⟨r, h1, h2⟩ := hmem k2 s hs
    obtain ⟨c, h3, h4⟩ := honly r h1
    exact ⟨c, h3, h2.trans h4⟩
  · have := each_filter (fun r : RawEvent => decide (r.connectionId = some c.id))
      (fun s : Submission => decide (s.connectionId = some c.id)) (fun a b h => by rw [h.connection]) k2
    rw [horder c hcm] at this
    exact published_message topic key k1 c.id (hpub c hcm) (fun f hf => ((hc c hcm).fits f hf).1) this
  · rw [q3, ← (published_meta _ (hpub c hcm)).1, ← horder c hcm]
    generalize rawsIn (untilShutdown (arrivals recv)) = rs
    induction rs with
    | nil => rfl
    | cons r rs ih =>
      simp only [List.map_cons, List.count_cons, List.filter_cons, ih]
      by_cases h : r.connectionId = some c.id <;> simp [h]

private theorem publishedOf_append (c : Nat) (a b : List KEvent) : publishedOf c (a ++ b) = publishedOf c a + publishedOf c b := by
  simp [publishedOf]

private theorem run_published (utf8 : Bytes → Bool) : ∀ (ops : List Op) (k k' : Kafka), (∀ m ∈ k.messages, Hopeful m.outcome) →
    (∀ f ∈ k.script, ∀ s, Hopeful (f s)) → Kafka.run utf8 k ops = some k' →
    ∃ es, k'.trace = k.trace ++ es ∧ ∀ c, (acks es).count c = publishedOf c es := by
  intro ops
  induction ops with
  | nil =>
    intro k k' _ _ h
    simp only [Kafka.run, Option.some.injEq] at h
    subst h
    exact ⟨[], by simp, fun _ => rfl⟩
  | cons op ops ih =>
    intro k k' hm hs h
    cases op with
    | deliver r =>
      simp only [Kafka.run, Option.bind_eq_some_iff] at h
      obtain ⟨k1, h1, h2⟩ := h
      obtain ⟨m, -, m2, m3, -, m5, m6⟩ := Kafka.deliver_eq h1
      obtain ⟨es, e1, e2⟩ := ih k1 k' (by
        rw [m2]
        intro x hx
        rcases List.mem_append.1 hx with hx | hx
        · exact hm x hx
        · rw [List.mem_singleton] at hx
          subst hx
          rcases m6 with ho | ⟨f, hf, ho⟩
          · rw [ho]; trivial
          · rw [ho]; exact hs f hf _) (fun f hf => hs f (m5 f hf)) h2
      refine ⟨.submitted m.sub :: es, by rw [e1, m3]; simp, fun c => ?_⟩
      have := e2 c
      simpa [acks, publishedOf] using this
    | flush =>
      simp only [Kafka.run, Option.bind_eq_some_iff] at h
      obtain ⟨k1, h1, h2⟩ := h
      obtain ⟨f1, f2, -⟩ := Kafka.flush_keeps h1
      obtain ⟨es0, g1, g2⟩ := C118_published_partial utf8 k k1 hm hs h1
      obtain ⟨es, e1, e2⟩ := ih k1 k' (by simp [f2]) (fun f hf => hs f (f1 f hf)) h2
      refine ⟨es0 ++ es, by rw [e1, g1]; simp, fun c => ?_⟩
      rw [acks_append, List.count_append, publishedOf_append, g2, e2]

/-- **C120 (nothing is lost).**  As above, with a broker that publishes every message or hands it back with a recoverable error: every
frame of every client is published once. -/
theorem C120_all_published (utf8 avroOk : Bytes → Bool) (interval : Nat) (topic : Str) (maxBytes : Nat)
    (script : List (Submission → KOutcome)) (hsc : ∀ f ∈ script, ∀ s, Faithful s (f s) ∧ Hopeful (f s)) (clients : List Client)
    (hc : ∀ c ∈ clients, c.Good avroOk)
    (hutf : ∀ c ∈ clients, ∀ f ∈ c.frames, f.hasMetadata → ∀ kv ∈ f.kvs, utf8 kv.1 = true)
    (sources n : Nat) (recv : List (Option (Event F)))
    (horder : ∀ c ∈ clients, (rawsIn (untilShutdown (arrivals recv))).filter (fun r => r.connectionId = some c.id) = c.events avroOk)
    (honly : ∀ r ∈ rawsIn (untilShutdown (arrivals recv)), ∃ c ∈ clients, r.connectionId = some c.id)
    (hret : (SinkRun.steps (kafkaImpl utf8 interval) sources n
      { state := some { topicName := topic, maxMessageBytes := maxBytes, script := script }, queue := recv }).returned = true) :
    ∃ k, (SinkRun.steps (kafkaImpl utf8 interval) sources n
        { state := some { topicName := topic, maxMessageBytes := maxBytes, script := script }, queue := recv }).state = some k ∧
      ∀ c ∈ clients, publishedOf c.id k.trace = c.frames.length := by
  obtain ⟨k, h1, -, firsts, -, -, -, h2⟩ := C120_clients_to_messages utf8 avroOk interval topic maxBytes script
    (fun f hf s => (hsc f hf s).1) clients hc hutf sources n recv horder honly hret
  refine ⟨k, h1, fun c hcm => ?_⟩
  obtain ⟨ops, -, o2⟩ := loop_ops utf8 interval _ sources n recv hret
  rw [h1] at o2
  obtain ⟨es, e1, e2⟩ := run_published utf8 _ _ k (by simp) (fun f hf s => (hsc f hf s).2) o2.symm
  have := (h2 c hcm).2
  rw [e1] at this ⊢
  simp only [List.nil_append] at this ⊢
  rw [← this, e2]

end

/-! Two clients: one sends `avroDemo` twice, in three pieces, the other a frame without metadata; their events come interleaved with a
pulse of the clock, and the broker asks for one message again. -/

private def plain : Frame := { version := 1, control := 0, id := 1, orderBy := 4096, kvs := [], body := [7] }
private def one : Client := ⟨11, [avroDemo, avroDemo], [.data (frame avroDemo.encode ++ [0, 0, 0, 38]), .data (avroDemo.encode.take 9), .wouldBlock, .data (avroDemo.encode.drop 9)]⟩
private def two : Client := ⟨12, [plain], [.data (frame plain.encode)]⟩
private def rawDemo : RawEvent := ⟨3, .avro, [9, 9], some [([1], [2, 3]), ([4, 5], [])], some 11⟩
private def rawPlain : RawEvent := ⟨4096, .avro, [7], none, some 12⟩
private def queue : List (Option (Event Int)) :=
  [some (.raw rawDemo), some (.raw rawPlain), none, some (.timerFlush 1), some (.raw rawDemo), some .shutdown]
private def again : List (Submission → KOutcome) := [fun s => .retryable ⟨some s.payload, some s.key, some s.headers⟩]
private def ran := SinkRun.steps (kafkaImpl (F := Int) (fun _ => true) 1) 1 12
  { state := some { topicName := ['t'], maxMessageBytes := 100, script := again }, queue := queue }

example : one.events (fun _ => true) = [rawDemo, rawDemo] ∧ two.events (fun _ => true) = [rawPlain] := by decide +kernel
example : ran.returned = true ∧ (ran.state.map fun k => (submissions k.trace).map (·.payload)) = some [[9, 9], [7], [9, 9], [9, 9]] ∧
    (ran.state.map fun k => acks k.trace) = some [12, 11, 11] := by decide +kernel

private theorem only_bytes : ∀ s : List Sym, (s.all fun x => x = .block || x.byte?.isSome) = true → ∀ x ∈ s, x = .block ∨ ∃ b, x = .byte b := by
  intro s h x hx
  have := List.all_eq_true.1 h x hx
  cases x <;> simp [Sym.byte?] at this ⊢

/-- The theorem applies to them. -/
example : ∃ k, ran.state = some k ∧ ∀ c ∈ [one, two], publishedOf c.id k.trace = c.frames.length := by
  refine C120_all_published (fun _ => true) (fun _ => true) 1 ['t'] 100 again ?_ [one, two] ?_ (by simp) 1 12 queue ?_ ?_ ?_
  · intro f hf s
    rw [again, List.mem_singleton] at hf
    subst hf
    exact ⟨⟨rfl, rfl, rfl⟩, rfl, rfl⟩
  · intro c hc
    rcases List.mem_cons.1 hc with rfl | hc
    · refine ⟨by simp [NonEmptyReads, one]; decide, ?_, ?_⟩
      · have : symsOf one.net = (be 4 avroDemo.encode.length).map .byte ++ avroDemo.encode.map .byte ++
            ((be 4 avroDemo.encode.length).map .byte ++ ((avroDemo.encode.take 9).map .byte ++ .block :: (avroDemo.encode.drop 9).map .byte) ++ []) := by
          decide +kernel
        rw [this]
        exact .frame avroDemo.encode _ (by decide) (only_bytes _ (by decide)) (.frame avroDemo.encode _ (by decide) (only_bytes _ (by decide)) .done)
      · intro f hf
        simp only [one, List.mem_cons, List.not_mem_nil, or_false, or_self] at hf
        subst hf
        exact ⟨⟨by decide, by decide, by decide, by decide, by decide, by decide, by decide⟩, rfl, by decide⟩
    · rw [List.mem_singleton] at hc
      subst hc
      refine ⟨by simp [NonEmptyReads, two]; decide, .frame plain.encode (plain.encode.map .byte) (by decide) (only_bytes _ (by decide)) .done, ?_⟩
      intro f hf
      simp only [two, List.mem_singleton] at hf
      subst hf
      exact ⟨⟨by decide, by decide, by decide, by decide, by decide, by decide, by decide⟩, rfl, by decide⟩
  · decide +kernel
  · decide +kernel
  · decide +kernel

end Verif
