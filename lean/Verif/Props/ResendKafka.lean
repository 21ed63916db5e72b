import Verif.Props.Resend
import Verif.Props.KafkaEnds
import Verif.Props.KafkaKeys
/-!
# C118 at every moment, and C154 with a Kafka sink
-/
namespace Verif
open Kafka

private theorem finals_of (c : Nat) (es : List KEvent) : (finals es).count (some c) = publishedOf c es + lostOf c es := by
  induction es with
  | nil => rfl
  | cons e es ih =>
    simp only [finals, publishedOf, lostOf] at ih ⊢
    rcases e with s | ⟨d, v⟩ | d
    · simpa using ih
    · by_cases hd : d = some c
      · subst hd; cases v <;> simp <;> omega
      · cases v <;> simp [hd] <;> omega
    · simpa using ih

private theorem acks_of_append (a b : List KEvent) (c : Nat) : (acks (a ++ b)).count c = (acks a).count c + (acks b).count c := by
  simp [acks, List.count_append]

private theorem published_append (a b : List KEvent) (c : Nat) : publishedOf c (a ++ b) = publishedOf c a + publishedOf c b := by
  simp [publishedOf]

private theorem prefix_of_append {α : Type} (a b pre : List α) (h : pre <+: a ++ b) : pre <+: a ∨ ∃ r, pre = a ++ r ∧ r <+: b := by
  rcases Nat.le_total pre.length a.length with hl | hl
  · exact .inl (List.prefix_of_prefix_length_le h (List.prefix_append a b) hl)
  · obtain ⟨r, rfl⟩ := List.prefix_of_prefix_length_le (List.prefix_append a b) h hl
    exact .inr ⟨r, rfl, by rwa [List.prefix_append_right_inj] at h⟩

private theorem flush_moments (utf8 : Bytes → Bool) (k k' : Kafka) (hm : ∀ m ∈ k.messages, Hopeful m.outcome) (hs : ∀ f ∈ k.script, ∀ s, Hopeful (f s))
    (h : k.flush utf8 = some k') : ∃ es, k'.trace = k.trace ++ es ∧ ∀ pre, pre <+: es → ∀ c, (acks pre).count c ≤ publishedOf c pre := by
  obtain ⟨es, e1, -, h2⟩ := C28_acks_exactly_once utf8 k k' h
  obtain ⟨es', e1', h3⟩ := C118_acks utf8 k k' h
  obtain ⟨es'', e1'', h4⟩ := C118_published_partial utf8 k k' hm hs h
  have q1 : es' = es := List.append_cancel_left (e1'.symm.trans e1)
  have q2 : es'' = es := List.append_cancel_left (e1''.symm.trans e1)
  subst q1 q2
  refine ⟨es'', e1, fun pre hp c => ?_⟩
  have a := h2 pre hp c
  rw [finals_of] at a
  have b : lostOf c pre ≤ lostOf c es'' := hp.sublist.countP_le
  have h3 := h3 c
  have h4 := h4 c
  omega

/-- **C118, at every moment; part.**  While librdkafka publishes every message, or hands it back with a recoverable error: at every moment of every history of the sink, also in the middle of a flush, a
connection has been acknowledged at most as often as messages of it have been published.  So whenever the process is killed, what was acknowledged is published.  Missing: unrecoverable errors,
see `C118_full_queue_false`. -/
theorem C118_moments_partial (utf8 : Bytes → Bool) (ops : List Op) : ∀ (k k' : Kafka), (∀ m ∈ k.messages, Hopeful m.outcome) →
    (∀ f ∈ k.script, ∀ s, Hopeful (f s)) → run utf8 k ops = some k' →
    ∃ es, k'.trace = k.trace ++ es ∧ ∀ pre, pre <+: es → ∀ c, (acks pre).count c ≤ publishedOf c pre := by
  have join : ∀ (a b : List KEvent), (∀ pre, pre <+: a → ∀ c, (acks pre).count c ≤ publishedOf c pre) →
      (∀ pre, pre <+: b → ∀ c, (acks pre).count c ≤ publishedOf c pre) → ∀ pre, pre <+: a ++ b → ∀ c, (acks pre).count c ≤ publishedOf c pre := by
    intro a b ha hb pre hp c
    rcases prefix_of_append a b pre hp with h | ⟨r, rfl, h⟩
    · exact ha pre h c
    · rw [acks_of_append, published_append]
      have := ha a (List.prefix_refl _) c
      have := hb r h c
      omega
  induction ops with
  | nil =>
    intro k k' _ _ h
    simp only [run, Option.some.injEq] at h
    subst h
    refine ⟨[], by simp, fun pre hp c => ?_⟩
    rw [List.prefix_nil.1 hp]
    exact Nat.le_refl _
  | cons op ops ih =>
    intro k k' hm hs h
    cases op with
    | deliver r =>
      simp only [run, Option.bind_eq_some_iff] at h
      obtain ⟨k1, h1, h2⟩ := h
      obtain ⟨m, -, d2, d3, -, d5, d6⟩ := Kafka.deliver_eq h1
      obtain ⟨es, e1, e2⟩ := ih k1 k' (by
          intro x hx
          rw [d2] at hx
          rcases List.mem_append.1 hx with hx | hx
          · exact hm x hx
          · rw [List.mem_singleton] at hx; subst hx
            rcases d6 with e | ⟨f, hf, e⟩
            · rw [e]; trivial
            · rw [e]; exact hs f hf _) (fun f hf => hs f (d5 f hf)) h2
      refine ⟨.submitted m.sub :: es, by rw [e1, d3]; simp, ?_⟩
      refine join [.submitted m.sub] es ?_ e2
      intro pre hp c
      rcases List.prefix_cons_iff.1 hp with rfl | ⟨t, rfl, ht⟩
      · exact Nat.le_refl _
      · rw [List.prefix_nil.1 ht]; simp [acks]
    | flush =>
      simp only [run, Option.bind_eq_some_iff] at h
      obtain ⟨k1, h1, h2⟩ := h
      obtain ⟨f1, f2, -⟩ := Kafka.flush_keeps h1
      obtain ⟨es1, e1, e2⟩ := flush_moments utf8 k k1 hm hs h1
      obtain ⟨es, e3, e4⟩ := ih k1 k' (by rw [f2]; simp) (fun f hf => hs f (f1 f hf)) h2
      exact ⟨es1 ++ es, by rw [e3, e1]; simp, join es1 es e2 e4⟩

/-- **C154 (with a Kafka sink).**  The one channel leads to a Kafka sink whose broker publishes every message or hands it back with a recoverable error.  Whenever the life ends, also in the middle of
a flush, at least as many messages of the connection have been published as answers reached the client. -/
theorem C154_published (l : Ack.Life) (h : l.Happens) (hs : l.Sync) (utf8 : Bytes → Bool) (k k' : Kafka) (ops : List Op) (hk : k.trace = [])
    (hm : ∀ m ∈ k.messages, Hopeful m.outcome) (hsc : ∀ f ∈ k.script, ∀ s, Hopeful (f s)) (hr : run utf8 k ops = some k') (history : List KEvent)
    (hh : history <+: k'.trace) (hj : (acks history).count l.conn = (Ack.ackedOf l.conn l.trace).length) : l.received ≤ publishedOf l.conn history := by
  obtain ⟨es, e1, e2⟩ := C118_moments_partial utf8 ops k k' hm hsc hr
  rw [hk, List.nil_append] at e1
  subst e1
  have := e2 history hh l.conn
  obtain ⟨h1, h2⟩ := h
  cases hrun : Ack.World.run {} l.schedule with
  | none => rw [hrun] at h1; cases h1
  | some w =>
    obtain ⟨a, n, s, i1, i2, -, l1, -, -⟩ := C154_one_life l.conn l.schedule w hrun hs
    have ht : l.trace = w.trace := by simp [Ack.Life.trace, hrun]
    rw [ht] at h2 hj
    rw [i1, List.length_range] at h2
    rw [i2, List.length_range] at hj
    omega

private def ownMsg : OwnedMessage := ⟨some [1], some [48], none⟩

/-- Two messages, of which the broker takes the first at the second attempt; the process is killed in the second flush, when the second message is published and acknowledged, and not yet answered. -/
private def onceMore : Kafka := { topicName := [], maxMessageBytes := 10, script := [fun _ => .retryable ownMsg] }

example : onceMore.trace = [] ∧ (∀ m ∈ onceMore.messages, Hopeful m.outcome) ∧ (∀ f ∈ onceMore.script, ∀ s, Hopeful (f s)) ∧
    ((run (fun _ => true) onceMore [.deliver { orderBy := 0, encoding := .raw, bytes := [1], metadata := none, connectionId := some 7 }, .flush,
      .deliver { orderBy := 0, encoding := .raw, bytes := [2], metadata := none, connectionId := some 7 }, .flush]).map fun k => (acks k.trace, publishedOf 7 k.trace)) =
      some ([7, 7], 2) := by
  refine ⟨rfl, by simp [onceMore], ?_, by decide +kernel⟩
  intro f hf s
  simp only [onceMore, List.mem_singleton] at hf
  subst hf
  exact ⟨rfl, rfl⟩

/-- The life of that process, as its client sees it. -/
private def killed : Ack.Life :=
  ⟨7, [.publishSync 7, .send 7 1, .sinkAck 7 0, .poll 7, .remove 7, .answer 7, .publishSync 7, .send 7 1, .sinkAck 7 1], 1⟩

example : killed.Happens ∧ killed.Sync ∧ (Ack.ackedOf killed.conn killed.trace).length = [7, 7].count 7 := by
  refine ⟨⟨by decide, by decide⟩, ?_, by decide⟩
  intro a ha
  simp only [killed, List.mem_cons, List.not_mem_nil, or_false] at ha
  rcases ha with rfl | rfl | rfl | rfl | rfl | rfl | rfl | rfl | rfl <;> simp [Ack.Act.SyncOnly, killed]

end Verif
