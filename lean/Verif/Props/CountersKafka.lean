import Verif.Lemmas.Counters
import Verif.Props.Kafka
import Verif.Props.Send
/-!
# C100, the Kafka sink and the fan-out: what is reported is what happened
-/
namespace Verif
open Internal Counters Kafka

private theorem run_counts (utf8 : Bytes → Bool) (k' : Kafka) : ∀ (ops : List Op) (k : Kafka),
    Kafka.run utf8 k ops = some k' →
    ∃ es, k'.trace = k.trace ++ es ∧
      k'.publish = k.publish + endedAs .published es ∧
      k'.publishFailed = k.publishFailed + endedAs .failed es ∧
      k'.retryFailed = k.retryFailed + endedAs .unretryable es ∧
      k'.retry + (delivered ops).length = k.retry + (submissions es).length + endedAs .unretryable es ∧
      endedAs .published es + endedAs .failed es + endedAs .unretryable es + k'.messages.length =
        k.messages.length + (delivered ops).length := by
  intro ops
  induction ops with
  | nil =>
    intro k h
    simp only [Kafka.run, Option.some.injEq] at h
    subst h
    exact ⟨[], by simp, by simp [endedAs], by simp [endedAs], by simp [endedAs],
      by simp [endedAs, submissions, delivered], by simp [endedAs, delivered]⟩
  | cons op ops ih =>
    intro k h
    cases op with
    | deliver r =>
      simp only [Kafka.run, Option.bind_eq_some_iff] at h
      obtain ⟨k1, h1, h2⟩ := h
      simp only [deliverRaw, Option.map_eq_some_iff, Prod.exists] at h1
      obtain ⟨m, k2, h3, rfl⟩ := h1
      obtain ⟨-, -, t3⟩ := tryPayload_eq h3
      subst t3
      obtain ⟨es, e1, e2, e3, e4, e5, e6⟩ := ih _ h2
      refine ⟨.submitted m.sub :: es, by simp [e1], by simpa [endedAs] using e2, by simpa [endedAs] using e3,
        by simpa [endedAs] using e4, ?_, ?_⟩
      · simp only [endedAs, submissions, delivered, List.length_cons, List.countP_cons, List.filterMap_cons] at e5 ⊢
        simp; omega
      · simp only [List.length_append, List.length_cons, List.length_nil] at e6
        simp only [endedAs, delivered, List.length_cons, List.countP_cons] at e6 ⊢
        simp; omega
    | flush =>
      simp only [Kafka.run, Option.bind_eq_some_iff] at h
      obtain ⟨k1, h1, h2⟩ := h
      obtain ⟨c1, -, es1, c2, -, c3, c4, c5, c6, c7⟩ := C27_flush_accounts utf8 k k1 h1
      obtain ⟨es, e1, e2, e3, e4, e5, e6⟩ := ih _ h2
      refine ⟨es1 ++ es, by simp [e1, c2], ?_, ?_, ?_, ?_, ?_⟩
      · rw [endedAs_append]; omega
      · rw [endedAs_append]; omega
      · rw [endedAs_append]; omega
      · rw [endedAs_append, submissions_append, List.length_append]
        simp only [delivered]; omega
      · simp only [endedAs_append, delivered]
        rw [c1] at e6
        simp only [List.length_nil] at e6
        omega

/-- **C100, Kafka.**  After any deliveries and flushes of a new sink, published messages are reported as
successes, those given up on as failures, those that could not be resubmitted as failed retries, and the
resubmissions and failed retries together as retries.  Together with what is still in flight, successes, failures
and failed retries are the events delivered. -/
theorem C100_kafka (utf8 : Bytes → Bool) (topic : Str) (maxBytes : Nat) (script : List (Submission → KOutcome))
    (ops : List Op) (k' : Kafka)
    (h : Kafka.run utf8 { topicName := topic, maxMessageBytes := maxBytes, script := script } ops = some k') :
    let xs := kafkaAdds k'
    under "cernan.sinks.kafka.publish.success" xs = endedAs .published k'.trace ∧
    under "cernan.sinks.kafka.publish.failure" xs = endedAs .failed k'.trace ∧
    under "cernan.sinks.kafka.publish.retry.failure" xs = endedAs .unretryable k'.trace ∧
    under "cernan.sinks.kafka.publish.retry" xs + (delivered ops).length =
      (submissions k'.trace).length + endedAs .unretryable k'.trace ∧
    under "cernan.sinks.kafka.publish.success" xs + under "cernan.sinks.kafka.publish.failure" xs +
      under "cernan.sinks.kafka.publish.retry.failure" xs + k'.messages.length = (delivered ops).length := by
  intro xs
  rw [under_at 49 "KAFKA_PUBLISH_SUCCESS_SUM" rfl, under_at 51 "KAFKA_PUBLISH_FAILURE_SUM" rfl,
    under_at 52 "KAFKA_PUBLISH_RETRY_FAILURE_SUM" rfl, under_at 50 "KAFKA_PUBLISH_RETRY_SUM" rfl]
  obtain ⟨es, e1, e2, e3, e4, e5, e6⟩ := run_counts utf8 k' ops _ h
  simp only [List.nil_append] at e1
  simp only [xs, kafkaAdds, addedTo_cons, addedTo_nil]
  rw [e1]
  simp only [Nat.zero_add, List.length_nil] at e2 e3 e4 e5 e6
  simp only [e2, e3, e4]
  simp
  omega

/-- Non-vacuity of `C100_kafka`: three messages: one is published, one is retried and then refused, one cannot be
retried. -/
example : ((Kafka.run (fun _ => true)
    { topicName := ['t'], maxMessageBytes := 9, script := [fun _ => .published,
      fun s => .retryable ⟨some s.payload, some s.key, some s.headers⟩, fun _ => .retryable ⟨none, none, none⟩,
      fun _ => .fatal] }
    [.deliver ⟨7, .raw, [1], none, some 1⟩, .deliver ⟨7, .raw, [2], none, none⟩, .deliver ⟨8, .raw, [3], none, none⟩,
     .flush]).map fun k => (kafkaAdds k, k.messages.length)) =
    some ([("KAFKA_PUBLISH_SUCCESS_SUM", 1), ("KAFKA_PUBLISH_RETRY_SUM", 2), ("KAFKA_PUBLISH_FAILURE_SUM", 1),
      ("KAFKA_PUBLISH_RETRY_FAILURE_SUM", 1)], 0) := by decide

/-- What the channels have accepted, all together. -/
private def total {E : Type} (cs : List (Chan E)) : Nat := (cs.map fun c => c.accepted.length).sum

private theorem sendLoop_total {E : Type} (e : E) : ∀ (s : List SendOutcome) (acc : List E),
    (sendLoop e s acc).1.accepted.length + (sendLoop e s acc).2 = acc.length + 1 := by
  intro s
  induction s with
  | nil => intro acc; simp [sendLoop]
  | cons o s ih => intro acc; cases o <;> simp [sendLoop, ih]

private theorem sendRest_total {E : Type} (e : E) : ∀ cs : List (Chan E),
    total (sendRest e cs).1 + (sendRest e cs).2 = total cs + cs.length := by
  intro cs
  induction cs with
  | nil => rfl
  | cons c cs ih =>
    have := sendLoop_total e c.script c.accepted
    simp only [total, sendRest, List.map_cons, List.sum_cons, List.length_cons] at ih ⊢
    omega

private theorem send_total {E : Type} (e : E) (cs : List (Chan E)) :
    total (send cs e).1 + (send cs e).2 = total cs + cs.length ∧ (send cs e).1.length = cs.length := by
  refine ⟨?_, (C14_send_per_channel cs e).1⟩
  cases cs with
  | nil => rfl
  | cons c cs =>
    have := sendLoop_total e c.script c.accepted
    have ih := sendRest_total e cs
    simp only [total, send, List.map_cons, List.sum_cons, List.length_cons] at ih ⊢
    omega

/-- **C100, the fan-out.**  What is reported as lost to full queues is what the channels did not accept of one
copy of each event for each of them. -/
theorem C100_send {E : Type} (chans : List (Chan E)) (es : List E) :
    (((sendAll chans es).1.map fun c => c.accepted.length).sum +
      under "cernan.util.hopper.error.full" (sendAdds chans es)) =
    (chans.map fun c => c.accepted.length).sum + es.length * chans.length := by
  rw [under_at 0 "UTIL_SEND_HOPPER_ERROR_FULL" rfl]
  have key : ∀ (es : List E) (chans : List (Chan E)),
      total (sendAll chans es).1 + (sendAll chans es).2 = total chans + es.length * chans.length := by
    intro es
    induction es with
    | nil => intro chans; simp [sendAll]
    | cons e es ih =>
      intro chans
      obtain ⟨h1, h2⟩ := send_total e chans
      have := ih (send chans e).1
      rw [h2] at this
      simp only [sendAll, List.length_cons, Nat.succ_mul]
      omega
  have := key es chans
  simp only [total] at this
  simp only [sendAdds, addedTo_cons, addedTo_nil]
  simpa using this

/-- Non-vacuity of `C100_send`: two channels, three events, one of them lost. -/
example : sendAdds [⟨[], [.ok, .full]⟩, ⟨[], [.other]⟩] [1, 2, 3] = [("UTIL_SEND_HOPPER_ERROR_FULL", 1)] := by decide

end Verif
