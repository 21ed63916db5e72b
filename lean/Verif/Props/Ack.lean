import Verif.Lemmas.Ack
/-!
# C31 — synchronous publishes and acknowledgements
-/
namespace Verif
open Ack

/-- **C31 (safety).** In every schedule of any number of connections and sinks: when a
frame is answered to the client, the connection had registered it, and a sink
acknowledged a message of that connection after the registration. -/
theorem C31_answer_after_ack (schedule : List Act) (w : World)
    (h : World.run {} schedule = some w) (pre post : List AckEvent) (c n : Nat)
    (ht : w.trace = pre ++ .answered c n :: post) : ∃ m, AckedSinceRegistered pre c n m := by
  obtain ⟨m, hm, -⟩ := (inv_run _ _ _ inv_init h).2 pre c n post ht
  exact ⟨m, hm⟩

/-- **C31 (no lost acknowledgement, no early release).** A waiting connection that looks
at the bag is released exactly when some message of the connection has been acknowledged
since the registration — in particular when that happened before the wait began. -/
theorem C31_no_lost_ack (schedule : List Act) (w : World)
    (h : World.run {} schedule = some w) (c n nap : Nat)
    (hw : w.threads c = ⟨.waiting nap, n⟩) :
    ∃ w', w.step (.poll c) = some w' ∧ w'.trace = w.trace ∧
      ((∃ m, AckedSinceRegistered w.trace c n m) → w'.threads c = ⟨.released, n⟩) ∧
      ((¬ ∃ m, AckedSinceRegistered w.trace c n m) →
        ∃ nap', w'.threads c = ⟨.waiting nap', n⟩ ∧ nap ≤ nap' ∧ nap' ≤ 250) := by
  have hc := (inv_run _ _ _ inv_init h).1 c
  simp only [ConnOk, hw] at hc
  obtain ⟨h1, h2, h3, h4⟩ := hc
  obtain ⟨a, b, e1, e2, e3⟩ := view_split c w.trace n h2
  by_cases hv : (view c w.trace).2 = []
  · refine ⟨w.setThread c ⟨.waiting (min 250 (nap * 2)), n⟩, ?_, rfl, ?_, ?_⟩
    · simp [World.step, hw, Bag.propsFor, h1, hv]
    · rintro ⟨m, a', b', f1, f2, f3⟩
      rw [← split_unique e1 f1 e3 f2, e2, hv] at f3
      simp at f3
    · intro _
      exact ⟨min 250 (nap * 2), by simp [World.setThread], by omega, by omega⟩
  · refine ⟨w.setThread c ⟨.released, n⟩, ?_, rfl, ?_, ?_⟩
    · have : 0 < (view c w.trace).2.length := List.length_pos_iff.2 hv
      have : min (view c w.trace).2.length usizeMax ≠ 0 := by simp only [usizeMax]; omega
      simp only [World.step, hw, Bag.propsFor, h1, if_neg this]
    · intro _; simp [World.setThread]
    · intro hn
      obtain ⟨m, hm⟩ := List.exists_mem_of_ne_nil _ hv
      exact absurd ⟨m, a, b, e1, e3, (e2 m).2 hm⟩ hn

/-- Two connections: 7 publishes synchronously, 8 asynchronously; the acknowledgement for
7 arrives before its wait begins. -/
def ackDemo : List Act :=
  [.publishSync 7, .publishAsync 8 2, .send 7 1, .sinkAck 7 0, .sinkAck 8 0, .poll 7, .remove 7,
   .answer 7]

example : (World.run {} ackDemo).map (·.trace) =
    some [.registered 7 0, .sent 8 0, .sent 7 0, .acked 7 0, .acked 8 0, .answered 7 0] := by decide

/-- A schedule in which the thread is waiting, with and without an acknowledgement. -/
example : (World.run {} [.publishSync 7, .send 7 1, .poll 7]).map (·.threads 7) =
    some ⟨.waiting 10, 0⟩ := by decide
example : (World.run {} [.publishSync 7, .send 7 1, .poll 7, .sinkAck 7 0]).map (·.threads 7) =
    some ⟨.waiting 10, 0⟩ := by decide

/-- **C31 for the answered message itself is false of the code**: after an asynchronous
publish on the same connection, its late acknowledgement releases the next synchronous
publish although that message was not acknowledged (connections, not messages, are the
keys of the bag). -/
theorem C31_own_message_acked_false :
    ∃ schedule w, World.run {} schedule = some w ∧ .answered 0 1 ∈ w.trace ∧
      .acked 0 1 ∉ w.trace := by
  refine ⟨[.publishAsync 0 1, .publishSync 0, .send 0 1, .sinkAck 0 0, .poll 0, .remove 0, .answer 0],
    _, rfl, ?_, ?_⟩ <;> decide

/-- The same happens with synchronous publishes only, if the source forwards to two
acknowledging sinks: the second acknowledgement of one message releases the next. -/
theorem C31_own_message_two_channels_false :
    ∃ schedule w, (∀ a ∈ schedule, ∀ c n, a ≠ .publishAsync c n) ∧
      World.run {} schedule = some w ∧ .answered 0 1 ∈ w.trace ∧ .acked 0 1 ∉ w.trace := by
  refine ⟨[.publishSync 0, .send 0 2, .sinkAck 0 0, .poll 0, .remove 0, .answer 0,
    .publishSync 0, .sinkAck 0 0, .send 0 2, .poll 0, .remove 0, .answer 0],
    _, by simp, rfl, ?_, ?_⟩ <;> decide

/-- **C31 (own message, partial).** If all publishes are synchronous and go to a single
channel, an answered frame's own message was acknowledged, after its registration.
Missing: connections that mix in asynchronous publishes, and several channels
(the two theorems above). -/
theorem C31_own_message_acked_partial (schedule : List Act) (w : World)
    (hs : ∀ a ∈ schedule, a.simple) (h : World.run {} schedule = some w)
    (pre post : List AckEvent) (c n : Nat) (ht : w.trace = pre ++ .answered c n :: post) :
    AckedSinceRegistered pre c n n := by
  obtain ⟨m, hm, rfl⟩ := (invS_run _ _ _ invS_init hs h).2.2 pre c n post ht
  exact hm

example : let acts : List Act := [.publishSync 7, .send 7 1, .sinkAck 7 0, .poll 7, .remove 7,
      .answer 7, .publishSync 7, .send 7 1, .poll 7, .sinkAck 7 1, .poll 7, .remove 7, .answer 7]
    (∀ a ∈ acts, a.simple) ∧ (World.run {} acts).map (·.trace) =
      some [.registered 7 0, .sent 7 0, .acked 7 0, .answered 7 0,
        .registered 7 1, .sent 7 1, .acked 7 1, .answered 7 1] :=
  ⟨by simp [Act.simple], by decide⟩

end Verif
