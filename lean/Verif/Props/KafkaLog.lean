import Verif.Spec.KafkaLog
import Verif.Props.KafkaKeys
import Verif.Props.KafkaEnds
import Verif.Props.LinePipeline
/-!
# C143: what a consumer reads
-/
namespace Verif
open Kafka
open Native (Each)

private theorem answered_append (p : KOutcome → Bool) (a b : List Submission) : ∀ script : List (Submission → KOutcome),
    answered p script (a ++ b) = answered p script a ++ answered p (script.drop a.length) b := by
  induction a with
  | nil => intro script; simp [answered]
  | cons s a ih =>
    intro script
    simp only [List.cons_append, answered, ih, List.length_cons]
    have : script.tail.drop a.length = script.drop (a.length + 1) := by cases script <;> simp
    rw [this]
    by_cases hp : p ((script.head?.getD fun _ => .published) s) = true <;> simp [hp]

private theorem answered_sublist (p : KOutcome → Bool) (ss : List Submission) : ∀ script, (answered p script ss).Sublist ss := by
  induction ss with
  | nil => intro script; simp [answered]
  | cons s ss ih =>
    intro script
    simp only [answered]
    by_cases hp : p ((script.head?.getD fun _ => .published) s) = true
    · rw [if_pos hp]; exact (ih _).cons_cons s
    · rw [if_neg hp]; exact (ih _).cons s

/-- the answer is the last one for the message -/
private def isFinal (o : KOutcome) : Bool := !isRetryable o

private theorem written_refused (ss : List Submission) : ∀ script, (written script ss ++ refused script ss).Perm (answered isFinal script ss) := by
  induction ss with
  | nil => intro script; exact .nil
  | cons s ss ih =>
    intro script
    have ih := ih script.tail
    simp only [written, refused] at ih ⊢
    simp only [answered]
    cases (script.head?.getD fun _ => .published) s
    · simpa [isFinal, isRetryable] using ih
    · simpa [isFinal, isRetryable] using ih
    all_goals
      simp only [isFinal, isRetryable, reduceCtorEq, decide_false, Bool.false_eq_true, if_false, or_false, or_true, decide_true, if_true, Bool.not_false]
      exact List.perm_middle.trans (ih.cons _)

private theorem refused_none (ss : List Submission) : ∀ script : List (Submission → KOutcome),
    (∀ f ∈ script, ∀ s, f s = .published ∨ Again s (f s)) → refused script ss = [] := by
  induction ss with
  | nil => intro script _; rfl
  | cons s ss ih =>
    intro script h
    have ih := ih script.tail (fun f hf => h f (List.mem_of_mem_tail hf))
    simp only [refused] at ih ⊢
    simp only [answered, ih]
    cases script with
    | nil => simp
    | cons f fs =>
      rcases h f (by simp) s with ho | ⟨ho, -⟩
      · simp [ho]
      · simp only [List.head?_cons, Option.getD_some]
        have h1 : f s ≠ .fatal := by intro e; rw [e] at ho; simp [isRetryable] at ho
        have h2 : f s ≠ .canceled := by intro e; rw [e] at ho; simp [isRetryable] at ho
        simp [h1, h2]

/-- the messages in flight that will not come back -/
private def done (ms : List InFlight) : List Submission := (ms.filter fun m => isFinal m.outcome).map (·.sub)

/-- the messages in flight that the broker will hand back -/
private def back (ms : List InFlight) : List Submission := (ms.filter fun m => isRetryable m.outcome).map (·.sub)

private theorem done_back (ms : List InFlight) : (done ms ++ back ms).Perm (ms.map (·.sub)) := by
  induction ms with
  | nil => exact .nil
  | cons m ms ih =>
    by_cases ho : isRetryable m.outcome = true
    · have h1 : done (m :: ms) = done ms := by simp [done, isFinal, ho]
      have h2 : back (m :: ms) = m.sub :: back ms := by simp [back, ho]
      rw [h1, h2]
      exact List.perm_middle.trans (ih.cons _)
    · have h1 : done (m :: ms) = m.sub :: done ms := by simp [done, isFinal, ho]
      have h2 : back (m :: ms) = back ms := by simp [back, ho]
      rw [h1, h2]
      exact ih.cons _

private theorem resubmit_written (utf8 : Bytes → Bool) (fs : List Failed) : ∀ (k k' : Kafka) (ms : List InFlight) (ids : List (Option Nat)),
    resubmit utf8 k fs = some (k', ms, ids) → answered isFinal k.script (ms.map (·.sub)) = done ms := by
  induction fs with
  | nil =>
    intro k k' ms ids h
    simp only [resubmit, Option.some.injEq, Prod.mk.injEq] at h
    rw [← h.2.1]; rfl
  | cons f fs ih =>
    intro k k' ms ids h
    simp only [resubmit] at h
    split at h
    · split at h
      · simp at h
      · next m k1 ht =>
        simp only [Option.map_eq_some_iff, Prod.exists, Prod.mk.injEq] at h
        obtain ⟨k2, ms2, ids2, h1, rfl, rfl, rfl⟩ := h
        obtain ⟨-, t2, t3⟩ := tryPayload_eq ht
        have := ih _ _ _ _ h1
        rw [t3] at this
        simp only [List.map_cons, answered, ← t2]
        simp only at this
        rw [this]
        by_cases ho : isFinal m.outcome = true <;> simp [done, ho]
    · simp only [Option.map_eq_some_iff, Prod.exists, Prod.mk.injEq] at h
      obtain ⟨k2, ms2, ids2, h1, rfl, rfl, rfl⟩ := h
      exact ih { k with retryFailed := k.retryFailed + 1, trace := k.trace ++ [KEvent.final f.connectionId Verdict.unretryable] } _ _ _ h1

/-- What holds of a sink to which these messages were given. -/
private structure Held (sc : List (Submission → KOutcome)) (k : Kafka) (msgs : List Submission) : Prop where
  script : k.script = sc.drop (submissions k.trace).length
  inflight : ∀ m ∈ k.messages, m.sub.topic = k.topicName ∧ DistinctKeys m.sub.headers ∧ Faithful m.sub m.outcome
  log : (answered isFinal sc (submissions k.trace) ++ back k.messages).Perm msgs
  known : ∀ s ∈ submissions k.trace, s ∈ msgs

private theorem drop_mem {α : Type} {x : α} {n : Nat} {l : List α} (h : x ∈ l.drop n) : x ∈ l := List.mem_of_mem_drop h

private theorem held_round {utf8 : Bytes → Bool} {script : List (Submission → KOutcome)} {k k' : Kafka} {msgs : List Submission} {ms : List InFlight}
    {ids : List (Option Nat)} (hsc : ∀ f ∈ script, ∀ s, Faithful s (f s)) (hh : Held script k msgs)
    (h : resubmit utf8 k.awaitInflight.2 k.awaitInflight.1 = some (k', ms, ids)) : Held script { k' with messages := ms } msgs := by
  obtain ⟨p1, p2⟩ := C29_retry_preserves_message utf8 k k' ms ids (fun m hm => by
    obtain ⟨a, b, c⟩ := hh.inflight m hm
    exact ⟨a, c, b⟩) h
  obtain ⟨rs, aids, p, r, f, es, h0, -, -, s3, -, -, -, -, -, -, -⟩ := scan_spec k.messages
  have hk : k.awaitInflight.2.script = k.script ∧ submissions k.awaitInflight.2.trace = submissions k.trace ∧
      k.awaitInflight.2.topicName = k.topicName := by
    simp only [awaitInflight, h0, foldl_acknowledge]
    refine ⟨trivial, ?_, trivial⟩
    rw [submissions_append, submissions_append, s3, (ackEvents_facts aids).2.2.1]
    simp
  obtain ⟨es2, r1, -, -, r4, -, -, -, -, -, -, -, -, r13, r14, -, -, -, r18⟩ := resubmit_spec utf8 _ _ _ _ _ h
  have hw := resubmit_written utf8 _ _ _ _ _ h
  have hsub : submissions k'.trace = submissions k.trace ++ ms.map (·.sub) := by rw [r1, submissions_append, hk.2.1, r4]
  rw [hk.1] at hw r13 r18
  have hin : ∀ m ∈ ms, m.sub.topic = k.topicName ∧ DistinctKeys m.sub.headers ∧ Faithful m.sub m.outcome := by
    intro m hm
    have : m.sub ∈ (k.messages.filter fun m => isRetryable m.outcome).map (·.sub) := by rw [← p1]; exact List.mem_map.2 ⟨m, hm, rfl⟩
    obtain ⟨m', hm', e⟩ := List.mem_map.1 this
    obtain ⟨a, b, -⟩ := hh.inflight m' (List.mem_filter.1 hm').1
    rw [e] at a b
    refine ⟨a, b, ?_⟩
    rcases r18 m hm with ho | ⟨f, hf, ho⟩
    · rw [ho]; trivial
    · rw [ho]
      rw [hh.script] at hf
      exact hsc f (drop_mem hf) m.sub
  refine ⟨?_, ?_, ?_, ?_⟩
  · simp only
    rw [r13, hsub, hh.script, List.drop_drop, List.length_append, List.length_map]
  · intro m hm
    simp only
    rw [r14, hk.2.2]
    exact hin m hm
  · simp only
    rw [hsub, answered_append, ← hh.script, hw, List.append_assoc]
    refine (List.Perm.append_left _ (done_back ms)).trans ?_
    rw [p1]
    exact hh.log
  · simp only
    rw [hsub, p1]
    intro s hs
    rcases List.mem_append.1 hs with hs | hs
    · exact hh.known s hs
    · exact hh.log.subset (List.mem_append_right _ hs)

private theorem held_loop {utf8 : Bytes → Bool} {script : List (Submission → KOutcome)} (hsc : ∀ f ∈ script, ∀ s, Faithful s (f s))
    {msgs : List Submission} (n : Nat) : ∀ (k k' : Kafka) (ids ids' : List (Option Nat)), Held script k msgs →
    flushLoop utf8 n k ids = some (k', ids') → Held script k' msgs := by
  induction n with
  | zero => intro k k' ids ids' hh h; simp only [flushLoop, Option.some.injEq, Prod.mk.injEq] at h; rw [← h.1]; exact hh
  | succ n ih =>
    intro k k' ids ids' hh h
    simp only [flushLoop] at h
    split at h
    · simp only [Option.some.injEq, Prod.mk.injEq] at h; rw [← h.1]; exact hh
    · cases hr : resubmit utf8 k.awaitInflight.2 k.awaitInflight.1 with
      | none => rw [hr] at h; simp at h
      | some r =>
        obtain ⟨k1, ms, more⟩ := r
        rw [hr] at h
        exact ih _ _ _ _ (held_round hsc hh hr) h

private theorem held_flush {utf8 : Bytes → Bool} {script : List (Submission → KOutcome)} (hsc : ∀ f ∈ script, ∀ s, Faithful s (f s))
    {msgs : List Submission} {k k' : Kafka} (hh : Held script k msgs) (h : k.flush utf8 = some k') : Held script k' msgs := by
  simp only [Kafka.flush, Option.map_eq_some_iff, Prod.exists] at h
  obtain ⟨k1, ids, h1, h2⟩ := h
  have hl := held_loop hsc _ _ _ _ _ hh h1
  rw [foldl_acknowledge] at h2
  subst h2
  have hs : submissions (k1.trace ++ ackEvents ids) = submissions k1.trace := by rw [submissions_append, (ackEvents_facts ids).2.2.1]; simp
  exact ⟨by simp only; rw [hs]; exact hl.script, hl.inflight, by simp only; rw [hs]; exact hl.log, by simp only; rw [hs]; exact hl.known⟩

private theorem held_deliver {utf8 : Bytes → Bool} {script : List (Submission → KOutcome)} (hsc : ∀ f ∈ script, ∀ s, Faithful s (f s))
    {msgs : List Submission} {k k' : Kafka} {r : RawEvent} (hd : DistinctKeys (r.metadata.getD [])) (hh : Held script k msgs)
    (h : k.deliverRaw utf8 r = some k') :
    k'.topicName = k.topicName ∧ ∃ s, IsMessage k.topicName hex r s ∧ Held script k' (msgs ++ [s]) := by
  simp only [deliverRaw, Option.map_eq_some_iff, Prod.exists] at h
  obtain ⟨m, k1, h1, h2⟩ := h
  obtain ⟨t1, t2, t3⟩ := tryPayload_eq h1
  subst t3
  subst h2
  refine ⟨rfl, m.sub, ⟨by rw [t1], by rw [t1], by rw [t1], by rw [t1], by rw [t1]⟩, ?_, ?_, ?_, ?_⟩
  · simp only [submissions_append]
    rw [hh.script, List.tail_drop]
    congr 1
    simp [submissions]
  · intro x hx
    simp only [List.mem_append, List.mem_singleton] at hx
    rcases hx with hx | rfl
    · exact hh.inflight x hx
    · refine ⟨by rw [t1], by rw [t1]; exact hd, ?_⟩
      rw [t2]
      cases hs : k.script with
      | nil => trivial
      | cons f fs =>
        have : f ∈ k.script := by rw [hs]; simp
        rw [hh.script] at this
        exact hsc f (drop_mem this) x.sub
  · simp only [submissions_append]
    have : submissions [KEvent.submitted m.sub] = [m.sub] := rfl
    rw [this, answered_append, ← hh.script]
    have hw : answered isFinal k.script [m.sub] = done [m] := by
      simp only [answered, ← t2]
      by_cases ho : isFinal m.outcome = true <;> simp [done, ho]
    have hb : back (k.messages ++ [m]) = back k.messages ++ back [m] := by simp [back]
    rw [hw, hb]
    have e1 : (answered isFinal script (submissions k.trace) ++ done [m] ++ (back k.messages ++ back [m])).Perm
        (answered isFinal script (submissions k.trace) ++ back k.messages ++ (done [m] ++ back [m])) := by
      rw [List.append_assoc, List.append_assoc]
      refine List.Perm.append_left _ ?_
      rw [← List.append_assoc, ← List.append_assoc]
      exact List.Perm.append_right _ List.perm_append_comm
    exact e1.trans (hh.log.append (done_back [m]))
  · simp only [submissions_append]
    intro s hs
    rcases List.mem_append.1 hs with hs | hs
    · exact List.mem_append_left _ (hh.known s hs)
    · exact List.mem_append_right _ hs

private theorem held_run {utf8 : Bytes → Bool} {script : List (Submission → KOutcome)} (hsc : ∀ f ∈ script, ∀ s, Faithful s (f s))
    (ops : List Op) : ∀ {msgs : List Submission} {k k' : Kafka}, (∀ r ∈ delivered ops, DistinctKeys (r.metadata.getD [])) → Held script k msgs →
    Kafka.run utf8 k ops = some k' → ∃ new, Each (IsMessage k.topicName hex) (delivered ops) new ∧ Held script k' (msgs ++ new) := by
  induction ops with
  | nil =>
    intro msgs k k' _ hh h
    simp only [Kafka.run, Option.some.injEq] at h
    subst h
    exact ⟨[], .nil, by simpa using hh⟩
  | cons op ops ih =>
    intro msgs k k' hd hh h
    cases op with
    | deliver r =>
      simp only [Kafka.run, Option.bind_eq_some_iff] at h
      obtain ⟨k1, h1, h2⟩ := h
      obtain ⟨e0, s, e1, e2⟩ := held_deliver hsc (hd r (by simp [delivered])) hh h1
      obtain ⟨new, n1, n2⟩ := ih (fun r' hr' => hd r' (by simp [delivered, hr'])) e2 h2
      rw [e0] at n1
      exact ⟨s :: new, .cons e1 n1, by simpa using n2⟩
    | flush =>
      simp only [Kafka.run, Option.bind_eq_some_iff] at h
      obtain ⟨k1, h1, h2⟩ := h
      obtain ⟨new, n1, n2⟩ := ih hd (held_flush hsc hh h1) h2
      rw [(Kafka.flush_keeps h1).2.2] at n1
      exact ⟨new, n1, n2⟩

private theorem start (script : List (Submission → KOutcome)) (topic : Str) (maxBytes : Nat) :
    Held script { topicName := topic, maxMessageBytes := maxBytes, script := script } [] :=
  ⟨by simp [submissions], by simp, .nil, by simp [submissions]⟩

private theorem run_ends (utf8 : Bytes → Bool) (topic : Str) (maxBytes : Nat) (script : List (Submission → KOutcome))
    (hsc : ∀ f ∈ script, ∀ s, Faithful s (f s)) (ops : List Op) (hd : ∀ r ∈ delivered ops, DistinctKeys (r.metadata.getD [])) (k : Kafka)
    (h : Kafka.run utf8 { topicName := topic, maxMessageBytes := maxBytes, script := script } (ops ++ [.flush]) = some k) :
    ∃ msgs : List Submission, Each (IsMessage topic hex) (delivered ops) msgs ∧
      (written script (submissions k.trace) ++ refused script (submissions k.trace)).Perm msgs ∧ ∀ s ∈ submissions k.trace, s ∈ msgs := by
  have hdel : ∀ ops : List Op, delivered (ops ++ [.flush]) = delivered ops := by
    intro ops
    induction ops with
    | nil => rfl
    | cons o ops ih => cases o <;> simp [delivered, ih]
  obtain ⟨new, n1, n2⟩ := held_run hsc (ops ++ [.flush]) (by rw [hdel]; exact hd) (start script topic maxBytes) h
  rw [hdel] at n1
  have hm : k.messages = [] := by
    have key : ∀ (ops : List Op) (k0 : Kafka), Kafka.run utf8 k0 (ops ++ [.flush]) = some k → k.messages = [] := by
      intro ops
      induction ops with
      | nil =>
        intro k0 h
        simp only [List.nil_append, Kafka.run, Option.bind_eq_some_iff, Option.some.injEq] at h
        obtain ⟨k1, h1, rfl⟩ := h
        exact (C27_flush_accounts utf8 k0 k1 h1).1
      | cons o ops ih =>
        intro k0 h
        cases o <;>
        · simp only [List.cons_append, Kafka.run, Option.bind_eq_some_iff] at h
          obtain ⟨k1, -, h2⟩ := h
          exact ih k1 h2
    exact key ops _ h
  have hl := n2.log
  rw [hm] at hl
  simp only [back, List.filter_nil, List.map_nil, List.append_nil, List.nil_append] at hl
  exact ⟨new, n1, (written_refused _ _).trans hl, n2.known⟩

private theorem again_faithful {script : List (Submission → KOutcome)} (hsc : ∀ f ∈ script, ∀ s, f s = .published ∨ Again s (f s)) :
    ∀ f ∈ script, ∀ s, Faithful s (f s) := by
  intro f hf s
  rcases hsc f hf s with ho | ho
  · rw [ho]; trivial
  · exact ho.2

/-- **C143** (every message ends once) A history of raw events and flushes, the last of them a flush, with a broker that hands back what was
submitted when it asks for a message again: each raw event's message, with all its repetitions, has been written once or been refused for good
once, and nothing else was written or refused. -/
theorem C143_accounted (utf8 : Bytes → Bool) (topic : Str) (maxBytes : Nat) (script : List (Submission → KOutcome))
    (hsc : ∀ f ∈ script, ∀ s, Faithful s (f s)) (ops : List Op) (hd : ∀ r ∈ delivered ops, DistinctKeys (r.metadata.getD [])) (k : Kafka)
    (h : Kafka.run utf8 { topicName := topic, maxMessageBytes := maxBytes, script := script } (ops ++ [.flush]) = some k) :
    ∃ (key : Nat → Bytes) (msgs : List Submission), (∀ n, n < 18446744073709551616 → IsNumeral n (key n)) ∧
      Each (IsMessage topic key) (delivered ops) msgs ∧
      (written script (submissions k.trace) ++ refused script (submissions k.trace)).Perm msgs := by
  obtain ⟨msgs, h1, h2, -⟩ := run_ends utf8 topic maxBytes script hsc ops hd k h
  exact ⟨hex, msgs, hex_numeral, h1, h2⟩

/-- **C143** If moreover the broker refuses nothing for good, its log holds the message of every raw event exactly once. -/
theorem C143_consumer_reads (utf8 : Bytes → Bool) (topic : Str) (maxBytes : Nat) (script : List (Submission → KOutcome))
    (hsc : ∀ f ∈ script, ∀ s, f s = .published ∨ Again s (f s)) (ops : List Op) (hd : ∀ r ∈ delivered ops, DistinctKeys (r.metadata.getD []))
    (k : Kafka) (h : Kafka.run utf8 { topicName := topic, maxMessageBytes := maxBytes, script := script } (ops ++ [.flush]) = some k) :
    ∃ (key : Nat → Bytes) (msgs : List Submission), (∀ n, n < 18446744073709551616 → IsNumeral n (key n)) ∧
      Each (IsMessage topic key) (delivered ops) msgs ∧ (written script (submissions k.trace)).Perm msgs := by
  obtain ⟨msgs, h1, h2, -⟩ := run_ends utf8 topic maxBytes script (again_faithful hsc) ops hd k h
  rw [refused_none _ _ hsc, List.append_nil] at h2
  exact ⟨hex, msgs, hex_numeral, h1, h2⟩

/-- **C143** (at least once) A broker may also have written messages for which it answered with an error.  Whatever it has written, as long as
that is among what was submitted and contains what it said it had published, and it refuses nothing for good: the log has every message at least
as often as the raw events have it, and no message that is not of one of them. -/
theorem C143_at_least_once (utf8 : Bytes → Bool) (topic : Str) (maxBytes : Nat) (script : List (Submission → KOutcome))
    (hsc : ∀ f ∈ script, ∀ s, f s = .published ∨ Again s (f s)) (ops : List Op) (hd : ∀ r ∈ delivered ops, DistinctKeys (r.metadata.getD []))
    (k : Kafka) (h : Kafka.run utf8 { topicName := topic, maxMessageBytes := maxBytes, script := script } (ops ++ [.flush]) = some k)
    (log : List Submission) (hlog : (written script (submissions k.trace)).Sublist log) (hsub : log.Sublist (submissions k.trace)) :
    ∃ (key : Nat → Bytes) (msgs : List Submission), (∀ n, n < 18446744073709551616 → IsNumeral n (key n)) ∧
      Each (IsMessage topic key) (delivered ops) msgs ∧ (∀ s, msgs.count s ≤ log.count s) ∧ ∀ s ∈ log, s ∈ msgs := by
  obtain ⟨msgs, h1, h2, h3⟩ := run_ends utf8 topic maxBytes script (again_faithful hsc) ops hd k h
  rw [refused_none _ _ hsc, List.append_nil] at h2
  exact ⟨hex, msgs, hex_numeral, h1, fun s => by rw [← h2.count_eq]; exact hlog.count_le s, fun s hs => h3 s (hsub.subset hs)⟩

section
open JsonFilter LinePipeline File
variable {F : Type} [F64 F]

/-- **C143** (a watched file) The pipeline of `C137_file_to_kafka`, ending in a flush, with a broker that refuses nothing for good: its log holds, in some order, one
message per line and raw event that the filter has read, each telling its line; and the lines of the file among them are those that were appended, but the blank ones, once each. -/
theorem C143_file_to_consumer (max : Nat) (p : Str) (i : Nat) (content : Text) (before : List (FS × List Str)) (first : FS × List Str)
    (hb : ∀ x ∈ before, p ∉ x.2) (hf : p ∈ first.2) (hs : Sees p i content first)
    (later : List ((FS × List Str) × List Text)) (hg : Grows p i content later) (quiet : List (FS × List Str))
    (hq : ∀ x ∈ quiet, Sees p i (content ++ joinLines (later.flatMap (·.2))) x) (hlen : (later.flatMap (·.2)).length ≤ quiet.length)
    (num : Str → Option Str) (hnum : ∀ t u, num t = some u → Json.IsNumber u) (sources : Nat) (s : JsonEncode)
    (recv : List (Option (Int × Event F)))
    (hc : ((linesIn (recv.filterMap fun i => i.map Prod.snd)).filter fun l => l.path = p).map (·.value) =
      ((Server.mk max [] 1 []).passes (before ++ first :: later.map (·.1) ++ quiet)).sentOf p)
    (hok : (JsonFilter.run num sources { state := s } recv).panicked = false)
    (hread : ∀ now l, some (now, .log l) ∈ (JsonFilter.run num sources { state := s } recv).unread → l.path ≠ p)
    (utf8 : Bytes → Bool) (topic : Str) (maxBytes : Nat)
    (script : List (Submission → KOutcome)) (hsc : ∀ f ∈ script, ∀ x, f x = .published ∨ Again x (f x)) (ops : List Kafka.Op) (k : Kafka)
    (hops : Kafka.delivered ops = rawsIn (JsonFilter.run num sources { state := s } recv).run.sent)
    (hd : ∀ r ∈ Kafka.delivered ops, DistinctKeys (r.metadata.getD []))
    (h : Kafka.run utf8 { topicName := topic, maxMessageBytes := maxBytes, script := script } (ops ++ [.flush]) = some k) :
    ∃ (events : List (Event F)) (log : List Submission), (written script (submissions k.trace)).Perm log ∧
      Each (Becomes num s.parseLine topic) events log ∧
      ((linesIn events).filter fun l => l.path = p).map (·.value) = (later.flatMap (·.2)).filter (· ≠ []) := by
  obtain ⟨consumed, rest, c1, c2, -, c4⟩ := C131_exact num hnum sources s recv
  obtain ⟨key, msgs, -, h1, h2⟩ := C143_consumer_reads utf8 topic maxBytes script hsc ops hd k h
  rw [hops] at h1
  exact ⟨_, msgs, h2, raws_of num s.parseLine s.tags topic key c2 h1,
    lines_reach max p i content before first hb hf hs later hg quiet hq hlen hc c1 (c4 hok).1 hread⟩

end

/-! ### A case: four raw events, two of them alike; the broker asks for two again, for one of them twice -/
private def logRaw (o : Nat) (b : UInt8) : RawEvent := ⟨o, .raw, [b], some [([1], [2])], none⟩
private def logOps : List Op := [.deliver (logRaw 171 1), .deliver (logRaw 171 1), .flush, .deliver (logRaw 16 3), .deliver (logRaw 1 4)]
private def again : Submission → KOutcome := fun s => .retryable ⟨some s.payload, some s.key, some s.headers⟩
private def logScript : List (Submission → KOutcome) := [again, fun _ => .published, again, fun _ => .published, again]

/-- Non-vacuity of `C143_consumer_reads` and `C143_at_least_once`; the broker of the latter has also written the message it asked for again. -/
example : (∀ f ∈ logScript, ∀ s, f s = .published ∨ Again s (f s)) ∧ (∀ r ∈ delivered logOps, DistinctKeys (r.metadata.getD [])) ∧
    (Kafka.run (fun _ => true) { topicName := ['t'], maxMessageBytes := 9, script := logScript } (logOps ++ [.flush])).map
      (fun k => ((submissions k.trace).map (·.payload), (written logScript (submissions k.trace)).map fun s => (s.payload, s.key))) =
      some ([[1], [1], [1], [1], [3], [4], [3]], [([1], [65, 66]), ([1], [65, 66]), ([4], [49]), ([3], [49, 48])]) := by
  refine ⟨?_, ?_, by decide +kernel⟩
  · intro f hf s
    simp only [logScript, List.mem_cons, List.not_mem_nil, or_false] at hf
    rcases hf with rfl | rfl | rfl | rfl | rfl
    · exact .inr ⟨rfl, rfl, rfl, rfl⟩
    · exact .inl rfl
    · exact .inr ⟨rfl, rfl, rfl, rfl⟩
    · exact .inl rfl
    · exact .inr ⟨rfl, rfl, rfl, rfl⟩
  · intro x hx
    simp only [logOps, delivered, List.mem_cons, List.not_mem_nil, or_false] at hx
    rcases hx with rfl | rfl | rfl | rfl <;> simp [DistinctKeys, logRaw]

private def refusing : List (Submission → KOutcome) := [again, fun _ => .fatal, fun _ => .canceled, fun _ => .published]

/-- Non-vacuity of `C143_accounted`: two events are lost. -/
example : (∀ f ∈ refusing, ∀ s, Faithful s (f s)) ∧
    (Kafka.run (fun _ => true) { topicName := ['t'], maxMessageBytes := 9, script := refusing } (logOps ++ [.flush])).map
      (fun k => ((submissions k.trace).map (·.payload), (written refusing (submissions k.trace)).map (·.payload),
        (refused refusing (submissions k.trace)).map (·.payload))) =
      some ([[1], [1], [1], [3], [4]], [[3], [4]], [[1], [1]]) := by
  refine ⟨?_, by decide +kernel⟩
  intro f hf s
  simp only [refusing, List.mem_cons, List.not_mem_nil, or_false] at hf
  rcases hf with rfl | rfl | rfl | rfl
  · exact ⟨rfl, rfl, rfl⟩
  all_goals trivial

/-- The hypotheses of `C143_file_to_consumer` are those of `C137_file_to_kafka`, met by the case beside it, whose operations end in a flush
and whose broker asks for one message again and refuses none.  Why the last operation is to be a flush: what the broker hands back is submitted again only by a flush. -/
example : (Kafka.run (fun _ => true) { topicName := ['t'], maxMessageBytes := 9, script := [again] } [.deliver (logRaw 1 4)]).map
    (fun k => written [again] (submissions k.trace)) = some [] := by decide +kernel

end Verif
