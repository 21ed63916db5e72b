import Verif.Spec.AckNet
import Verif.Props.AckLive
import Verif.Props.NetAcked
/-!
# C147: a synchronous publish through a running process is answered
-/
namespace Verif
open Net Topology
open Ack (Exec Scheduled acksOf)
open Pipeline (Through)
variable {F : Type} [F64 F]

private theorem acksOf_step {w w' : Ack.World} {a : Ack.Act} {c : Nat} (h : w.step a = some w') (hn : ∀ m, a ≠ .sinkAck c m) :
    acksOf c w'.trace = acksOf c w.trace := by
  cases a <;> simp only [Ack.World.step] at h
  case poll c' =>
    split at h
    · split at h
      · split at h <;> (injection h with h; subst h; rfl)
      · injection h with h; subst h; rfl
    · simp at h
  case sinkAck c' m =>
    have : c' ≠ c := by rintro rfl; exact hn m rfl
    split at h
    · injection h with h; subst h
      simp [acksOf, List.countP_append, this]
    · simp at h
  all_goals
    split at h
    · injection h with h; subst h
      simp [acksOf, List.countP_append, Ack.World.setThread]
    · simp at h

private theorem ack_between {acts : Nat → Option Ack.Act} {w : Nat → Ack.World} (h : Exec acts w) (c a : Nat) : ∀ k,
    acksOf c (w a).trace < acksOf c (w (a + k)).trace → ∃ s ≥ a, ∃ m, acts s = some (.sinkAck c m) := by
  intro k
  induction k with
  | zero => intro hlt; exact absurd hlt (Nat.lt_irrefl _)
  | succ k ih =>
    intro hlt
    by_cases hk : ∃ m, acts (a + k) = some (.sinkAck c m)
    · obtain ⟨m, hm⟩ := hk; exact ⟨a + k, by omega, m, hm⟩
    · refine ih ?_
      have : acksOf c (w (a + k + 1)).trace = acksOf c (w (a + k)).trace := by
        cases ha : acts (a + k) with
        | none => rw [h.idle _ ha]
        | some x => exact acksOf_step (h.step _ x ha) (fun m e => hk ⟨m, by rw [ha, e]⟩)
      rw [show a + (k + 1) = a + k + 1 from rfl, this] at hlt
      exact hlt

/-- how many raw events of a connection there are among these events -/
private def of (conn : Nat) (es : List (Event F)) : Nat := ((rawsIn es).map (·.connectionId)).count (some conn)

private theorem of_append (conn : Nat) (a b : List (Event F)) : of conn (a ++ b) = of conn a + of conn b := by
  simp [of, rawsIn, List.filterMap_append]

private theorem of_sublist {conn : Nat} {a b : List (Event F)} (h : a.Sublist b) : of conn a ≤ of conn b :=
  ((h.filterMap _).map _).count_le _

private theorem of_payload (conn : Nat) (a : List (Event F)) : of conn (a.filter Event.isPayload) = of conn a := by
  simp only [of, rawsIn_payload]

private theorem of_mem {conn : Nat} {a : List (Event F)} (h : 0 < of conn a) : ∃ e, .raw e ∈ a ∧ e.connectionId = some conn := by
  have := List.count_pos_iff.1 h
  obtain ⟨e, h1, h2⟩ := List.mem_map.1 this
  simp only [rawsIn, List.mem_filterMap] at h1
  obtain ⟨x, hx, hy⟩ := h1
  cases x <;> simp at hy
  subst hy
  exact ⟨_, hx, h2⟩

private theorem sent_mem {p : Setup F} {ls : Nat → Label F} {i : Nat} {e : RawEvent} : ∀ t, .raw e ∈ sourceSent p ls i t → ∃ t', ls t' = .emit i (.raw e) := by
  intro t
  induction t with
  | zero => intro h; cases h
  | succ t ih =>
    intro h
    rw [sourceSent] at h
    rcases List.mem_append.1 h with h | h
    · exact ih h
    · cases hl : ls t <;> simp only [hl] at h
      case emit j x =>
        split at h
        · rename_i hc
          rw [List.mem_singleton] at h
          subst h
          exact ⟨t, by rw [hl, hc.1]⟩
        · cases h
      case stop j =>
        split at h
        · simp at h
        · cases h
      all_goals cases h

/-- events of which those of the connection all come from one sender -/
private theorem of_from {conn : Nat} {x : Sender} : ∀ (log : List (Sender × Event F)),
    (∀ y ∈ log, ∀ e, y.2 = .raw e → e.connectionId = some conn → y.1 = x) → of conn (log.map (·.2)) = of conn (acceptedFrom x log) := by
  intro log
  induction log with
  | nil => intro _; rfl
  | cons y log ih =>
    intro h
    have ih := ih fun z hz => h z (List.mem_cons_of_mem _ hz)
    rw [List.map_cons, ← List.singleton_append, of_append, ih]
    have : acceptedFrom x (y :: log) = acceptedFrom x [y] ++ acceptedFrom x log := by rw [← acceptedFrom_append]; rfl
    rw [this, of_append]
    congr 1
    by_cases hy : y.1 = x
    · simp [acceptedFrom, hy]
    · have : ¬ 0 < of conn [y.2] := by
        intro hpos
        obtain ⟨e, he, hc⟩ := of_mem hpos
        rw [List.mem_singleton] at he
        exact hy (h y (by simp) e he.symm hc)
      have e2 : acceptedFrom x [y] = [] := by simp [acceptedFrom, hy]
      rw [e2]
      have : of conn ([] : List (Event F)) = 0 := rfl
      omega

/-- **C147 (in the process).**  A source forwards to a Kafka sink that only sources feed, whose thread keeps getting turns, whose queue is never full and whose valve opens
when it is flushed; the timer goes on, and nobody stops the process.  Then every synchronous publish over a connection of the source whose thread keeps getting
turns is answered: nothing further has to be published, and the process does not have to stop. -/
theorem C147_process (c : Config) (hd : Distinct c) (p : Setup F) (hp : SetUp c p) (ls : Nat → Label F) (hs : ∀ t, ls t ≠ .signal)
    (number : Nat → Nat) (htk : Ticks ls number) (n : Str) (hn : n ∈ c.sinks)
    (honly : ∀ u, Forwards c u n → u ∈ (c.natives ++ c.sources).map (·.1))
    (hb : Busy ls n) (hroom : ∀ t, (run p ls t).lost n = []) (hre : ValveReopens p ls n)
    (utf8 : Bytes → Bool) (interval : Nat) (topic : Str) (maxBytes : Nat) (script : List (Submission → KOutcome))
    (hk : p.sink n = ⟨_, kafkaImpl utf8 interval, some { topicName := topic, maxMessageBytes := maxBytes, script := script }⟩)
    (i : Nat) (s : Str) (chans : List Str) (hi : p.wiring.sources[i]? = some (s, chans)) (hfw : Forwards c s n)
    (conn : Nat) (acts : Nat → Option Ack.Act) (w : Nat → Ack.World) (hex : Exec acts w) (hsch : Scheduled acts w conn) (time : Nat → Nat)
    (hj : Joined p ls n utf8 interval { topicName := topic, maxMessageBytes := maxBytes, script := script } i conn acts w time)
    (s0 : Nat) (hpub : acts s0 = some (.publishSync conn)) : ∃ s1, .answered conn ((w s0).threads conn).frame ∈ (w s1).trace := by
  -- the publish is sent
  have hprep : (w (s0 + 1)).threads conn = ⟨.prepared, ((w s0).threads conn).frame⟩ := by
    have hst := hex.step s0 _ hpub
    simp only [Ack.World.step] at hst
    split at hst
    · injection hst with hst; rw [← hst]; simp [Ack.World.setThread]
    · simp at hst
  obtain ⟨s1, hs1, copies, hsend, -⟩ := Ack.live_prepared hex hsch (s0 + 1) _ hprep
  obtain ⟨t1, b1, b2⟩ : ∃ t, time t ≤ s1 ∧ s1 < time (t + 1) := by
    obtain ⟨u, hu⟩ := hj.unbounded s1
    induction u with
    | zero => rw [hj.start] at hu; omega
    | succ u ih =>
      by_cases h : s1 < time u
      · exact ih h
      · exact ⟨u, by omega, hu⟩
  obtain ⟨e, he, hce⟩ := hj.sends t1 s1 copies b1 b2 hsend
  -- ... and acknowledged
  obtain ⟨t, ht, received, out, m, r, k, hthr, hfrom, hnode, hst, -, hacks⟩ := C146_kafka_partial c hd p hp ls hs number htk n [] n (.sources (.inl hn) honly) ⟨s, hfw⟩ hn
    (by simpa using hb) (by simp) (by simpa using hroom) hre utf8 interval topic maxBytes script hk (t1 + 1)
  have hout : out = received.map (·.2) := by cases hthr; rfl
  subst hout
  have hc : HasChannel c n := .inl hn
  obtain ⟨q1, -, q3⟩ := C93_queues c hd p hp ls t1 n hc
  have hsent : acceptedFrom (.source i) ((run p ls t1).log n) = sourceSent p ls i t1 := by
    have := (q1 i s chans hi).1 hfw
    rw [hroom t1] at this
    exact this.none_dropped
  -- the events of the connection in the queue all come from its source
  have hlog : of conn (((run p ls t1).log n).map (·.2)) = of conn (sourceSent p ls i t1) := by
    rw [← hsent]
    refine of_from _ fun y hy e' he' hc' => ?_
    have hs3 := q3 y hy
    obtain ⟨x, z⟩ := y
    simp only at he'
    subst he'
    cases x with
    | source j =>
      have hlt : j < p.wiring.sources.length := hs3
      obtain ⟨s', ch', hj'⟩ : ∃ s' ch', p.wiring.sources[j]? = some (s', ch') := ⟨_, _, List.getElem?_eq_getElem hlt⟩
      have hmem : (.raw e' : Event F) ∈ acceptedFrom (.source j) ((run p ls t1).log n) := List.mem_map.2 ⟨_, List.mem_filter.2 ⟨hy, by simp⟩, rfl⟩
      by_cases hf : Forwards c s' n
      · have hq := (q1 j s' ch' hj').1 hf
        rw [hroom t1] at hq
        rw [hq.none_dropped] at hmem
        obtain ⟨t', ht'⟩ := sent_mem t1 hmem
        rw [hj.own t' j e' ht' hc']
      · rw [(q1 j s' ch' hj').2 hf] at hmem; cases hmem
    | filter f =>
      exfalso
      obtain ⟨w1, w2, w3, -, w5, w6, -, w7⟩ := C57_mutual c hd _ hp.wired
      obtain ⟨-, -, -, -, n5, -⟩ := names hd hp.wired
      have hs4 := log_senders (some_of_channel hd hp.wired hc) t1 _ hy
      obtain ⟨ups, ch, g1, g2⟩ := hs4
      exact absurd (List.mem_map.2 ⟨_, g1, rfl⟩) (n5 f (w3 ▸ honly f (((w5 f ups ch g1).2.2 n).1 g2)))
    | timer => have := hs3.1; cases this
  have hmore : of conn (sourceSent p ls i t1) + 1 ≤ of conn (received.map (·.2)) := by
    have h1 := (hfrom.2 i s chans hi hfw).1
    have h2 : sourceSent p ls i (t1 + 1) = sourceSent p ls i t1 ++ [.raw e] := by
      rw [sourceSent, he]
      simp only
      rw [if_pos ⟨trivial, rfl, by rw [none_ended (fun t' _ => hs t')]; simp⟩]
    have h3 : of conn [(.raw e : Event F)] = 1 := by simp [of, rawsIn, hce]
    have h4 := of_sublist (conn := conn) h1.sublist
    rw [h2, of_append, h3] at h4
    have h5 : (acceptedFrom (.source i) received).Sublist (received.map (·.2)) := by
      simp only [acceptedFrom]; exact List.filter_sublist.map _
    have := of_sublist (conn := conn) h5
    omega
  -- how things stood when it was sent
  have hthen : ∃ m r j, (run p ls t1).nodes n = some (.sink (p.sink n) m r) ∧
      r = SinkRun.steps (p.sink n).impl m j { state := (p.sink n).start, queue := ((run p ls t1).log n).map fun x => some x.2 } ∧
      (∃ N, (p.sink n).impl.valveOpen (flushes (p.sink n).impl N r.state) = true) ∧
      of conn (deliveredBy r.calls) ≤ of conn (((run p ls t1).log n).map (·.2)) := by
    obtain ⟨m, r, j, h1, h2⟩ := C123_alone c hd p hp ls t1 n hn
    refine ⟨m, r, j, h1, h2, hre t1 m r h1, ?_⟩
    obtain ⟨w1, -⟩ := C57_mutual c hd _ hp.wired
    obtain ⟨ups, hu⟩ := mem_fst (w1 ▸ hn)
    obtain ⟨r3, cs, g1, g2⟩ := sink_log (ls := ls) (linked hd hp.wired) hu (iv := some interval) (by rw [hk]; intro _; rfl) t1
    rw [h1] at g1
    simp only [Option.some.injEq, Node.sink.injEq, heq_eq_eq, true_and] at g1
    obtain ⟨-, rfl⟩ := g1
    rw [g2.delivered, of_payload, g2.split, List.append_assoc]
    exact of_sublist (List.sublist_append_left _ _)
  rw [hk] at hthen
  obtain ⟨m1, r1, j1, c1, c2, c3, c4⟩ := hthen
  obtain ⟨k1, hk1⟩ := flushes_none rfl rfl c3
  have hle := kafka_acks_le utf8 interval topic maxBytes script m1 j1 (((run p ls t1).log n).map fun x => some x.2) conn k1 (by rw [← c2]; exact hk1)
  rw [← c2] at hle
  have hnext : (run p ls (t1 + 1)).nodes n = some (.sink ⟨_, kafkaImpl utf8 interval, some { topicName := topic, maxMessageBytes := maxBytes, script := script }⟩ m1
      { r1 with queue := r1.queue ++ (arrive p (run p ls t1) (ls t1) n).map some }) := by
    rw [run, step_nodes, c1, Option.map_some, he]
    simp only [base, pushAll_sink]
  have e1 := hj.acked (t1 + 1) m1 _ k1 hnext hk1
  have e2 := hj.acked t m r k hnode hst
  have e3 := hacks conn
  have hmono : ∀ j, time (t1 + 1) ≤ time (t1 + 1 + j) := by
    intro j
    induction j with
    | zero => exact Nat.le_refl _
    | succ j ih => exact Nat.le_trans ih (hj.forward _)
  obtain ⟨d, rfl⟩ := Nat.exists_eq_add_of_le ht
  obtain ⟨d', hd'⟩ := Nat.exists_eq_add_of_le (hmono d)
  obtain ⟨s2, hs2, m2, hm2⟩ := ack_between hex conn (time (t1 + 1)) d' (by
    rw [← hd', e1, e2]
    have : of conn (received.map (·.2)) ≤ (Kafka.acks k.trace).count conn := e3
    have : (Kafka.acks k1.trace).count conn ≤ of conn (deliveredBy r1.calls) := hle
    omega)
  exact (C147_exact acts w hex conn hsch s0 hpub).2 ⟨s2, by omega, m2, hm2⟩

/-! ### An execution that meets the hypotheses -/

private def joinedConfig : Config := ⟨[['k']], [], [], [(['a'], [['k']])]⟩

private def joinedSink : Kafka := { topicName := ['t'], maxMessageBytes := 10, script := [fun _ => .published] }

private def joinedSetup : Setup Int where
  wiring := ⟨[(['k'], [['a']])], [], [(['a'], [['k']])], [['k']]⟩
  filter _ := ⟨_, delayProcess, 10⟩
  sink _ := ⟨_, kafkaImpl (fun _ => true) 1, some joinedSink⟩
  stopOrder := [0]
  joinOrder := [['k']]

/-- The publish, and then a pulse and two turns of the sink, for ever. -/
private def joinedLabels (t : Nat) : Label Int :=
  if t = 0 then .emit 0 (.raw ⟨5, .avro, [1, 2], none, some 7⟩) else if t % 3 = 1 then .pulse (t / 3 + 1) else .act ['k'] 0

/-- what the connection has done by each step of the process -/
private def joinedTime (t : Nat) : Nat := if t = 0 then 0 else if t = 1 then 2 else if t ≤ 6 then 3 else t - 3

private def joinedMessage : Submission := ⟨['t'], [1, 2], Kafka.hex 5, [], some 7⟩

private def joinedMid : Kafka := { joinedSink with script := [], messages := [⟨joinedMessage, .published⟩], messageBytes := 2, trace := [.submitted joinedMessage] }

private def joinedEnd : Kafka :=
  { joinedSink with script := [], publish := 1, trace := [.submitted joinedMessage, .final (some 7) .published, .ack 7] }

private theorem joined_flush : joinedMid.flush (fun _ => true) = some joinedEnd ∧ joinedEnd.flush (fun _ => true) = some joinedEnd := ⟨rfl, rfl⟩

private theorem joined_pulse (s : Net.State Int) (j : Nat) (r : SinkRun Int (Option Kafka))
    (h : s.nodes ['k'] = some (.sink ⟨_, kafkaImpl (fun _ => true) 1, some joinedSink⟩ 1 r)) :
    (step joinedSetup s (.pulse j)).nodes ['k'] = some (.sink ⟨_, kafkaImpl (fun _ => true) 1, some joinedSink⟩ 1 { r with queue := r.queue ++ [some (.timerFlush j)] }) := by
  rw [step_nodes, h]
  simp only [Option.map_some, base, pushAll_sink]
  rfl

private theorem joined_act (s : Net.State Int) (r : SinkRun Int (Option Kafka))
    (h : s.nodes ['k'] = some (.sink ⟨_, kafkaImpl (fun _ => true) 1, some joinedSink⟩ 1 r)) :
    (step joinedSetup s (.act ['k'] 0)).nodes ['k'] =
      some (.sink ⟨_, kafkaImpl (fun _ => true) 1, some joinedSink⟩ 1 (r.step (kafkaImpl (fun _ => true) 1) 1)) := by
  rw [step_nodes, h]
  have : arrive joinedSetup s (.act ['k'] 0) ['k'] = [] := by simp [arrive, offered, h, Node.act, keep]
  rw [this]
  rfl

/-- the sink from step 7 on -/
private theorem joined_later (q : Nat) : ∃ calls, (run joinedSetup joinedLabels (3 * q + 7)).nodes ['k'] =
      some (.sink ⟨_, kafkaImpl (fun _ => true) 1, some joinedSink⟩ 1
        { state := some joinedEnd, queue := [some (.timerFlush (q + 2))], lastFlushIdx := q + 1, calls := calls }) ∧
    (run joinedSetup joinedLabels (3 * q + 8)).nodes ['k'] =
      some (.sink ⟨_, kafkaImpl (fun _ => true) 1, some joinedSink⟩ 1
        { state := some joinedEnd, queue := [some (.timerFlush (q + 2)), some (.timerFlush (q + 3))], lastFlushIdx := q + 1, calls := calls }) ∧
    (run joinedSetup joinedLabels (3 * q + 9)).nodes ['k'] =
      some (.sink ⟨_, kafkaImpl (fun _ => true) 1, some joinedSink⟩ 1
        { state := some joinedEnd, queue := [some (.timerFlush (q + 3))], current := some (.timerFlush (q + 2)), lastFlushIdx := q + 1, calls := calls }) := by
  have l1 : ∀ q, joinedLabels (3 * q + 7) = .pulse (q + 3) := by
    intro q; simp only [joinedLabels]; rw [if_neg (by omega), if_pos (by omega)]; congr 1; omega
  have l2 : ∀ q, joinedLabels (3 * q + 8) = .act ['k'] 0 := by intro q; simp only [joinedLabels]; rw [if_neg (by omega), if_neg (by omega)]
  have l3 : ∀ q, joinedLabels (3 * q + 9) = .act ['k'] 0 := by intro q; simp only [joinedLabels]; rw [if_neg (by omega), if_neg (by omega)]
  have more : ∀ q calls, (run joinedSetup joinedLabels (3 * q + 7)).nodes ['k'] =
      some (.sink ⟨_, kafkaImpl (fun _ => true) 1, some joinedSink⟩ 1
        { state := some joinedEnd, queue := [some (.timerFlush (q + 2))], lastFlushIdx := q + 1, calls := calls }) → _ ∧ _ := fun q calls h => by
    have a := joined_pulse _ (q + 3) _ h
    rw [← l1 q] at a
    have b := joined_act _ _ a
    rw [← l2 q] at b
    exact ⟨a, b⟩
  induction q with
  | zero => exact ⟨_, rfl, more 0 _ rfl⟩
  | succ q ih =>
    obtain ⟨calls, -, -, ih⟩ := ih
    have a := joined_act _ _ ih
    rw [← l3 q] at a
    have e : SinkRun.step (kafkaImpl (fun _ => true) 1) 1
        { state := some joinedEnd, queue := [some (.timerFlush (q + 3))], current := some (.timerFlush (q + 2)), lastFlushIdx := q + 1, calls := calls } =
        ({ state := some joinedEnd, queue := [some (.timerFlush (q + 3))], lastFlushIdx := q + 2,
           calls := calls ++ [.pulseFlush (some joinedEnd) (q + 2)] } : SinkRun Int (Option Kafka)) := by
      have hv : (kafkaImpl (F := Int) (fun _ => true) 1).valveOpen (some joinedEnd) = true := by decide
      have hf : (kafkaImpl (F := Int) (fun _ => true) 1).flush (some joinedEnd) = some joinedEnd := rfl
      have hi : (kafkaImpl (F := Int) (fun _ => true) 1).flushInterval (some joinedEnd) = some 1 := rfl
      simp only [SinkRun.step, Bool.false_eq_true, if_false, hv, if_true, SinkRun.handle, hi, hf]
      rw [if_pos (by omega), if_pos (by omega)]
    rw [e] at a
    exact ⟨_, a, more (q + 1) _ a⟩

/-- the sink's state at any time -/
private theorem joined_state (t : Nat) : ∃ r, (run joinedSetup joinedLabels t).nodes ['k'] =
      some (.sink ⟨_, kafkaImpl (fun _ => true) 1, some joinedSink⟩ 1 r) ∧
    ∃ k, r.state = some k ∧ (Kafka.acks k.trace).count 7 = if t ≤ 6 then 0 else 1 := by
  by_cases h : t ≤ 6
  · rw [if_pos h]
    match t, h with
    | 0, _ | 1, _ | 2, _ | 3, _ | 4, _ | 5, _ | 6, _ => exact ⟨_, rfl, _, rfl, rfl⟩
  · rw [if_neg h]
    obtain ⟨calls, h1, h2, h3⟩ := joined_later ((t - 7) / 3)
    have : t = 3 * ((t - 7) / 3) + 7 ∨ t = 3 * ((t - 7) / 3) + 8 ∨ t = 3 * ((t - 7) / 3) + 9 := by omega
    rcases this with e | e | e
    · rw [← e] at h1; exact ⟨_, h1, joinedEnd, rfl, rfl⟩
    · rw [← e] at h2; exact ⟨_, h2, joinedEnd, rfl, rfl⟩
    · rw [← e] at h3; exact ⟨_, h3, joinedEnd, rfl, rfl⟩

private theorem joined_views : Joined joinedSetup joinedLabels ['k'] (fun _ => true) 1 joinedSink 0 7 answeredActs (ackWorldAt answeredActs) joinedTime := by
  refine ⟨rfl, ?_, ?_, ?_, ?_, ?_⟩
  · intro t; simp only [joinedTime]; repeat' split
    all_goals omega
  · intro s; exact ⟨s + 7, by simp only [joinedTime]; repeat' split
                              all_goals omega⟩
  · intro t s copies h1 h2 h
    have hs : s = 1 := by
      match s, h with
      | 1, _ => rfl
      | 0, h | 2, h | 3, h | 4, h | 5, h | 6, h => injection h with h; cases h
      | _ + 7, h => cases h
    subst hs
    have ht : t = 0 := by
      simp only [joinedTime] at h1
      repeat' split at h1
      all_goals omega
    subst ht
    exact ⟨_, rfl, rfl⟩
  · intro t j e h _
    simp only [joinedLabels] at h
    split at h
    · injection h with h; exact h.symm
    · split at h <;> cases h
  · intro t m r k h1 h2
    obtain ⟨r', g1, k', g2, g3⟩ := joined_state t
    rw [h1] at g1
    simp only [Option.some.injEq, Node.sink.injEq, heq_eq_eq, true_and] at g1
    obtain ⟨-, rfl⟩ := g1
    rw [h2] at g2
    obtain rfl := Option.some.inj g2
    rw [g3]
    have hacks : ∀ s, acksOf 7 (ackWorldAt answeredActs s).trace = if s ≤ 3 then 0 else 1 := by
      intro s
      match s with
      | 0 | 1 | 2 | 3 | 4 | 5 | 6 => decide
      | s + 7 => rw [answeredActs_end, if_neg (by omega)]; decide
    rw [hacks]
    simp only [joinedTime]
    repeat' split
    all_goals first | rfl | omega

/-- All that `C147_process` asks for, and what it says. -/
example : ∃ s1, .answered 7 0 ∈ (ackWorldAt answeredActs s1).trace := by
  have hall : ∀ u n, Forwards joinedConfig u n → u = ['a'] := by
    rintro u n ⟨fs, h1, h2⟩
    simp only [joinedConfig, List.mem_append, List.mem_cons, Prod.mk.injEq, List.not_mem_nil, or_false, false_or] at h1
    exact h1.1
  have hd : Distinct joinedConfig := by decide
  have hp : SetUp joinedConfig joinedSetup := ⟨rfl, by decide, by decide, by intro n hn; cases hn⟩
  refine C147_process joinedConfig hd joinedSetup hp joinedLabels ?_ (fun t => (t + 1) / 3) ⟨rfl, ?_, ?_, ?_⟩ ['k'] (by decide)
    (fun u hu => by rw [hall u _ hu]; decide) ?_ (fun t => by rw [lost_settled (Nat.zero_le t) fun k _ => rfl]; rfl)
    (reopens_on hd hp joinedLabels (by decide) (C146_kafka_reopens (F := Int) (fun _ => true) (fun _ => rfl) 1 ['t'] 10 (by decide) [fun _ => .published]))
    (fun _ => true) 1 ['t'] 10 [fun _ => .published] rfl 0 ['a'] [['k']] rfl ⟨[['k']], by decide, by decide⟩ 7 answeredActs (ackWorldAt answeredActs)
    answeredActs_exec answeredActs_scheduled joinedTime joined_views 0 rfl
  · intro t h; simp only [joinedLabels] at h; split at h
    · cases h
    split at h <;> cases h
  · intro t idx h
    simp only [joinedLabels] at h
    split at h
    · cases h
    split at h
    · injection h with h; constructor <;> omega
    · cases h
  · intro t h
    have : t % 3 ≠ 1 := by
      intro h2
      refine h (t / 3 + 1) ?_
      simp only [joinedLabels]; rw [if_neg (by omega), if_pos h2]
    show (t + 1 + 1) / 3 = (t + 1) / 3
    omega
  · intro t; exact ⟨3 * t + 1, by omega, t + 1, by simp only [joinedLabels]; rw [if_neg (by omega), if_pos (by omega)]; congr 1; omega⟩
  · intro t; exact ⟨3 * t + 2, by omega, 0, by simp only [joinedLabels]; rw [if_neg (by omega), if_neg (by omega)]⟩

end Verif
