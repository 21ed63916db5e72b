import Verif.Lemmas.Counters
import Verif.Lemmas.Wavefront
import Verif.Lemmas.SinkWavefront
import Verif.Props.Internal
/-!
# C100: what is reported about the components is what happened
-/
namespace Verif
open Internal Counters
variable {F : Type} [F64 F]

/-- **C100, reports.**  The points reported under a name come to everything the calls of the components
counted under it, less what waits for the next report, whatever the calls, and however they interleave
with each other and with the source.  (Names that are levels, or whose static is overwritten, are C62's
and C83's.) -/
theorem C100_reports (c : Counter) (hc : c ∈ counters) (hg : c.name ∉ gauges) (calls : List (Call F))
    (ls : List (Label F)) (s : State F) (hr : run true {} ls = some s)
    (hl : (additions ls).Perm (calls.flatMap Call.adds)) (ho : OnlyAdded c.atom ls)
    (hn : NotPushed c.name.toList ls) :
    ∃ vs : List (Nat × Int), pointsOf c.name.toList s.sent = vs.map (sumPoint c.name.toList) ∧
      (vs.map (·.1)).sum + s.atoms c.atom = under c.name (calls.flatMap Call.adds) := by
  obtain ⟨vs, h1, _, h3⟩ := C62_counter c hc hg ls s hr ho hn
  refine ⟨vs, h1, ?_⟩
  rw [h3, under_mem c hc]
  have h4 : ∀ ls : List (Label F), added c.atom ls = addedTo c.atom (additions ls) := by
    intro ls
    induction ls with
    | nil => rfl
    | cons l ls ih =>
      cases l <;> simp only [added, additions, addedTo_cons, ih]
  rw [h4]
  exact (((hl.filter _).map _).sum_nat)

/-! ## Filters -/

/-- **C100, delay filter.**  The points and lines kept and dropped are counted under the four names, one for
each. -/
theorem C100_delay (now tolerance : Int) (e : Event F) (out : List (Event F))
    (h : delayProcess now tolerance e [] = (tolerance, out, .ok ())) :
    let xs := delayAdds now tolerance e
    under "cernan.filters.delay.telemetry.accept" xs = points out ∧
    under "cernan.filters.delay.telemetry.reject" xs + points out = points [e] ∧
    under "cernan.filters.delay.log.accept" xs = logs out ∧
    under "cernan.filters.delay.log.reject" xs + logs out = logs [e] := by
  intro xs
  rw [under_at 53 "DELAY_TELEM_ACCEPT" rfl, under_at 54 "DELAY_TELEM_REJECT" rfl,
    under_at 56 "DELAY_LOG_ACCEPT" rfl, under_at 55 "DELAY_LOG_REJECT" rfl]
  cases e with
  | telemetry t =>
    simp only [delayProcess] at h
    by_cases hy : ((t.timestamp - now).natAbs : Int) < tolerance
    · simp only [hy, if_true, Prod.mk.injEq] at h
      obtain ⟨_, rfl, _⟩ := h
      simp [xs, delayAdds, hy, addedTo, points, logs]
    · simp only [hy, if_false, Prod.mk.injEq] at h
      obtain ⟨_, rfl, _⟩ := h
      simp [xs, delayAdds, hy, addedTo, points, logs]
  | log l =>
    simp only [delayProcess] at h
    by_cases hy : ((l.time - now).natAbs : Int) < tolerance
    · simp only [hy, if_true, Prod.mk.injEq] at h
      obtain ⟨_, rfl, _⟩ := h
      simp [xs, delayAdds, hy, addedTo, points, logs]
    · simp only [hy, if_false, Prod.mk.injEq] at h
      obtain ⟨_, rfl, _⟩ := h
      simp [xs, delayAdds, hy, addedTo, points, logs]
  | _ =>
    simp only [delayProcess, Prod.mk.injEq] at h
    obtain ⟨_, rfl, _⟩ := h
    simp [xs, delayAdds, addedTo, points, logs]

/-- **C100, JSON filter.**  Every line is counted as processed, and as parsed exactly if lines are to be
parsed and its text is a JSON object. -/
theorem C100_json (x : JsonExt) (s : JsonEncode) (e : Event F) :
    let xs := jsonAdds x s e
    under "cernan.filters.json_encode.log.processed" xs = logs [e] ∧
    (∀ l, e = .log l → (s.parseLine = true ∧ ∃ o, x.parse l.value = some (.obj o)) →
      under "cernan.filters.json_encode.log.parsed" xs = 1) ∧
    ((∀ l, e = .log l → ¬ (s.parseLine = true ∧ ∃ o, x.parse l.value = some (.obj o))) →
      under "cernan.filters.json_encode.log.parsed" xs = 0) := by
  intro xs
  rw [under_at 57 "JSON_ENCODE_LOG_PROCESSED" rfl,
    under_at 58 "JSON_ENCODE_LOG_PARSED" rfl]
  refine ⟨?_, ?_, ?_⟩
  · cases e with
    | log l =>
      simp only [xs, jsonAdds, addedTo_append]
      split <;> simp [addedTo, logs]
    | _ => simp [xs, jsonAdds, addedTo, logs]
  · rintro l rfl ⟨h1, o, h2⟩
    simp [xs, jsonAdds, h1, h2, addedTo]
  · intro h
    cases e with
    | log l =>
      have := h l rfl
      simp only [xs, jsonAdds, addedTo_append]
      split
      · rename_i o ho
        split at ho
        · rename_i hp; exact absurd ⟨hp, o, ho⟩ this
        · simp at ho
      · simp [addedTo]
    | _ => simp [xs, jsonAdds, addedTo]

/-! ## InfluxDB -/

/-- **C100, InfluxDB.**  Successes, client errors and server errors are counted once for each POST so
answered.  Missing: the attempts (`C100_influx_attempts_false`). -/
theorem C100_influx_partial (payload : Str) (attempts : Nat) (os : List Influx.Outcome) :
    let xs := influxAdds attempts os
    under "cernan.sinks.influxdb.success" xs = (if (Influx.flushLoop payload attempts os).2.2 then 1 else 0) ∧
    under "cernan.sinks.influxdb.failure.client_error" xs = (answered os).count .clientError ∧
    under "cernan.sinks.influxdb.failure.server_error" xs = (answered os).count .serverError := by
  intro xs
  rw [under_at 46 "INFLUX_SUCCESS" rfl, under_at 47 "INFLUX_FAILURE_CLIENT" rfl,
    under_at 48 "INFLUX_FAILURE_SERVER" rfl]
  show addedTo _ (influxAdds attempts os) = _ ∧ addedTo _ (influxAdds attempts os) = _ ∧
    addedTo _ (influxAdds attempts os) = _
  clear xs
  induction os generalizing attempts with
  | nil => simp [influxAdds, addedTo, Influx.flushLoop, answered]
  | cons o os ih =>
    cases o with
    | success => simp [influxAdds, addedTo, Influx.flushLoop, answered]
    | clientError =>
      obtain ⟨h1, h2, h3⟩ := ih (Influx.satSucc attempts)
      simp [influxAdds, addedTo_cons, Influx.flushLoop, answered, h1, h2, h3, Nat.add_comm]
      rfl
    | serverError =>
      obtain ⟨h1, h2, h3⟩ := ih (Influx.satSucc attempts)
      simp [influxAdds, addedTo_cons, Influx.flushLoop, answered, h1, h2, h3, Nat.add_comm]
      rfl
    | sendError =>
      obtain ⟨h1, h2, h3⟩ := ih attempts
      simp [influxAdds, addedTo_cons, Influx.flushLoop, answered, h1, h2, h3]
      rfl
    | other =>
      obtain ⟨h1, h2, h3⟩ := ih attempts
      simp [influxAdds, addedTo_cons, Influx.flushLoop, answered, h1, h2, h3]
      rfl

/-- C100 does not hold of `cernan.sinks.influxdb.delivery_attempts`: what is added before each POST is the
number of attempts that failed before it.  A flush that needs one attempt counts none, and one that
needs four counts six; an attempt that fails without an answer is never counted. -/
theorem C100_influx_attempts_false :
    under "cernan.sinks.influxdb.delivery_attempts" (influxAdds 0 [.success]) = 0 ∧
    under "cernan.sinks.influxdb.delivery_attempts"
      (influxAdds 0 [.serverError, .serverError, .clientError, .success]) = 6 ∧
    ∀ n, under "cernan.sinks.influxdb.delivery_attempts" (influxAdds 0 (List.replicate n .sendError)) = 0 := by
  refine ⟨by decide +kernel, by decide +kernel, ?_⟩
  intro n
  rw [under_at 45 "INFLUX_DELIVERY_ATTEMPTS" rfl]
  induction n with
  | zero => rfl
  | succ n ih => simp [List.replicate_succ, influxAdds, addedTo_cons, ih]

/-- One refusal and then success. -/
example : influxAdds 0 [.clientError, .success] =
    [("INFLUX_DELIVERY_ATTEMPTS", 0), ("INFLUX_FAILURE_CLIENT", 1), ("INFLUX_DELIVERY_ATTEMPTS", 1),
      ("INFLUX_SUCCESS", 1)] := by decide

/-! ## Wavefront -/

private theorem pads_adds (n : Nat) (out : List (Wavefront.Pad F)) :
    addedTo "WAVEFRONT_AGGR_HISTO" (out.flatMap (padAdds n)) = ofKind .histogram (Wavefront.storedPoints out) ∧
    addedTo "WAVEFRONT_AGGR_SUM" (out.flatMap (padAdds n)) =
      ofKind .sum (Wavefront.storedPoints out) + ofKind .set (Wavefront.storedPoints out) ∧
    addedTo "WAVEFRONT_AGGR_SUMMARIZE" (out.flatMap (padAdds n)) =
      ofKind .summarize (Wavefront.storedPoints out) ∧
    addedTo "WAVEFRONT_AGGR_TOT_PERCENT" (out.flatMap (padAdds n)) =
      n * ofKind .summarize (Wavefront.storedPoints out) := by
  induction out with
  | nil => simp [addedTo, Wavefront.storedPoints, ofKind]
  | cons p out ih =>
    obtain ⟨h1, h2, h3, h4⟩ := ih
    cases p with
    | zero t ts =>
      have e : Wavefront.storedPoints (Wavefront.Pad.zero t ts :: out) = Wavefront.storedPoints out := rfl
      simp only [List.flatMap_cons, padAdds, List.nil_append, e]
      exact ⟨h1, h2, h3, h4⟩
    | telem t =>
      have e : Wavefront.storedPoints (Wavefront.Pad.telem t :: out) = t :: Wavefront.storedPoints out := rfl
      simp only [List.flatMap_cons, padAdds, e, ofKind, List.countP_cons, addedTo_append, h1, h2, h3, h4]
      cases hk : t.kind <;> simp [addedTo, ofKind, Nat.mul_add] <;> omega

private theorem loop_adds (now : Int) : ∀ (script : List Wavefront.Io) (s : Wavefront.State F)
    (wire : List Wavefront.Wire),
    let r := s.flushLoop now script wire
    let xs := wavefrontLoopAdds script s.connected
    completeWrites r.2.1 = completeWrites wire + addedTo "WAVEFRONT_DELIVERY_SUCCESS" xs ∧
    failedWrites r.2.1 = failedWrites wire + addedTo "WAVEFRONT_DELIVERY_FAILURE" xs ∧
    connections r.2.1 = connections wire + addedTo "WAVEFRONT_CONNECT_ATTEMPTS" xs := by
  intro script
  induction script with
  | nil => intro s wire; simp [Wavefront.State.flushLoop, wavefrontLoopAdds, addedTo]
  | cons io script ih =>
    intro s wire
    by_cases hc : s.connected = true
    · cases io with
      | ok =>
        simp [Wavefront.State.flushLoop, wavefrontLoopAdds, hc, addedTo, completeWrites, failedWrites,
          connections]
      | fail n =>
        have := ih { s with deliveryAttempts := min (s.deliveryAttempts + 1) (2 ^ 32 - 1), connected := false } (wire ++ [.part (s.stats.take n)])
        simp only [Wavefront.State.flushLoop, wavefrontLoopAdds, hc, if_true, addedTo_cons]
        simp only [completeWrites, failedWrites, connections, List.countP_append] at this ⊢
        simp at this ⊢
        omega
    · have := ih { s with connected := io = .ok } (wire ++ [.delay (delayMs s.deliveryAttempts)])
      simp only [Wavefront.State.flushLoop, wavefrontLoopAdds, if_neg hc, addedTo_cons]
      simp only [completeWrites, failedWrites, connections, List.countP_append] at this ⊢
      simp at this ⊢
      omega

/-- **C100, Wavefront.**  A flush counts the histograms and summaries stored, the percentiles printed, and its
complete writes, failed writes and connection attempts.  Missing: sums and gauges are counted together, as
sums (`C100_wavefront_set_false`). -/
theorem C100_wavefront_partial (ext : Wavefront.Ext F) (now : Int) (s s' : Wavefront.State F)
    (script : List Wavefront.Io) (wire : List Wavefront.Wire) (done : Bool) (pts : List (Telemetry F))
    (hi : s.aggrs.iter = some pts) (h : s.flush ext now script = some (s', wire, done)) :
    let xs := wavefrontAdds ext s pts script
    under "cernan.sinks.wavefront.aggregation.histogram" xs = ofKind .histogram pts ∧
    under "cernan.sinks.wavefront.aggregation.sum" xs = ofKind .sum pts + ofKind .set pts ∧
    under "cernan.sinks.wavefront.aggregation.summarize" xs = ofKind .summarize pts ∧
    under "cernan.sinks.wavefront.aggregation.summarize.total_percentiles" xs =
      s.percentiles.length * ofKind .summarize pts ∧
    under "cernan.sinks.wavefront.delivery.success" xs = completeWrites wire ∧
    under "cernan.sinks.wavefront.delivery.failure" xs = failedWrites wire ∧
    under "cernan.sinks.wavefront.proxy.connection_attempts" xs = connections wire := by
  intro xs
  rw [under_at 31 "WAVEFRONT_AGGR_HISTO" rfl, under_at 32 "WAVEFRONT_AGGR_SUM" rfl,
    under_at 34 "WAVEFRONT_AGGR_SUMMARIZE" rfl, under_at 35 "WAVEFRONT_AGGR_TOT_PERCENT" rfl,
    under_at 36 "WAVEFRONT_DELIVERY_SUCCESS" rfl, under_at 37 "WAVEFRONT_DELIVERY_FAILURE" rfl,
    under_at 29 "WAVEFRONT_CONNECT_ATTEMPTS" rfl]
  simp only [Wavefront.State.flush, Option.map_eq_some_iff] at h
  obtain ⟨s1, h1, h2⟩ := h
  have hcon : s1.connected = s.connected := by
    simp only [Wavefront.State.formatStats] at h1
    split at h1
    · simp at h1
    · split at h1
      · simp at h1
      · simp only [Option.some.injEq] at h1; subst h1; rfl
  obtain ⟨p1, p2, p3, p4⟩ := pads_adds s.percentiles.length
    (Wavefront.padding ext pts s.binWidth s.lastSeen s.padControl)
  rw [Wavefront.padding_eq, Wavefront.padded_points, ← Wavefront.padding_eq] at p1 p2 p3 p4
  obtain ⟨l1, l2, l3⟩ := loop_adds now script s1 []
  rw [h2] at l1 l2 l3
  rw [hcon] at l1 l2 l3
  have z : ∀ a : String, a ∉ ["WAVEFRONT_DELIVERY_SUCCESS", "WAVEFRONT_DELIVERY_FAILURE", "WAVEFRONT_CONNECT_ATTEMPTS"] →
      ∀ (script : List Wavefront.Io) (c : Bool), addedTo a (wavefrontLoopAdds script c) = 0 := by
    intro a ha script
    simp only [List.mem_cons, List.not_mem_nil, or_false, not_or] at ha
    induction script with
    | nil => intro c; rfl
    | cons io script ih =>
      intro c
      simp only [wavefrontLoopAdds]
      split
      · split
        · simp [addedTo_cons, addedTo_nil, Ne.symm ha.1]
        · simp [addedTo_cons, ih, Ne.symm ha.2.1]
      · simp [addedTo_cons, ih, Ne.symm ha.2.2]
  have y : ∀ a : String, a ∈ ["WAVEFRONT_DELIVERY_SUCCESS", "WAVEFRONT_DELIVERY_FAILURE", "WAVEFRONT_CONNECT_ATTEMPTS"] →
      ∀ out : List (Wavefront.Pad F), addedTo a (out.flatMap (padAdds s.percentiles.length)) = 0 := by
    intro a ha out
    induction out with
    | nil => rfl
    | cons p out ih =>
      rw [List.flatMap_cons, addedTo_append, ih]
      simp only [List.mem_cons, List.not_mem_nil, or_false] at ha
      cases p with
      | zero => rfl
      | telem t =>
        simp only [padAdds]
        rcases ha with rfl | rfl | rfl <;> cases t.kind <;> rfl
  simp only [xs, wavefrontAdds, addedTo_append]
  rw [z "WAVEFRONT_AGGR_HISTO" (by decide), z "WAVEFRONT_AGGR_SUM" (by decide),
    z "WAVEFRONT_AGGR_SUMMARIZE" (by decide), z "WAVEFRONT_AGGR_TOT_PERCENT" (by decide),
    y "WAVEFRONT_DELIVERY_SUCCESS" (by decide), y "WAVEFRONT_DELIVERY_FAILURE" (by decide),
    y "WAVEFRONT_CONNECT_ATTEMPTS" (by decide), p1, p2, p3, p4]
  simp only [completeWrites, failedWrites, connections, List.countP_nil, Nat.zero_add] at l1 l2 l3
  simp only [Nat.add_zero, Nat.zero_add]
  exact ⟨trivial, trivial, trivial, trivial, l1.symm, l2.symm, l3.symm⟩

/-- **C100, Wavefront's valve.**  Each look at the valve is counted as open or closed, as it was found. -/
theorem C100_valve (s : Wavefront.State F) :
    under "cernan.sinks.wavefront.valve.open" (wavefrontValveAdds s) = (if s.valveOpen then 1 else 0) ∧
    under "cernan.sinks.wavefront.valve.closed" (wavefrontValveAdds s) = (if s.valveOpen then 0 else 1) := by
  rw [under_at 39 "WAVEFRONT_VALVE_OPEN" rfl, under_at 38 "WAVEFRONT_VALVE_CLOSED" rfl]
  by_cases h : s.aggrs.count > 10000 <;> simp [wavefrontValveAdds, Wavefront.State.valveOpen, h, addedTo]
  all_goals omega

/-- C100 does not hold of `cernan.sinks.wavefront.aggregation.set`: nothing is ever counted under it, whatever
is flushed, and gauges are counted as sums. -/
theorem C100_wavefront_set_false (ext : Wavefront.Ext F) (s : Wavefront.State F) (t : Telemetry F)
    (hk : t.kind = .set) (script : List Wavefront.Io) :
    under "cernan.sinks.wavefront.aggregation.set" (wavefrontAdds ext s [t] script) = 0 ∧
    1 ≤ under "cernan.sinks.wavefront.aggregation.sum" (wavefrontAdds ext s [t] script) := by
  rw [under_at 33 "WAVEFRONT_AGGR_SET" rfl, under_at 32 "WAVEFRONT_AGGR_SUM" rfl]
  obtain ⟨_, p2, _⟩ := pads_adds s.percentiles.length
    (Wavefront.padding ext [t] s.binWidth s.lastSeen s.padControl)
  rw [Wavefront.padding_eq, Wavefront.padded_points, ← Wavefront.padding_eq] at p2
  refine ⟨?_, by rw [wavefrontAdds, addedTo_append, p2]; simp [ofKind, hk]⟩
  rw [wavefrontAdds, addedTo_append]
  have y : ∀ out : List (Wavefront.Pad F),
      addedTo "WAVEFRONT_AGGR_SET" (out.flatMap (padAdds s.percentiles.length)) = 0 := by
    intro out
    induction out with
    | nil => rfl
    | cons p out ih =>
      rw [List.flatMap_cons, addedTo_append, ih]
      cases p with
      | zero => rfl
      | telem t => simp only [padAdds]; cases t.kind <;> rfl
  have z : ∀ (script : List Wavefront.Io) (c : Bool), addedTo "WAVEFRONT_AGGR_SET" (wavefrontLoopAdds script c) = 0 := by
    intro script
    induction script with
    | nil => intro c; rfl
    | cons io script ih =>
      intro c
      simp only [wavefrontLoopAdds]
      split
      · split <;> simp [addedTo_cons, addedTo_nil, ih]
      · simp [addedTo_cons, ih]
  rw [y, z]

/-- A histogram, a gauge and a failed write before a good one. -/
example :
    let pts : List (Telemetry Int) := [⟨['a'], .set 3, false, none, 1, none, none⟩, ⟨['b'], .sum 3, false, none, 1, none, none⟩]
    let s : Wavefront.State Int := Wavefront.State.init 1 [] none true ⟨false, false, false, false⟩ []
    let xs := wavefrontAdds ⟨fun x => x.1.length, fun x => x.1.1.length, fun a b => some (compare a b), fun _ => [], fun _ => [], fun _ => []⟩
      s pts [.fail 2, .fail 0, .ok, .ok]
    under "cernan.sinks.wavefront.aggregation.sum" xs = 2 ∧ under "cernan.sinks.wavefront.delivery.failure" xs = 1 ∧
    under "cernan.sinks.wavefront.delivery.success" xs = 1 ∧
    under "cernan.sinks.wavefront.proxy.connection_attempts" xs = 2 := by decide +kernel

/-! ## Elasticsearch -/

private theorem items_adds (items : List (Elastic.Item × Action)) :
    addedTo "ELASTIC_RECORDS_TOTAL_DELIVERED" (items.flatMap itemAdds) = items.countP (·.1.ok) ∧
    addedTo "ELASTIC_RECORDS_TOTAL_FAILED" (items.flatMap itemAdds) = items.countP (!·.1.ok) ∧
    (addedTo "ELASTIC_BULK_ACTION_INDEX_ERR" (items.flatMap itemAdds) =
      items.countP (fun i => !i.1.ok && i.2 = .index)) ∧
    (addedTo "ELASTIC_BULK_ACTION_CREATE_ERR" (items.flatMap itemAdds) =
      items.countP (fun i => !i.1.ok && i.2 = .create)) ∧
    (addedTo "ELASTIC_BULK_ACTION_UPDATE_ERR" (items.flatMap itemAdds) =
      items.countP (fun i => !i.1.ok && i.2 = .update)) ∧
    (addedTo "ELASTIC_BULK_ACTION_DELETE_ERR" (items.flatMap itemAdds) =
      items.countP (fun i => !i.1.ok && i.2 = .delete)) ∧
    addedTo "ELASTIC_RECORDS_DELIVERY" (items.flatMap itemAdds) = 0 := by
  induction items with
  | nil => simp [addedTo]
  | cons i items ih =>
    obtain ⟨⟨ok, id⟩, act⟩ := i
    obtain ⟨h1, h2, h3, h4, h5, h6, h7⟩ := ih
    simp only [List.flatMap_cons, addedTo_append, h1, h2, h3, h4, h5, h6, h7, List.countP_cons]
    cases ok <;> cases act <;> simp [itemAdds, addedTo] <;> omega

/-- **C100, Elasticsearch.**  An answered request is counted once; of its items, those delivered, those refused,
and those refused for each action. -/
theorem C100_elastic_items (items : List (Elastic.Item × Action)) :
    let xs := elasticAdds (.bulk items)
    under "cernan.sinks.elasticsearch.records.delivery" xs = 1 ∧
    under "cernan.sinks.elasticsearch.records.total_delivered" xs = items.countP (·.1.ok) ∧
    under "cernan.sinks.elasticsearch.records.total_failed" xs = items.countP (!·.1.ok) ∧
    under "cernan.sinks.elasticsearch.error.bulk_action.index" xs =
      items.countP (fun i => !i.1.ok && i.2 = .index) ∧
    under "cernan.sinks.elasticsearch.error.bulk_action.create" xs =
      items.countP (fun i => !i.1.ok && i.2 = .create) ∧
    under "cernan.sinks.elasticsearch.error.bulk_action.update" xs =
      items.countP (fun i => !i.1.ok && i.2 = .update) ∧
    under "cernan.sinks.elasticsearch.error.bulk_action.delete" xs =
      items.countP (fun i => !i.1.ok && i.2 = .delete) := by
  intro xs
  obtain ⟨h1, h2, h3, h4, h5, h6, h7⟩ := items_adds items
  rw [under_at 12 "ELASTIC_RECORDS_DELIVERY" rfl, under_at 14 "ELASTIC_RECORDS_TOTAL_DELIVERED" rfl,
    under_at 15 "ELASTIC_RECORDS_TOTAL_FAILED" rfl, under_at 17 "ELASTIC_BULK_ACTION_INDEX_ERR" rfl,
    under_at 18 "ELASTIC_BULK_ACTION_CREATE_ERR" rfl, under_at 19 "ELASTIC_BULK_ACTION_UPDATE_ERR" rfl,
    under_at 20 "ELASTIC_BULK_ACTION_DELETE_ERR" rfl]
  simp only [xs, elasticAdds, addedTo_cons, h1, h2, h3, h4, h5, h6, h7]
  simp

/-- **C100, Elasticsearch.**  A request refused as a whole is counted once under its reason, and under no other
name. -/
theorem C100_elastic_refused (c : Counter) (hc : c ∈ counters) :
    (∀ e, under c.name (elasticAdds (.api e)) = if c.name = apiName e then 1 else 0) ∧
    under c.name (elasticAdds .client) = if c.name = "cernan.sinks.elasticsearch.error.client" then 1 else 0 := by
  have h : ∀ e, ∀ c ∈ counters, addedTo c.atom (elasticAdds (.api e)) = if c.name = apiName e then 1 else 0 := by
    intro e; cases e <;> decide +kernel
  have h' : ∀ c ∈ counters, addedTo c.atom (elasticAdds .client) =
      if c.name = "cernan.sinks.elasticsearch.error.client" then 1 else 0 := by decide +kernel
  exact ⟨fun e => by rw [under_mem c hc]; exact h e c hc, by rw [under_mem c hc]; exact h' c hc⟩

/-- C100 does not hold of requests that cannot be sent: they are counted under no name at all, not even as
client errors. -/
theorem C100_elastic_send_false (name : String) : under name (elasticAdds .sendError) = 0 := under_nil name

/-- Three items, two of them refused. -/
example : under "cernan.sinks.elasticsearch.records.total_failed"
    (elasticAdds (.bulk [(⟨true, some 1⟩, .index), (⟨false, some 2⟩, .index), (⟨false, some 3⟩, .create)])) = 2 := by
  decide +kernel

/-! ## Prometheus -/

/-- **C100, Prometheus.**  A scrape that is answered is counted once, as a success if the answer could be sent and
as an error if not, and one that is not answered under neither name. -/
theorem C100_prometheus_partial (locked text sent : Bool) (nanos : Nat) :
    let xs := prometheusAdds locked nanos text sent
    under "cernan.sinks.prometheus.report.success" xs = (if locked && text && sent then 1 else 0) ∧
    under "cernan.sinks.prometheus.report.error" xs = (if locked && text && !sent then 1 else 0) := by
  intro xs
  rw [under_at 43 "PROMETHEUS_REPORT_SUCCESS" rfl, under_at 44 "PROMETHEUS_REPORT_ERROR" rfl]
  cases locked <;> cases text <;> cases sent <;> simp [xs, prometheusAdds, addedTo]

/-- C100 does not hold of the delays of the Prometheus sink: they are to be in microseconds, and are counted in
tenths of a millisecond. -/
theorem C100_prometheus_delay_false (text sent : Bool) (nanos : Nat) :
    under "cernan.sinks.prometheus.exposition.inside_baseball.delay.sum" (prometheusAdds true nanos text sent) =
      nanos / 1000 / 100 := by
  rw [under_at 41 "PROMETHEUS_RESPONSE_DELAY_SUM" rfl]
  cases text <;> cases sent <;> simp [prometheusAdds, addedTo] <;> omega

end Verif
