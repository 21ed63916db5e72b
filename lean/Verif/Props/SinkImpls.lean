import Verif.Lemmas.SinkImpls
import Verif.Props.Sink
import Verif.Props.Kafka
import Verif.Props.Influxdb
import Verif.Props.Native
import Verif.Props.Elasticsearch
import Verif.Props.Wavefront
/-!
# C85, C86, C87: the sinks under the run-loop

`sources`, `n` and `recv` are arbitrary: any number of upstreams, any number of steps, any sequence of
received events.  A sink's state is `none` once it has panicked or hangs in a flush.
-/
namespace Verif
variable {F : Type} [F64 F]

/-! ## C85: bounded buffers -/

/-- **C85, Elasticsearch.**  At no point does the sink hold more than 10001 lines. -/
theorem C85_elasticsearch (ext : Elastic.Ext) (interval : Nat) (resps : Nat → Elastic.Response)
    (uuids : Nat → Nat) (limit : Nat) (pfx : Option Str) (type : Str) (tags : TagMap)
    (sources n : Nat) (recv : List (Option (Event F))) (h)
    (hs : (SinkRun.steps (elasticImpl ext interval resps uuids) sources n
      { state := some { state := Elastic.init limit pfx type tags }, queue := recv }).state = some h) :
    h.state.buffer.length ≤ 10001 := by
  have hf : ∀ s, (∀ h, s = some h → h.state.buffer.length ≤ 10001) →
      ∀ h, (elasticImpl (F := F) ext interval resps uuids).flush s = some h →
        h.state.buffer.length ≤ 10001 := by
    intro s hP h he
    simp only [elasticImpl, Option.bind_eq_some_iff, Option.map_eq_some_iff] at he
    obtain ⟨g, rfl, ⟨s', o⟩, h1, rfl⟩ := he
    exact Nat.le_trans (Elastic.flush_length h1) (hP g rfl)
  refine SinkRun.always (elasticImpl (F := F) ext interval resps uuids)
    (fun s => ∀ h, s = some h → h.state.buffer.length ≤ 10001) ?_ ?_ ?_ hf (fun s hP _ => hf s hP)
    sources n _ ?_ recv h hs
  · intro s t hP _ h; exact hP h
  · intro s l hP hv h he
    simp only [elasticImpl, Option.map_eq_some_iff] at he
    obtain ⟨g, rfl, rfl⟩ := he
    simp only [elasticImpl, Option.map_some, Option.getD_some, Elastic.valveOpen, Bool.not_eq_true',
      decide_eq_false_iff_not] at hv
    simp only [Elastic.deliverLine, List.length_append, List.length_singleton]
    omega
  · intro s t hP _ h; exact hP h
  · intro h he; simp only [Option.some.injEq] at he; subst he; simp [Elastic.init]

/-- **C85, InfluxDB.**  At no point does the sink hold more than 100001 points. -/
theorem C85_influxdb (ext : Wavefront.Ext F) (interval : Nat) (os : Nat → List Influx.Outcome)
    (tags : TagMap) (sources n : Nat) (recv : List (Option (Event F))) (h)
    (hs : (SinkRun.steps (influxImpl ext interval os) sources n
      { state := some { state := Influx.init tags }, queue := recv }).state = some h) :
    h.state.aggrs.length ≤ 100001 := by
  have hf : ∀ s, (∀ h, s = some h → h.state.aggrs.length ≤ 100001) →
      ∀ h, (influxImpl (F := F) ext interval os).flush s = some h → h.state.aggrs.length ≤ 100001 := by
    intro s hP h he
    simp only [influxImpl, Option.bind_eq_some_iff] at he
    obtain ⟨g, rfl, he⟩ := he
    split at he
    · rename_i s' wire h1
      simp only [Option.some.injEq] at he
      subst he
      simp only [Influx.flush] at h1
      split at h1
      · simp at h1
      · simp only [Option.some.injEq, Prod.mk.injEq] at h1
        rw [← h1.1]
        have := hP g rfl
        simp only
        split
        · simp
        · exact this
    · simp at he
  refine SinkRun.always (influxImpl (F := F) ext interval os)
    (fun s => ∀ h, s = some h → h.state.aggrs.length ≤ 100001) ?_ ?_ ?_ hf (fun s hP _ => hf s hP)
    sources n _ ?_ recv h hs
  · intro s l hP hv h he
    simp only [influxImpl, Option.map_eq_some_iff] at he
    obtain ⟨g, rfl, rfl⟩ := he
    simp only [influxImpl, Option.map_some, Option.getD_some, Influx.valveOpen, Bool.not_eq_true',
      decide_eq_false_iff_not] at hv
    simp only [Influx.deliver, List.length_append, List.length_singleton]
    omega
  · intro s t hP _ h; exact hP h
  · intro s t hP _ h; exact hP h
  · intro h he; simp only [Option.some.injEq] at he; subst he; simp [Influx.init]

/-- **C85, Wavefront.**  At no point does the sink hold more than 10001 aggregated points. -/
theorem C85_wavefront (ext : Wavefront.Ext F) (interval : Nat) (clock : Nat → Int)
    (os : Nat → List Wavefront.Io) (binWidth : Int) (hw : binWidth ≠ 0) (percentiles : List (Str × F))
    (age : Option Nat) (connected : Bool) (pad : Wavefront.PadControl) (tags : TagMap)
    (sources n : Nat) (recv : List (Option (Event F))) (h)
    (hs : (SinkRun.steps (wavefrontImpl ext interval clock os) sources n
      { state := some { state := Wavefront.State.init binWidth percentiles age connected pad tags },
        queue := recv }).state = some h) :
    ∃ pts, h.state.aggrs.iter = some pts ∧ pts.length ≤ 10001 := by
  have hf : ∀ s, (∀ h, s = some h → Few h.state.aggrs 10001) →
      ∀ h, (wavefrontImpl (F := F) ext interval clock os).flush s = some h → Few h.state.aggrs 10001 := by
    intro s hP h he
    simp only [wavefrontImpl, Option.bind_eq_some_iff] at he
    obtain ⟨g, rfl, he⟩ := he
    split at he
    · rename_i s' wire h1
      simp only [Option.some.injEq] at he
      subst he
      simp only [Wavefront.State.flush, Option.map_eq_some_iff] at h1
      obtain ⟨s1, h2, h3⟩ := h1
      have hf := hP g rfl
      have hf1 : Few s1.aggrs 10001 := by
        simp only [Wavefront.State.formatStats] at h2
        split at h2
        · simp at h2
        · split at h2
          · simp at h2
          · simp only [Option.some.injEq] at h2
            rw [← h2]
            exact hf.reset (by omega) _
      have loop : ∀ (now : Int) (script : List Wavefront.Io) (s : Wavefront.State F) (w),
          Few s.aggrs 10001 → Few (s.flushLoop now script w).1.aggrs 10001 := by
        intro now script
        induction script with
        | nil => intro s w h; exact h
        | cons io script ih =>
          intro s w h
          simp only [Wavefront.State.flushLoop]
          split
          · split
            · exact h.reset (by omega) _
            · exact ih _ _ h
          · exact ih _ _ h
      have := loop (clock g.calls) (os g.calls) s1 [] hf1
      rw [h3] at this
      exact this
    · simp at he
  have key : Few h.state.aggrs 10001 := by
    refine SinkRun.always (wavefrontImpl (F := F) ext interval clock os)
      (fun s => ∀ h, s = some h → Few h.state.aggrs 10001) ?_ ?_ ?_ hf (fun s hP _ => hf s hP)
      sources n _ ?_ recv h hs
    · intro s t hP hv h he
      simp only [wavefrontImpl, Option.bind_eq_some_iff, Option.map_eq_some_iff] at he
      obtain ⟨g, rfl, s', h1, rfl⟩ := he
      have hf := hP g rfl
      simp only [wavefrontImpl, Option.map_some, Option.getD_some, Wavefront.State.valveOpen,
        Bool.not_eq_true', decide_eq_false_iff_not] at hv
      have hf' : Few g.state.aggrs 10000 := ⟨hf.wf, hf.width, hf.count, by rw [← hf.count]; omega⟩
      unfold Wavefront.State.deliver at h1
      extract_lets acc at h1
      by_cases ha : acc = true
      · rw [if_pos ha] at h1
        simp only [Option.map_eq_some_iff] at h1
        obtain ⟨a, h1, rfl⟩ := h1
        exact hf'.add (by omega) h1
      · rw [if_neg ha] at h1
        simp only [Option.some.injEq] at h1
        subst h1
        exact hf
    · intro s t hP _ h; exact hP h
    · intro s t hP _ h; exact hP h
    · intro h he; simp only [Option.some.injEq] at he; subst he
      exact ⟨Buckets.Wf.new _, hw, rfl, by simp [Wavefront.State.init, Buckets.new]⟩
  exact ⟨_, Buckets.iter_eq _ key.wf.len, key.few⟩

/-- **C85, Kafka.**  If no message is larger than `b` bytes, there are never more than the configured
maximum plus `b` bytes in flight. -/
theorem C85_kafka (utf8 : Bytes → Bool) (interval : Nat) (topic : Str) (maxBytes b : Nat)
    (script : List (Submission → KOutcome)) (sources n : Nat) (recv : List (Option (Event F)))
    (hb : ∀ r, .raw r ∈ arrivals recv → r.bytes.length ≤ b) (k)
    (hs : (SinkRun.steps (kafkaImpl utf8 interval) sources n
      { state := some { topicName := topic, maxMessageBytes := maxBytes, script := script },
        queue := recv }).state = some k) :
    (k.messages.map (·.sub.payload.length)).sum ≤ maxBytes + b := by
  -- messages beyond `b` bytes never arrive: work with a sink that stops on them
  have hsplit := C24_delivered_once_in_order (kafkaImpl (F := F) utf8 interval) (some interval)
    (fun _ => rfl) sources n (some { topicName := topic, maxMessageBytes := maxBytes, script := script }) recv
  have h := SinkRun.induction (kafkaImpl (F := F) utf8 interval)
    (fun s d => (∀ r, .raw r ∈ d → r.bytes.length ≤ b) → ∀ k, s = some k → k.maxMessageBytes = maxBytes ∧
      (k.messages.map (·.sub.payload.length)).sum = k.messageBytes ∧ k.messageBytes ≤ maxBytes + b)
    (fun s d => (∀ r, .raw r ∈ d → r.bytes.length ≤ b) → ∀ k, s = some k →
      (k.messages.map (·.sub.payload.length)).sum ≤ maxBytes + b)
    (fun s d t hP _ hd => hP (fun r hr => hd r (List.mem_append_left _ hr)))
    (fun s d t hP _ hd => hP (fun r hr => hd r (List.mem_append_left _ hr))) ?_ ?_ ?_ sources n
    (some { topicName := topic, maxMessageBytes := maxBytes, script := script }) ?_ recv
  · simp only at h hsplit
    have hd : ∀ r, .raw r ∈ deliveredBy (SinkRun.steps (kafkaImpl (F := F) utf8 interval) sources n
        { state := some { topicName := topic, maxMessageBytes := maxBytes, script := script },
          queue := recv }).calls → r.bytes.length ≤ b := by
      intro r hr
      refine hb r ?_
      have : Event.raw r ∈ (arrivals recv).filter Event.isPayload := by
        rw [hsplit.1]; exact List.mem_append_left _ hr
      exact (List.mem_filter.1 this).1
    cases hret : (SinkRun.steps (kafkaImpl (F := F) utf8 interval) sources n
        { state := some { topicName := topic, maxMessageBytes := maxBytes, script := script },
          queue := recv }).returned with
    | false => obtain ⟨-, h1, h2⟩ := h.1 hret hd k hs; omega
    | true => exact h.2 hret hd k hs
  · intro s d t hP hv hd k' he
    simp only [kafkaImpl, Option.bind_eq_some_iff] at he
    obtain ⟨g, rfl, he⟩ := he
    obtain ⟨h1, h2, h3⟩ := hP (fun r hr => hd r (List.mem_append_left _ hr)) g rfl
    have ht := hd t (by simp)
    simp only [kafkaImpl, Option.map_some, Option.getD_some, Kafka.valveOpen, decide_eq_true_eq] at hv
    simp only [Kafka.deliverRaw, Kafka.tryPayload] at he
    split at he
    · simp only [Option.map_some, Option.some.injEq] at he
      subst he
      simp only [List.map_append, List.sum_append, List.map_cons, List.map_nil, List.sum_cons, List.sum_nil]
      refine ⟨h1, by omega, by omega⟩
    · simp at he
  · intro s d hP hd k' he
    simp only [kafkaImpl, Option.bind_eq_some_iff] at he
    obtain ⟨g, rfl, he⟩ := he
    obtain ⟨h1, -⟩ := hP hd g rfl
    obtain ⟨h2, h3, -⟩ := C27_flush_accounts utf8 g k' he
    refine ⟨?_, by simp [h2, h3], by omega⟩
    rw [← h1]; exact Kafka.flush_max he
  · intro s d hP _ hd k' he
    simp only [kafkaImpl, Option.bind_eq_some_iff] at he
    obtain ⟨g, rfl, he⟩ := he
    obtain ⟨h2, -⟩ := C27_flush_accounts utf8 g k' he
    simp [h2]
  · intro _ k' he; simp only [Option.some.injEq] at he; subst he; simp

/-! The bounds are exact: the sinks do accept that much before they flush. -/

/-- Two steps deliver one event to a sink with an open valve. -/
private theorem two_steps {σ : Type} (k : SinkImpl F σ) (sources : Nat) (s : σ) (e : Event F)
    (q : List (Option (Event F))) (cs) (hv : k.valveOpen s = true) (he : e.isPayload = true) :
    ∃ cs', SinkRun.step k sources (SinkRun.step k sources
      { state := s, queue := some e :: q, calls := cs }) =
      { state := (match e with
          | .telemetry t => k.deliver s t
          | .log l => k.deliverLine s l
          | .raw r => k.deliverRaw s r
          | _ => s), queue := q, calls := cs' } := by
  cases e with
  | timerFlush _ => simp [Event.isPayload] at he
  | shutdown => simp [Event.isPayload] at he
  | telemetry t => exact ⟨_, by simp [SinkRun.step, SinkRun.handle, hv]; rfl⟩
  | log l => exact ⟨_, by simp [SinkRun.step, SinkRun.handle, hv]; rfl⟩
  | raw r => exact ⟨_, by simp [SinkRun.step, SinkRun.handle, hv]; rfl⟩

/-- **C85, Elasticsearch, exactness.**  Any number of lines up to 10001 can be waiting at once: the
sink does not flush early. -/
theorem C85_elasticsearch_exact (ext : Elastic.Ext) (interval : Nat) (resps : Nat → Elastic.Response)
    (uuids : Nat → Nat) (limit : Nat) (pfx : Option Str) (type : Str) (tags : TagMap)
    (sources : Nat) (lines : List LogLine) (hn : lines.length ≤ 10001) :
    ∃ h, (SinkRun.steps (elasticImpl (F := F) ext interval resps uuids) sources (2 * lines.length)
      { state := some { state := Elastic.init limit pfx type tags },
        queue := lines.map fun l => some (.log l) }).state = some h ∧
      h.state.buffer.map (·.line) = lines ∧ h.log = [] := by
  have key : ∀ (lines : List LogLine) (h : Hosted Elastic.State (List Elastic.Line × Elastic.Response))
      (cs), h.state.buffer.length + lines.length ≤ 10001 → h.log = [] →
      ∃ h', (SinkRun.steps (elasticImpl (F := F) ext interval resps uuids) sources (2 * lines.length)
        { state := some h, queue := lines.map fun l => some (.log l), calls := cs }).state = some h' ∧
        h'.state.buffer.map (·.line) = h.state.buffer.map (·.line) ++ lines ∧ h'.log = [] := by
    intro lines
    induction lines with
    | nil => intro h cs _ hl; exact ⟨h, rfl, by simp, hl⟩
    | cons l lines ih =>
      intro h cs hb hl
      rw [List.length_cons] at hb
      have hv : (elasticImpl (F := F) ext interval resps uuids).valveOpen (some h) = true := by
        simp only [elasticImpl, Option.map_some, Option.getD_some, Elastic.valveOpen, Bool.not_eq_true',
          decide_eq_false_iff_not]
        omega
      obtain ⟨cs', h2⟩ := two_steps (elasticImpl (F := F) ext interval resps uuids) sources (some h)
        (.log l) (lines.map fun l => some (.log l)) cs hv rfl
      obtain ⟨h', i1, i2, i3⟩ := ih
        { h with state := Elastic.deliverLine h.state (uuids h.calls) l, calls := h.calls + 1 } cs'
        (by simp only [Elastic.deliverLine, List.length_append, List.length_singleton]; omega) hl
      refine ⟨h', ?_, ?_, i3⟩
      · rw [← i1]
        have hlen : 2 * (l :: lines).length = 2 * lines.length + 1 + 1 := by simp; omega
        simp only [hlen, SinkRun.steps, List.map_cons]
        rw [h2]
        rfl
      · rw [i2]; simp [Elastic.deliverLine]
  obtain ⟨h, h1, h2, h3⟩ := key lines { state := Elastic.init limit pfx type tags } []
    (by simpa [Elastic.init] using hn) rfl
  exact ⟨h, h1, by simpa [Elastic.init] using h2, h3⟩

/-- **C85, InfluxDB, exactness.** -/
theorem C85_influxdb_exact (ext : Wavefront.Ext F) (interval : Nat) (os : Nat → List Influx.Outcome)
    (tags : TagMap) (sources : Nat) (pts : List (Telemetry F)) (hn : pts.length ≤ 100001) :
    ∃ h, (SinkRun.steps (influxImpl ext interval os) sources (2 * pts.length)
      { state := some { state := Influx.init tags },
        queue := pts.map fun t => some (.telemetry t) }).state = some h ∧
      h.state.aggrs = pts ∧ h.log = [] := by
  have key : ∀ (pts : List (Telemetry F))
      (h : Hosted (Influx.State F) (List (Telemetry F) × List Influx.Wire))
      (cs), h.state.aggrs.length + pts.length ≤ 100001 → h.log = [] →
      ∃ h', (SinkRun.steps (influxImpl ext interval os) sources (2 * pts.length)
        { state := some h, queue := pts.map fun t => some (.telemetry t), calls := cs }).state = some h' ∧
        h'.state.aggrs = h.state.aggrs ++ pts ∧ h'.log = [] := by
    intro pts
    induction pts with
    | nil => intro h cs _ hl; exact ⟨h, rfl, by simp, hl⟩
    | cons t pts ih =>
      intro h cs hb hl
      rw [List.length_cons] at hb
      have hv : (influxImpl ext interval os).valveOpen (some h) = true := by
        simp only [influxImpl, Option.map_some, Option.getD_some, Influx.valveOpen, Bool.not_eq_true',
          decide_eq_false_iff_not]
        omega
      obtain ⟨cs', h2⟩ := two_steps (influxImpl ext interval os) sources (some h)
        (.telemetry t) (pts.map fun t => some (.telemetry t)) cs hv rfl
      obtain ⟨h', i1, i2, i3⟩ := ih
        { h with state := Influx.deliver h.state t, calls := h.calls + 1 } cs'
        (by simp only [Influx.deliver, List.length_append, List.length_singleton]; omega) hl
      refine ⟨h', ?_, ?_, i3⟩
      · rw [← i1]
        have hlen : 2 * (t :: pts).length = 2 * pts.length + 1 + 1 := by simp; omega
        simp only [hlen, SinkRun.steps, List.map_cons]
        rw [h2]
        rfl
      · rw [i2]; simp [Influx.deliver]
  obtain ⟨h, h1, h2, h3⟩ := key pts { state := Influx.init tags } [] (by simpa [Influx.init] using hn) rfl
  exact ⟨h, h1, by simpa [Influx.init] using h2, h3⟩

/-- **C85 is false of the native sink**: it never closes its valve, so between flushes it holds whatever
arrives.  No bound holds. -/
theorem C85_native_false (bits : Native.Bits F) (interval : Nat) (os : Nat → List Bool)
    (connected : Bool) (tags : TagMap) (sources bound : Nat) (l : LogLine) :
    ∃ n recv h, (SinkRun.steps (nativeImpl bits interval os) sources n
      { state := some { state := { connected := connected, tags := tags } }, queue := recv }).state = some h ∧
      bound < h.state.buffer.length := by
  have key : ∀ (m : Nat) (h : Hosted (Native.Sink F) (List (Event F) × List Native.Act)) (cs),
      ∃ h', (SinkRun.steps (nativeImpl bits interval os) sources (2 * m)
        { state := some h, queue := List.replicate m (some (.log l)), calls := cs }).state = some h' ∧
        h'.state.buffer.length = h.state.buffer.length + m := by
    intro m
    induction m with
    | zero => intro h cs; exact ⟨h, rfl, rfl⟩
    | succ m ih =>
      intro h cs
      obtain ⟨cs', h2⟩ := two_steps (nativeImpl bits interval os) sources (some h)
        (.log l) (List.replicate m (some (.log l))) cs rfl rfl
      obtain ⟨h', i1, i2⟩ := ih { h with state := h.state.deliver (.log l), calls := h.calls + 1 } cs'
      refine ⟨h', ?_, ?_⟩
      · rw [← i1]
        have hlen : 2 * (m + 1) = 2 * m + 1 + 1 := by omega
        simp only [hlen, SinkRun.steps, List.replicate_succ]
        rw [h2]
        rfl
      · rw [i2]; simp [Native.Sink.deliver]; omega
  obtain ⟨h, h1, h2⟩ := key (bound + 1) { state := { connected := connected, tags := tags } } []
  exact ⟨_, _, h, h1, by rw [h2]; simp⟩

/-- **C85 is false of the console sink** for the same reason. -/
theorem C85_console_false (ext : Console.Ext F) (interval : Nat) (clock : Nat → Int)
    (stamps : Nat → Str × Str) (binWidth : Int) (tags : TagMap) (sources bound : Nat) (l : LogLine) :
    ∃ n recv h, (SinkRun.steps (consoleImpl ext interval clock stamps) sources n
      { state := some { state := Console.init binWidth tags }, queue := recv }).state = some h ∧
      bound < h.state.buffer.length := by
  have key : ∀ (m : Nat) (h : Hosted (Console.State F) (List LogLine × Str)) (cs),
      ∃ h', (SinkRun.steps (consoleImpl ext interval clock stamps) sources (2 * m)
        { state := some h, queue := List.replicate m (some (.log l)), calls := cs }).state = some h' ∧
        h'.state.buffer.length = h.state.buffer.length + m := by
    intro m
    induction m with
    | zero => intro h cs; exact ⟨h, rfl, rfl⟩
    | succ m ih =>
      intro h cs
      obtain ⟨cs', h2⟩ := two_steps (consoleImpl ext interval clock stamps) sources (some h)
        (.log l) (List.replicate m (some (.log l))) cs rfl rfl
      obtain ⟨h', i1, i2⟩ := ih { h with state := Console.deliverLine h.state l } cs'
      refine ⟨h', ?_, ?_⟩
      · rw [← i1]
        have hlen : 2 * (m + 1) = 2 * m + 1 + 1 := by omega
        simp only [hlen, SinkRun.steps, List.replicate_succ]
        rw [h2]
        rfl
      · rw [i2]; simp [Console.deliverLine]; omega
  obtain ⟨h, h1, h2⟩ := key (bound + 1) { state := Console.init binWidth tags } []
  exact ⟨_, _, h, h1, by rw [h2]; simp; omega⟩

/-! ## C86: written out by the time the sink has shut down -/

theorem pointsIn_payload (es : List (Event F)) :
    pointsIn (es.filter Event.isPayload) = pointsIn es := by
  induction es with
  | nil => rfl
  | cons e es ih => cases e <;> simp_all [pointsIn, Event.isPayload, List.filter_cons]

theorem linesIn_payload (es : List (Event F)) :
    linesIn (es.filter Event.isPayload) = linesIn es := by
  induction es with
  | nil => rfl
  | cons e es ih => cases e <;> simp_all [linesIn, Event.isPayload, List.filter_cons]

private theorem rawsIn_payload (es : List (Event F)) :
    rawsIn (es.filter Event.isPayload) = rawsIn es := by
  induction es with
  | nil => rfl
  | cons e es ih => cases e <;> simp_all [rawsIn, Event.isPayload, List.filter_cons]

private theorem pointOrLine_payload (es : List (Event F)) :
    (es.filter Event.isPayload).filter Event.isPointOrLine = es.filter Event.isPointOrLine := by
  induction es with
  | nil => rfl
  | cons e es ih => cases e <;> simp_all [Event.isPointOrLine, Event.isPayload, List.filter_cons]

private theorem influx_done (payload : Str) : ∀ (os : List Influx.Outcome) (a : Nat),
    (Influx.flushLoop payload a os).2.2 = true →
    (Influx.flushLoop payload a os).2.1.getLast? = some (.post payload) := by
  intro os
  induction os with
  | nil => intro a h; simp [Influx.flushLoop] at h
  | cons o os ih =>
    intro a h
    cases o <;> simp only [Influx.flushLoop] at h ⊢
    · have := ih _ h; simp [List.getLast?_cons, this]
    · simp
    · have := ih _ h; simp [List.getLast?_cons, this]
    · have := ih _ h; simp [List.getLast?_cons, this]
    · have := ih _ h; simp [List.getLast?_cons, this]

/-- **C86, InfluxDB.**  When the sink has returned, the points of its flushes are, in order, exactly the
points that arrived before the first `Shutdown`, and each of those flushes ended with a POST of the text
of its points. -/
theorem C86_influxdb (ext : Wavefront.Ext F) (interval : Nat) (os : Nat → List Influx.Outcome)
    (tags : TagMap) (sources n : Nat) (recv : List (Option (Event F))) (h)
    (hret : (SinkRun.steps (influxImpl ext interval os) sources n
      { state := some { state := Influx.init tags }, queue := recv }).returned = true)
    (hs : (SinkRun.steps (influxImpl ext interval os) sources n
      { state := some { state := Influx.init tags }, queue := recv }).state = some h) :
    h.log.flatMap (·.1) = pointsIn (untilShutdown (arrivals recv)) ∧
    ∀ b ∈ h.log, ∃ text, Influx.formatStats ext tags b.1 = some text ∧
      b.2.getLast? = some (.post text) := by
  have hf : ∀ (s : Option (Hosted (Influx.State F) (List (Telemetry F) × List Influx.Wire)))
      (d : List (Event F)),
      (∀ h, s = some h → h.state.tags = tags ∧ h.log.flatMap (·.1) ++ h.state.aggrs = pointsIn d ∧
        ∀ b ∈ h.log, ∃ text, Influx.formatStats ext tags b.1 = some text ∧
          b.2.getLast? = some (.post text)) →
      ∀ h, (influxImpl ext interval os).flush s = some h →
        h.state.tags = tags ∧ h.state.aggrs = [] ∧ h.log.flatMap (·.1) = pointsIn d ∧
        ∀ b ∈ h.log, ∃ text, Influx.formatStats ext tags b.1 = some text ∧
          b.2.getLast? = some (.post text) := by
    intro s d hP h he
    simp only [influxImpl, Option.bind_eq_some_iff] at he
    obtain ⟨g, rfl, he⟩ := he
    obtain ⟨p1, p2, p3⟩ := hP g rfl
    split at he
    · rename_i s' wire h1
      simp only [Option.some.injEq] at he
      subst he
      simp only [Influx.flush] at h1
      split at h1
      · simp at h1
      · rename_i payload hp
        rcases hl : Influx.flushLoop payload g.state.attempts (os g.calls) with ⟨a, w, d'⟩
        simp only [hl, Option.some.injEq, Prod.mk.injEq] at h1
        obtain ⟨rfl, rfl, rfl⟩ := h1
        have hlast := influx_done payload (os g.calls) g.state.attempts (by rw [hl])
        rw [hl] at hlast
        refine ⟨p1, by simp, by simpa using p2, ?_⟩
        intro b hb
        rcases List.mem_append.1 hb with hb | hb
        · exact p3 b hb
        · simp only [List.mem_singleton] at hb
          subst hb
          exact ⟨payload, by rw [← p1]; exact hp, hlast⟩
    · simp at he
  have hind := SinkRun.induction (influxImpl ext interval os)
    (fun s d => ∀ h, s = some h → h.state.tags = tags ∧ h.log.flatMap (·.1) ++ h.state.aggrs = pointsIn d ∧
      ∀ b ∈ h.log, ∃ text, Influx.formatStats ext tags b.1 = some text ∧ b.2.getLast? = some (.post text))
    (fun s d => ∀ h, s = some h → h.log.flatMap (·.1) = pointsIn d ∧
      ∀ b ∈ h.log, ∃ text, Influx.formatStats ext tags b.1 = some text ∧ b.2.getLast? = some (.post text))
    ?_ ?_ ?_ ?_ ?_ sources n (some { state := Influx.init tags }) ?_ recv
  · have := hind.2 hret h hs
    rw [delivered_at_return (influxImpl ext interval os) (some interval) (fun _ => rfl) sources n _ recv hret,
      pointsIn_payload] at this
    exact this
  · intro s d t hP _ h he
    simp only [influxImpl, Option.map_eq_some_iff] at he
    obtain ⟨g, rfl, rfl⟩ := he
    obtain ⟨p1, p2, p3⟩ := hP g rfl
    refine ⟨p1, ?_, p3⟩
    simp only [pointsIn] at p2 ⊢
    rw [List.filterMap_append, ← p2]
    simp [Influx.deliver]
  · intro s d t hP _ h he
    obtain ⟨p1, p2, p3⟩ := hP h he
    exact ⟨p1, by simp only [pointsIn] at p2 ⊢; rw [List.filterMap_append, p2]; simp, p3⟩
  · intro s d t hP _ h he
    obtain ⟨p1, p2, p3⟩ := hP h he
    exact ⟨p1, by simp only [pointsIn] at p2 ⊢; rw [List.filterMap_append, p2]; simp, p3⟩
  · intro s d hP h he
    obtain ⟨q1, q2, q3, q4⟩ := hf s d hP h he
    exact ⟨q1, by rw [q2, List.append_nil, q3], q4⟩
  · intro s d hP _ h he
    exact (hf s d hP h he).2.2
  · intro h he; simp only [Option.some.injEq] at he; subst he; simp [Influx.init, pointsIn]

/-- **C86, native.**  When the sink has returned, the batches of its flushes are, in order, exactly the
points and lines that arrived before the first `Shutdown`, and each flush ended with a write of its
batch. -/
theorem C86_native (bits : Native.Bits F) (interval : Nat) (os : Nat → List Bool) (connected : Bool)
    (tags : TagMap) (sources n : Nat) (recv : List (Option (Event F))) (h)
    (hret : (SinkRun.steps (nativeImpl bits interval os) sources n
      { state := some { state := { connected := connected, tags := tags } }, queue := recv }).returned = true)
    (hs : (SinkRun.steps (nativeImpl bits interval os) sources n
      { state := some { state := { connected := connected, tags := tags } }, queue := recv }).state = some h) :
    h.log.flatMap (·.1) = (untilShutdown (arrivals recv)).filter Event.isPointOrLine ∧
    ∀ b ∈ h.log, ∃ bs, Native.FlushWrites bits tags b.1 bs ∧ b.2.getLast? = some (.write bs) := by
  have hf : ∀ (s : Option (Hosted (Native.Sink F) (List (Event F) × List Native.Act)))
      (d : List (Event F)),
      (∀ h, s = some h → h.state.tags = tags ∧
        h.log.flatMap (·.1) ++ h.state.buffer = d.filter Event.isPointOrLine ∧
        ∀ b ∈ h.log, ∃ bs, Native.FlushWrites bits tags b.1 bs ∧ b.2.getLast? = some (.write bs)) →
      ∀ h, (nativeImpl bits interval os).flush s = some h →
        h.state.tags = tags ∧ h.state.buffer = [] ∧
        h.log.flatMap (·.1) = d.filter Event.isPointOrLine ∧
        ∀ b ∈ h.log, ∃ bs, Native.FlushWrites bits tags b.1 bs ∧ b.2.getLast? = some (.write bs) := by
    intro s d hP h he
    simp only [nativeImpl, Option.bind_eq_some_iff] at he
    obtain ⟨g, rfl, he⟩ := he
    obtain ⟨p1, p2, p3⟩ := hP g rfl
    split at he
    · rename_i s' acts h1
      simp only [Option.some.injEq] at he
      subst he
      obtain ⟨s2, a2, d2, e1, e2, e3, e4, e5⟩ := C80_flush bits g.state (os g.calls)
        (Native.wire (Native.payloadOf bits g.state.tags g.state.buffer))
        (by simp [Native.FlushWrites, Native.Sink.flush, Native.flushLoop])
      rw [h1] at e1
      simp only [Prod.mk.injEq] at e1
      obtain ⟨rfl, rfl, rfl⟩ := e1
      refine ⟨by rw [e3, p1], e2, by simpa using p2, ?_⟩
      intro b hb
      rcases List.mem_append.1 hb with hb | hb
      · exact p3 b hb
      · simp only [List.mem_singleton] at hb
        subst hb
        refine ⟨_, ?_, (e5 rfl).1⟩
        rw [p1]
        simp [Native.FlushWrites, Native.Sink.flush, Native.flushLoop]
    · simp at he
  have hind := SinkRun.induction (nativeImpl bits interval os)
    (fun s d => ∀ h, s = some h → h.state.tags = tags ∧
      h.log.flatMap (·.1) ++ h.state.buffer = d.filter Event.isPointOrLine ∧
      ∀ b ∈ h.log, ∃ bs, Native.FlushWrites bits tags b.1 bs ∧ b.2.getLast? = some (.write bs))
    (fun s d => ∀ h, s = some h → h.log.flatMap (·.1) = d.filter Event.isPointOrLine ∧
      ∀ b ∈ h.log, ∃ bs, Native.FlushWrites bits tags b.1 bs ∧ b.2.getLast? = some (.write bs))
    ?_ ?_ ?_ ?_ ?_ sources n (some { state := { connected := connected, tags := tags } }) ?_ recv
  · have := hind.2 hret h hs
    rw [delivered_at_return (nativeImpl bits interval os) (some interval) (fun _ => rfl) sources n _ recv hret,
      pointOrLine_payload] at this
    exact this
  · intro s d t hP _ h he
    simp only [nativeImpl, Option.map_eq_some_iff] at he
    obtain ⟨g, rfl, rfl⟩ := he
    obtain ⟨p1, p2, p3⟩ := hP g rfl
    refine ⟨p1, ?_, p3⟩
    rw [List.filter_append, ← p2]
    simp [Native.Sink.deliver, Event.isPointOrLine, List.filter_cons]
  · intro s d t hP _ h he
    simp only [nativeImpl, Option.map_eq_some_iff] at he
    obtain ⟨g, rfl, rfl⟩ := he
    obtain ⟨p1, p2, p3⟩ := hP g rfl
    refine ⟨p1, ?_, p3⟩
    rw [List.filter_append, ← p2]
    simp [Native.Sink.deliver, Event.isPointOrLine, List.filter_cons]
  · intro s d t hP _ h he
    obtain ⟨p1, p2, p3⟩ := hP h he
    exact ⟨p1, by rw [List.filter_append, p2]; simp [Event.isPointOrLine], p3⟩
  · intro s d hP h he
    obtain ⟨q1, q2, q3, q4⟩ := hf s d hP h he
    exact ⟨q1, by rw [q2, List.append_nil, q3], q4⟩
  · intro s d hP _ h he
    exact (hf s d hP h he).2.2
  · intro h he; simp only [Option.some.injEq] at he; subst he; simp

/-- **C86, Kafka.**  When the sink has returned, nothing is in flight; for every connection id (and for
messages without one) as many messages reached a final outcome as raw events with that id arrived before
the first `Shutdown`; and each connection was acknowledged that often. -/
theorem C86_kafka (utf8 : Bytes → Bool) (interval : Nat) (topic : Str) (maxBytes : Nat)
    (script : List (Submission → KOutcome)) (sources n : Nat) (recv : List (Option (Event F))) (k)
    (hret : (SinkRun.steps (kafkaImpl utf8 interval) sources n
      { state := some { topicName := topic, maxMessageBytes := maxBytes, script := script },
        queue := recv }).returned = true)
    (hs : (SinkRun.steps (kafkaImpl utf8 interval) sources n
      { state := some { topicName := topic, maxMessageBytes := maxBytes, script := script },
        queue := recv }).state = some k) :
    k.messages = [] ∧
    (∀ o, (Kafka.finals k.trace).count o =
      ((rawsIn (untilShutdown (arrivals recv))).map (·.connectionId)).count o) ∧
    ∀ c : Nat, (Kafka.acks k.trace).count c =
      ((rawsIn (untilShutdown (arrivals recv))).map (·.connectionId)).count (some c) := by
  have hf : ∀ (s : Option Kafka) (d : List (Event F)),
      (∀ k, s = some k →
        (∀ o, (Kafka.finals k.trace).count o + (k.messages.map (·.sub.connectionId)).count o =
          ((rawsIn d).map (·.connectionId)).count o) ∧
        ∀ c : Nat, (Kafka.acks k.trace).count c + (k.messages.map (·.sub.connectionId)).count (some c) =
          ((rawsIn d).map (·.connectionId)).count (some c)) →
      ∀ k, (kafkaImpl (F := F) utf8 interval).flush s = some k → k.messages = [] ∧
        (∀ o, (Kafka.finals k.trace).count o = ((rawsIn d).map (·.connectionId)).count o) ∧
        ∀ c : Nat, (Kafka.acks k.trace).count c = ((rawsIn d).map (·.connectionId)).count (some c) := by
    intro s d hP k he
    simp only [kafkaImpl, Option.bind_eq_some_iff] at he
    obtain ⟨g, rfl, he⟩ := he
    obtain ⟨p1, p2⟩ := hP g rfl
    obtain ⟨h1, -, es, h2, h3, -⟩ := C27_flush_accounts utf8 g k he
    obtain ⟨es', h4, h5, -⟩ := C28_acks_exactly_once utf8 g k he
    rw [h2, List.append_cancel_left_eq] at h4
    subst h4
    refine ⟨h1, fun o => ?_, fun c => ?_⟩
    · rw [h2, Kafka.finals_append, List.count_append, h3, p1]
    · rw [h2, Kafka.acks_append, List.count_append, h5, p2]
  have hind := SinkRun.induction (kafkaImpl (F := F) utf8 interval)
    (fun s d => ∀ k, s = some k →
        (∀ o, (Kafka.finals k.trace).count o + (k.messages.map (·.sub.connectionId)).count o =
          ((rawsIn d).map (·.connectionId)).count o) ∧
        ∀ c : Nat, (Kafka.acks k.trace).count c + (k.messages.map (·.sub.connectionId)).count (some c) =
          ((rawsIn d).map (·.connectionId)).count (some c))
    (fun s d => ∀ k, s = some k → k.messages = [] ∧
        (∀ o, (Kafka.finals k.trace).count o = ((rawsIn d).map (·.connectionId)).count o) ∧
        ∀ c : Nat, (Kafka.acks k.trace).count c = ((rawsIn d).map (·.connectionId)).count (some c))
    ?_ ?_ ?_ ?_ ?_ sources n (some { topicName := topic, maxMessageBytes := maxBytes, script := script })
    ?_ recv
  · have := hind.2 hret k hs
    rw [delivered_at_return (kafkaImpl (F := F) utf8 interval) (some interval) (fun _ => rfl) sources n _
      recv hret, rawsIn_payload] at this
    exact this
  · intro s d t hP _ h he
    have := hP h he
    simp only [rawsIn] at this ⊢
    rw [List.filterMap_append]; simpa using this
  · intro s d t hP _ h he
    have := hP h he
    simp only [rawsIn] at this ⊢
    rw [List.filterMap_append]; simpa using this
  · intro s d t hP _ k' he
    simp only [kafkaImpl, Option.bind_eq_some_iff] at he
    obtain ⟨g, rfl, he⟩ := he
    obtain ⟨p1, p2⟩ := hP g rfl
    simp only [Kafka.deliverRaw, Kafka.tryPayload] at he
    split at he
    · simp only [Option.map_some, Option.some.injEq] at he
      subst he
      simp only [rawsIn] at p1 p2 ⊢
      refine ⟨fun o => ?_, fun c => ?_⟩
      · have := p1 o
        simp only [Kafka.finals_append, List.filterMap_append, List.map_append, List.count_append]
        simp only [Kafka.finals, List.filterMap_cons, List.filterMap_nil, List.map_cons, List.map_nil,
          List.count_nil] at this ⊢
        omega
      · have := p2 c
        simp only [Kafka.acks_append, List.filterMap_append, List.map_append, List.count_append]
        simp only [Kafka.acks, List.filterMap_cons, List.filterMap_nil, List.map_cons, List.map_nil,
          List.count_nil] at this ⊢
        omega
    · simp at he
  · intro s d hP k he
    obtain ⟨q1, q2, q3⟩ := hf s d hP k he
    exact ⟨fun o => by rw [q1, q2]; rfl, fun c => by rw [q1, q3]; rfl⟩
  · intro s d hP _ k he
    exact hf s d hP k he
  · intro k he; simp only [Option.some.injEq] at he; subst he
    simp [rawsIn, Kafka.finals, Kafka.acks]

private theorem infix_mid (a b c d : Str) : c <:+: a ++ (b ++ (c ++ d)) :=
  ⟨a ++ b, d, by simp⟩

theorem printLines_each (ext : Console.Ext F) (tags : TagMap) : ∀ (ls : List LogLine) (text : Str),
    Console.printLines ext tags ls = some text →
    ∃ parts : List Str, ls.map (Console.printLine ext tags) = parts.map some ∧ text = parts.flatten := by
  intro ls
  induction ls with
  | nil => intro text h; simp only [Console.printLines, Option.some.injEq] at h; exact ⟨[], rfl, h.symm⟩
  | cons l ls ih =>
    intro text h
    simp only [Console.printLines] at h
    split at h
    · rename_i a b ha hb
      simp only [Option.some.injEq] at h
      obtain ⟨parts, h1, h2⟩ := ih b hb
      exact ⟨a :: parts, by simp [h1, ha], by simp [← h, h2]⟩
    · simp at h

/-- **C86, console.**  When the sink has returned, the lines of its flushes are, in order, exactly the lines
that arrived before the first `Shutdown`, and the text of each flush contains the texts of its lines, one
after the other. -/
theorem C86_console (ext : Console.Ext F) (interval : Nat) (clock : Nat → Int)
    (stamps : Nat → Str × Str) (binWidth : Int) (tags : TagMap)
    (sources n : Nat) (recv : List (Option (Event F))) (h)
    (hret : (SinkRun.steps (consoleImpl ext interval clock stamps) sources n
      { state := some { state := Console.init binWidth tags }, queue := recv }).returned = true)
    (hs : (SinkRun.steps (consoleImpl ext interval clock stamps) sources n
      { state := some { state := Console.init binWidth tags }, queue := recv }).state = some h) :
    h.log.flatMap (·.1) = linesIn (untilShutdown (arrivals recv)) ∧
    ∀ b ∈ h.log, ∃ parts : List Str, b.1.map (Console.printLine ext tags) = parts.map some ∧ parts.flatten <:+: b.2 := by
  have hf : ∀ (s : Option (Hosted (Console.State F) (List LogLine × Str))) (d : List (Event F)),
      (∀ h, s = some h → h.state.tags = tags ∧ h.log.flatMap (·.1) ++ h.state.buffer = linesIn d ∧
        ∀ b ∈ h.log, ∃ parts : List Str, b.1.map (Console.printLine ext tags) = parts.map some ∧
          parts.flatten <:+: b.2) →
      ∀ h, (consoleImpl ext interval clock stamps).flush s = some h →
        h.state.tags = tags ∧ h.state.buffer = [] ∧ h.log.flatMap (·.1) = linesIn d ∧
        ∀ b ∈ h.log, ∃ parts : List Str, b.1.map (Console.printLine ext tags) = parts.map some ∧
          parts.flatten <:+: b.2 := by
    intro s d hP h he
    simp only [consoleImpl, Option.bind_eq_some_iff, Option.map_eq_some_iff] at he
    obtain ⟨g, rfl, ⟨s', text⟩, h1, rfl⟩ := he
    obtain ⟨p1, p2, p3⟩ := hP g rfl
    simp only [Console.flush] at h1
    split at h1
    · rename_i lines pts hl hi
      simp only [Option.some.injEq, Prod.mk.injEq] at h1
      obtain ⟨rfl, h1⟩ := h1
      refine ⟨p1, rfl, by simpa using p2, ?_⟩
      intro b hb
      rcases List.mem_append.1 hb with hb | hb
      · exact p3 b hb
      · simp only [List.mem_singleton] at hb
        subst hb
        rw [p1] at hl
        obtain ⟨parts, q1, q2⟩ := printLines_each ext tags _ _ hl
        refine ⟨parts, q1, ?_⟩
        rw [← q2]
        simp only [← h1, List.append_assoc]
        rw [← List.append_assoc (stamps g.calls).1]
        exact infix_mid _ _ _ _
    · simp at h1
  have hind := SinkRun.induction (consoleImpl ext interval clock stamps)
    (fun s d => ∀ h, s = some h → h.state.tags = tags ∧
      h.log.flatMap (·.1) ++ h.state.buffer = linesIn d ∧
      ∀ b ∈ h.log, ∃ parts : List Str, b.1.map (Console.printLine ext tags) = parts.map some ∧ parts.flatten <:+: b.2)
    (fun s d => ∀ h, s = some h → h.log.flatMap (·.1) = linesIn d ∧
      ∀ b ∈ h.log, ∃ parts : List Str, b.1.map (Console.printLine ext tags) = parts.map some ∧ parts.flatten <:+: b.2)
    ?_ ?_ ?_ ?_ ?_ sources n (some { state := Console.init binWidth tags }) ?_ recv
  · have := hind.2 hret h hs
    rw [delivered_at_return (consoleImpl ext interval clock stamps) (some interval) (fun _ => rfl) sources n
      _ recv hret, linesIn_payload] at this
    exact this
  · intro s d t hP _ h he
    simp only [consoleImpl, Option.bind_eq_some_iff, Option.map_eq_some_iff, Console.deliver] at he
    obtain ⟨g, rfl, s', ⟨a, -, rfl⟩, rfl⟩ := he
    obtain ⟨p1, p2, p3⟩ := hP g rfl
    exact ⟨p1, by simp only [linesIn] at p2 ⊢; rw [List.filterMap_append, p2]; simp, p3⟩
  · intro s d t hP _ h he
    simp only [consoleImpl, Option.map_eq_some_iff] at he
    obtain ⟨g, rfl, rfl⟩ := he
    obtain ⟨p1, p2, p3⟩ := hP g rfl
    refine ⟨p1, ?_, p3⟩
    simp only [linesIn] at p2 ⊢
    rw [List.filterMap_append, ← p2]
    simp [Console.deliverLine]
  · intro s d t hP _ h he
    obtain ⟨p1, p2, p3⟩ := hP h he
    exact ⟨p1, by simp only [linesIn] at p2 ⊢; rw [List.filterMap_append, p2]; simp, p3⟩
  · intro s d hP h he
    obtain ⟨q1, q2, q3, q4⟩ := hf s d hP h he
    exact ⟨q1, by rw [q2, List.append_nil, q3], q4⟩
  · intro s d hP _ h he
    exact (hf s d hP h he).2.2
  · intro h he; simp only [Option.some.injEq] at he; subst he; simp [Console.init, linesIn]

/-- **C86, Elasticsearch.**  When the sink has returned, every line that arrived before the first `Shutdown`
was part of at least one flush.  Missing: that it was accepted; see the next theorem. -/
theorem C86_elasticsearch_partial (ext : Elastic.Ext) (interval : Nat) (resps : Nat → Elastic.Response)
    (uuids : Nat → Nat) (limit : Nat) (pfx : Option Str) (type : Str) (tags : TagMap)
    (sources n : Nat) (recv : List (Option (Event F))) (h)
    (hret : (SinkRun.steps (elasticImpl ext interval resps uuids) sources n
      { state := some { state := Elastic.init limit pfx type tags }, queue := recv }).returned = true)
    (hs : (SinkRun.steps (elasticImpl ext interval resps uuids) sources n
      { state := some { state := Elastic.init limit pfx type tags }, queue := recv }).state = some h) :
    ∀ l ∈ linesIn (untilShutdown (arrivals recv)), ∃ b ∈ h.log, ∃ m ∈ b.1, m.line = l := by
  have hf : ∀ (s : Option (Hosted Elastic.State (List Elastic.Line × Elastic.Response)))
      (d : List (Event F)),
      (∀ h, s = some h → ∀ l ∈ linesIn d, (∃ m ∈ h.state.buffer, m.line = l) ∨
        ∃ b ∈ h.log, ∃ m ∈ b.1, m.line = l) →
      ∀ h, (elasticImpl (F := F) ext interval resps uuids).flush s = some h →
        ∀ l ∈ linesIn d, ∃ b ∈ h.log, ∃ m ∈ b.1, m.line = l := by
    intro s d hP h he l hl
    simp only [elasticImpl, Option.bind_eq_some_iff, Option.map_eq_some_iff] at he
    obtain ⟨g, rfl, ⟨s', o⟩, h1, rfl⟩ := he
    rcases hP g rfl l hl with hm | ⟨b, hb, hm⟩
    · exact ⟨_, List.mem_append_right _ (List.mem_singleton.2 rfl), hm⟩
    · exact ⟨b, List.mem_append_left _ hb, hm⟩
  have hind := SinkRun.induction (elasticImpl (F := F) ext interval resps uuids)
    (fun s d => ∀ h, s = some h → ∀ l ∈ linesIn d, (∃ m ∈ h.state.buffer, m.line = l) ∨
      ∃ b ∈ h.log, ∃ m ∈ b.1, m.line = l)
    (fun s d => ∀ h, s = some h → ∀ l ∈ linesIn d, ∃ b ∈ h.log, ∃ m ∈ b.1, m.line = l)
    ?_ ?_ ?_ ?_ ?_ sources n (some { state := Elastic.init limit pfx type tags }) ?_ recv
  · have := hind.2 hret h hs
    rw [delivered_at_return (elasticImpl (F := F) ext interval resps uuids) (some interval) (fun _ => rfl)
      sources n _ recv hret, linesIn_payload] at this
    exact this
  · intro s d t hP _ h he l hl
    refine hP h he l ?_
    simpa [linesIn] using hl
  · intro s d t hP _ h he l hl
    simp only [elasticImpl, Option.map_eq_some_iff] at he
    obtain ⟨g, rfl, rfl⟩ := he
    have hl' : l ∈ linesIn d ∨ l = t := by simpa [linesIn] using hl
    rcases hl' with hl' | rfl
    · rcases hP g rfl l hl' with ⟨m, hm, e⟩ | hb
      · exact Or.inl ⟨m, List.mem_append_left _ hm, e⟩
      · exact Or.inr hb
    · exact Or.inl ⟨⟨0, uuids g.calls, l⟩, by simp [Elastic.deliverLine], rfl⟩
  · intro s d t hP _ h he l hl
    refine hP h he l ?_
    simpa [linesIn] using hl
  · intro s d hP h he l hl
    exact Or.inr (hf s d hP h he l hl)
  · intro s d hP _ h he
    exact hf s d hP h he
  · intro h he l hl; simp [linesIn] at hl

/-- **C86 is false of Elasticsearch**: a request that fails during shutdown is not repeated, and the lines
are gone. -/
theorem C86_elasticsearch_false (ext : Elastic.Ext) (interval : Nat) (uuids : Nat → Nat)
    (l : LogLine) (index time : Str) (h1 : ext.date l.time = some index) (h2 : ext.time l.time = some time) :
    let r := SinkRun.steps (elasticImpl (F := F) ext interval (fun _ => .sendError) uuids) 1 4
      { state := some { state := Elastic.init 3 none [] [] }, queue := [some (.log l), some .shutdown] }
    r.returned = true ∧ ∃ h, r.state = some h ∧ h.state.buffer.map (·.line) = [l] ∧
      ∀ b ∈ h.log, b.2 = .sendError := by
  intro r
  have hb : ∀ u, Elastic.flush ext (Elastic.deliverLine (Elastic.init 3 none [] []) u l) .sendError =
      some (Elastic.deliverLine (Elastic.init 3 none [] []) u l,
        Elastic.bulkBody ext (Elastic.deliverLine (Elastic.init 3 none [] []) u l)) := by
    intro u
    simp [Elastic.flush, Elastic.bulkBody, Elastic.docsOf, Elastic.docOf, Elastic.indexName, h1, h2,
      Elastic.deliverLine, Elastic.init]
  refine ⟨rfl, ?_⟩
  have : r.state = (elasticImpl (F := F) ext interval (fun _ => .sendError) uuids).shutdown
      (some { state := Elastic.deliverLine (Elastic.init 3 none [] []) (uuids 0) l, calls := 1 }) := rfl
  rw [this]
  simp only [elasticImpl, Option.bind_some, hb]
  exact ⟨_, rfl, rfl, by simp⟩

/-! ## C87: the console text -/

private theorem hist_fold (ext : Console.Ext F) (t : Telemetry F) : ∀ (bins : List (Option F × Nat))
    (x : Console.Texts), bins.foldl (fun x b =>
        let line := Console.named ext (Console.binName ext t.name b.1) t.timestamp (ext.showN b.2)
        { x with histograms := x.histograms ++ line }) x =
      ⟨x.sums, x.sets, x.summaries, x.histograms ++ bins.flatMap fun b =>
          consoleLine (t.name ++ ['_'] ++ (b.1.map ext.showF).getD "pos_inf".toList)
            (ext.showI t.timestamp) (ext.showN b.2)⟩ := by
  intro bins
  induction bins with
  | nil => intro x; simp
  | cons b bins ih =>
    intro x
    rw [List.foldl_cons, ih]
    rw [show Console.named ext (Console.binName ext t.name b.1) t.timestamp (ext.showN b.2) =
      consoleLine (t.name ++ ['_'] ++ (b.1.map ext.showF).getD "pos_inf".toList)
        (ext.showI t.timestamp) (ext.showN b.2) from by rcases b with ⟨_ | b, n⟩ <;> rfl]
    simp only [List.flatMap_cons, List.append_assoc]

private theorem stat_fold (ext : Console.Ext F) (t : Telemetry F) : ∀ (ps : List (String × F))
    (x : Console.Texts), (ps.map fun p => (p.1.toList, p.2)).foldl (fun x p => match t.query p.2 with
        | some f => { x with summaries := x.summaries ++ Console.quantile ext t.name p.1 f }
        | none => x) x =
      ⟨x.sums, x.sets, x.summaries ++ ps.flatMap (fun p => match t.query p.2 with
          | some f => [' ', ' ', ' ', ' '] ++ t.name ++ [':', ' '] ++ p.1.toList ++ [' '] ++ ext.showF f ++
              ['\n']
          | none => []), x.histograms⟩ := by
  intro ps
  induction ps with
  | nil => intro x; simp
  | cons p ps ih =>
    intro x
    rw [List.map_cons, List.foldl_cons, ih]
    cases hp : t.query p.2 <;> simp only [hp, Console.quantile, List.append_assoc, List.flatMap_cons,
      List.nil_append]

theorem collect_fold (ext : Console.Ext F) : ∀ (pts : List (Telemetry F)) (x : Console.Texts),
    pts.foldl (Console.collect ext) x =
      ⟨x.sums ++ pts.flatMap (consoleText ext .sum), x.sets ++ pts.flatMap (consoleText ext .set),
        x.summaries ++ pts.flatMap (consoleText ext .summarize),
        x.histograms ++ pts.flatMap (consoleText ext .histogram)⟩ := by
  intro pts
  induction pts with
  | nil => intro x; simp
  | cons t pts ih =>
    intro x
    rw [List.foldl_cons, ih]
    have hc : Console.collect ext x t = ⟨x.sums ++ consoleText ext .sum t, x.sets ++ consoleText ext .set t,
        x.summaries ++ consoleText ext .summarize t, x.histograms ++ consoleText ext .histogram t⟩ := by
      cases hv : t.value with
      | sum f => simp only [Console.collect, Telemetry.kind, Value.kind, hv, Telemetry.sum, consoleText,
          Console.named, consoleLine, List.append_nil]
      | set f => simp only [Console.collect, Telemetry.kind, Value.kind, hv, Telemetry.set, consoleText,
          Console.named, consoleLine, List.append_nil]
      | histogram h =>
        have := hist_fold ext t (F64.histBins h) x
        simp only [Console.collect, Telemetry.kind, Value.kind, hv, Telemetry.bins, consoleText,
          List.append_nil]
        exact this
      | quantiles c sm =>
        have := stat_fold ext t consoleStats x
        simp only [Console.collect, Telemetry.kind, Value.kind, hv, consoleText, List.append_nil]
        rw [show Console.stats (F := F) = consoleStats.map (fun p => (p.1.toList, p.2)) from rfl]
        refine this.trans ?_
        simp only [Telemetry.query, hv]
        rfl
    rw [hc]
    simp [List.append_assoc]

/-- **C87.**  A flush prints each waiting line in order of arrival, with its time, path, text and tags, then
the points in the store by kind and within a kind in the order of the store, each with its name, time and
value; afterwards no line is waiting and the store has been reset. -/
theorem C87_console_flush (ext : Console.Ext F) (now : Int) (stamps : Str × Str) (s : Console.State F)
    (pts : List (Telemetry F)) (hp : s.aggrs.iter = some pts)
    (times : LogLine → Str) (ht : ∀ l ∈ s.buffer, ext.time l.time = some (times l)) :
    Console.flush ext now stamps s = some ({ s with buffer := [], aggrs := s.aggrs.reset now },
      "Flushing lines: ".toList ++ stamps.1 ++ ['\n'] ++
      s.buffer.flatMap (fun l => times l ++ [' '] ++ l.path ++ [':', ' '] ++ l.value ++
        (tagIter l.tags s.tags).collect.flatMap (fun kv => [' '] ++ kv.1 ++ ['='] ++ kv.2) ++
        ['\n']) ++
      "Flushing metrics: ".toList ++ stamps.2 ++ ['\n'] ++
      "  sums:\n".toList ++ pts.flatMap (consoleText ext .sum) ++
      "  sets:\n".toList ++ pts.flatMap (consoleText ext .set) ++
      "  summaries:\n".toList ++ pts.flatMap (consoleText ext .summarize) ++
      "  histograms:\n".toList ++ pts.flatMap (consoleText ext .histogram)) := by
  have hl : ∀ ls : List LogLine, (∀ l ∈ ls, ext.time l.time = some (times l)) →
      Console.printLines ext s.tags ls = some (ls.flatMap (fun l => times l ++ [' '] ++ l.path ++
        [':', ' '] ++ l.value ++
        (tagIter l.tags s.tags).collect.flatMap (fun kv => [' '] ++ kv.1 ++ ['='] ++ kv.2) ++
        ['\n'])) := by
    intro ls
    induction ls with
    | nil => intro _; rfl
    | cons l ls ih =>
      intro h
      simp only [Console.printLines, Console.printLine, h l (by simp), Option.map_some,
        ih (fun m hm => h m (by simp [hm])), List.flatMap_cons]
  simp only [Console.flush, hl _ ht, hp, collect_fold, List.nil_append]

/-! ## Concrete runs -/

/-- what an upstream sends in the examples: a point, a line, a pulse, a raw event, a point, `Shutdown` -/
def hostedRecv : List (Option (Event Int)) :=
  [some (.telemetry (wfGauge "a" 1 1)), some (.log (esLine 5 "x")), some (.timerFlush 1), none,
   some (.raw ⟨7, .raw, [1, 2], none, some 4⟩), some (.telemetry (wfGauge "bb" 2 2)),
   some (.log (esLine 6 "y")), some .shutdown]

/-- InfluxDB, refused once: two flushes, with one point each. -/
example :
    let r := SinkRun.steps (influxImpl wfExt 1 (fun _ => [.serverError, .success])) 1 30
      { state := some { state := Influx.init [] }, queue := hostedRecv }
    r.returned = true ∧ (r.state.map fun h => h.log.map fun b => (b.1.length, b.2.length)) =
      some [(1, 4), (1, 4)] := by decide +kernel

/-- The native sink, not connected at first. -/
example :
    let r := SinkRun.steps (nativeImpl intBits 1 (fun _ => [true, true])) 1 30
      { state := some { state := { connected := false, tags := [] } }, queue := hostedRecv }
    r.returned = true ∧ (r.state.map fun h => h.log.map fun b => (b.1.length, b.2.length)) =
      some [(2, 3), (2, 1)] := by decide +kernel

/-- Kafka: the raw event of connection 4 is retried, published and acknowledged once. -/
example :
    let r := SinkRun.steps (kafkaImpl (F := Int) (fun _ => true) 1) 1 30
      { state := some { topicName := ['t'], maxMessageBytes := 3, script := [fun s => .retryable ⟨some s.payload, some s.key, some s.headers⟩] },
        queue := hostedRecv }
    r.returned = true ∧ (r.state.map fun k => (Kafka.finals k.trace, Kafka.acks k.trace)) =
      some ([some 4], [4]) := by decide +kernel

/-- an external world for the console -/
def consoleExt : Console.Ext Int where
  nameTagHash := fun x => x.1.length
  showF := fun x => (toString x).toList
  showI := fun x => (toString x).toList
  showN := fun x => (toString x).toList
  time := fun t => if t ≤ 99 then some ['T'] else none

/-- The console's flush at shutdown prints the line and both points. -/
example :
    let r := SinkRun.steps (consoleImpl consoleExt 1000 (fun _ => 0) (fun _ => (['1'], ['2']))) 1 30
      { state := some { state := Console.init 1 [] }, queue := hostedRecv }
    r.returned = true ∧ (r.state.map fun h => h.log.map fun b => (b.1.length, String.ofList b.2)) =
      some [(2, "Flushing lines: 1\nT p: x\nT p: y\nFlushing metrics: 2\n  sums:\n  sets:\n    a(1): 1\n    bb(2): 2\n  summaries:\n  histograms:\n")] := by
  decide +kernel

/-- Elasticsearch: the first line is refused once and accepted later, the second accepted at shutdown. -/
example :
    let r := SinkRun.steps (elasticImpl (F := Int) esExt 1
      (fun n => if n = 1 then .error else .bulk [⟨true, some 0⟩, ⟨true, some 2⟩]) id) 1 30
      { state := some { state := Elastic.init 3 none [] [] }, queue := hostedRecv }
    r.returned = true ∧ (r.state.map fun h => (h.state.buffer.length, h.log.map fun b => b.1.length)) =
      some (0, [1, 2]) := by decide +kernel

/-- Wavefront. -/
example :
    let r := SinkRun.steps (wavefrontImpl wfExt 1 (fun _ => 5) (fun _ => [.ok])) 1 30
      { state := some { state := Wavefront.State.init 1 [] none true ⟨false, false, false, false⟩ [] },
        queue := hostedRecv }
    r.returned = true ∧ (r.state.map fun h => (h.log.length, h.state.aggrs.iter.map List.length)).isSome := by
  decide +kernel

end Verif
