import Verif.Props.NetWritten
import Verif.Props.NetElastic
import Verif.Props.SinkWavefront
import Verif.Spec.Kill
/-!
# C155: what a kill costs
-/
namespace Verif
open Net Topology
open Pipeline (notPulse)
variable {F : Type} [F64 F]

/-- What a sink that keeps what it is given until a flush has written, and what it keeps. -/
private theorem kept {S B α : Type} (k : SinkImpl F (Option (Hosted S B))) (done buf : Hosted S B → List α) (sel : Event F → List α)
    (hd : ∀ s t h, k.deliver s t = some h → ∃ g, s = some g ∧ buf h = buf g ++ sel (.telemetry t) ∧ done h = done g)
    (hl : ∀ s t h, k.deliverLine s t = some h → ∃ g, s = some g ∧ buf h = buf g ++ sel (.log t) ∧ done h = done g)
    (hr : ∀ s t h, k.deliverRaw s t = some h → ∃ g, s = some g ∧ buf h = buf g ++ sel (.raw t) ∧ done h = done g)
    (hf : ∀ s h, k.flush s = some h → ∃ g, s = some g ∧ buf h = [] ∧ done h = done g ++ buf g) (hsd : k.shutdown = k.flush)
    (start : Hosted S B) (h1 : buf start = []) (h2 : done start = []) (sources j : Nat) (recv : List (Option (Event F))) :
    let r := SinkRun.steps k sources j { state := some start, queue := recv }
    ∀ h, r.state = some h → done h ++ buf h = (deliveredBy r.calls).flatMap sel := by
  have hfl : ∀ s (d : List (Event F)), (∀ h, s = some h → done h ++ buf h = d.flatMap sel) →
      ∀ h, k.flush s = some h → done h ++ buf h = d.flatMap sel := by
    intro s d hP h he
    obtain ⟨g, rfl, e1, e2⟩ := hf s h he
    rw [e1, e2, List.append_nil, hP g rfl]
  have := SinkRun.induction k (fun s d => ∀ h, s = some h → done h ++ buf h = d.flatMap sel)
    (fun s d => ∀ h, s = some h → done h ++ buf h = d.flatMap sel) ?_ ?_ ?_ hfl ?_ sources j (some start) ?_ recv
  · intro r h he
    cases hret : r.returned with
    | false => exact this.1 hret h he
    | true => exact this.2 hret h he
  · intro s d t hP _ h he
    obtain ⟨g, rfl, e1, e2⟩ := hd s t h he
    rw [e1, e2, ← List.append_assoc, hP g rfl]; simp
  · intro s d t hP _ h he
    obtain ⟨g, rfl, e1, e2⟩ := hl s t h he
    rw [e1, e2, ← List.append_assoc, hP g rfl]; simp
  · intro s d t hP _ h he
    obtain ⟨g, rfl, e1, e2⟩ := hr s t h he
    rw [e1, e2, ← List.append_assoc, hP g rfl]; simp
  · intro s d hP _ h he
    rw [hsd] at he
    exact hfl s d hP h he
  · intro h he; simp only [Option.some.injEq] at he; subst he; simp [h1, h2]

/-- What the sink in the process has been given and what it has not. -/
private theorem accepted (c : Config) (hd : Distinct c) (p : Setup F) (hp : SetUp c p) (ls : Nat → Label F) (t : Nat) (n : Str)
    (hn : n ∈ c.sinks) (iv : Option Nat) (hiv : ∀ s, (p.sink n).impl.flushInterval s = iv) :
    ∃ m r j recv read, (run p ls t).nodes n = some (.sink (p.sink n) m r) ∧
      r = SinkRun.steps (p.sink n).impl m j { state := (p.sink n).start, queue := recv } ∧
      Reaches (p.sink n).impl (p.sink n).start r.state ∧
      ((run p ls t).log n).map (·.2) = read ++ r.waiting ∧ deliveredBy r.calls = read.filter Event.isPayload := by
  obtain ⟨m, r, j, h1, h2⟩ := C123_alone c hd p hp ls t n hn
  refine ⟨m, r, j, ((run p ls t).log n).map (fun x => some x.2), ?_⟩
  obtain ⟨cns, h⟩ := (SinkInv.init (p.sink n).impl iv (p.sink n).start (((run p ls t).log n).map fun x => some x.2)).steps hiv m j
  rw [← h2] at h
  refine ⟨cns, h1, h2, ?_, ?_, h.delivered⟩
  · rw [h2]
    exact SinkRun.always (p.sink n).impl (Reaches (p.sink n).impl (p.sink n).start) (fun _ _ h _ => .deliver _ _ h) (fun _ _ h _ => .deliverLine _ _ h)
      (fun _ _ h _ => .deliverRaw _ _ h) (fun _ h => .flush _ h) (fun _ h _ => .shutdown _ h) m j _ .start _
  · have hs := h.split
    rw [List.append_assoc] at hs
    rw [SinkRun.waiting, ← hs]
    simp [arrivals, List.filterMap_map, Function.comp_def]

private theorem payload_sel {α : Type} (sel : Event F → List α) (hsel : ∀ e, e.isPayload = false → sel e = []) (es : List (Event F)) :
    (es.filter Event.isPayload).flatMap sel = es.flatMap sel := by
  induction es with
  | nil => rfl
  | cons e es ih =>
    cases h : e.isPayload with
    | false => simp [h, ih, hsel e h]
    | true => simp [h, ih]

/-- **C155 (console).**  Whatever the schedule and at any time: of the lines that a console's queue has accepted it has printed the first ones, in order and once
each; those after them are in its buffer, and the rest is what it has not yet taken from its queue.  A kill at that time costs these and no others. -/
theorem C155_console (c : Config) (hd : Distinct c) (p : Setup F) (hp : SetUp c p) (ls : Nat → Label F) (t : Nat) (n : Str) (hn : n ∈ c.sinks)
    (ext : Console.Ext F) (interval : Nat) (clock : Nat → Int) (stamps : Nat → Str × Str) (binWidth : Int) (tags : TagMap)
    (hk : p.sink n = ⟨_, consoleImpl ext interval clock stamps, some { state := Console.init binWidth tags }⟩) :
    ∃ m r, (run p ls t).nodes n = some (.sink ⟨_, consoleImpl ext interval clock stamps, some { state := Console.init binWidth tags }⟩ m r) ∧
      ∀ h, r.state = some h →
        linesIn (((run p ls t).log n).map (·.2)) = h.log.flatMap (·.1) ++ h.state.buffer ++ linesIn r.waiting ∧
        ∀ b ∈ h.log, ∃ parts : List Str, b.1.map (Console.printLine ext tags) = parts.map some ∧ parts.flatten <:+: b.2 := by
  have := accepted c hd p hp ls t n hn (some interval) (by rw [hk]; intro s; rfl)
  rw [hk] at this
  obtain ⟨m, r, j, recv, read, h1, h2, h3, h4, h5⟩ := this
  refine ⟨m, r, h1, fun h hh => ⟨?_, (console_texts ext interval clock stamps binWidth tags h3 h hh).2⟩⟩
  have hw := kept (consoleImpl ext interval clock stamps) (fun h => h.log.flatMap (·.1)) (fun h => h.state.buffer) selLine ?_ ?_ ?_ ?_ rfl
    { state := Console.init binWidth tags } rfl rfl m j recv h (by rw [← hh, h2])
  · rw [← h2, h5, payload_sel selLine (by intro e he; cases e <;> simp_all [Event.isPayload, selLine])] at hw
    rw [hw, h4, lines_sel, lines_sel, List.flatMap_append]
  · intro s t h he
    simp only [consoleImpl, Option.bind_eq_some_iff, Option.map_eq_some_iff, Console.deliver] at he
    obtain ⟨g, rfl, s', ⟨a, -, rfl⟩, rfl⟩ := he
    exact ⟨g, rfl, by simp [selLine], rfl⟩
  · intro s l h he
    simp only [consoleImpl, Option.map_eq_some_iff] at he
    obtain ⟨g, rfl, rfl⟩ := he
    exact ⟨g, rfl, rfl, rfl⟩
  · intro s l h he
    exact ⟨h, he, by simp [selLine], rfl⟩
  · intro s h he
    simp only [consoleImpl, Option.bind_eq_some_iff, Option.map_eq_some_iff] at he
    obtain ⟨g, rfl, ⟨s', text⟩, h1, rfl⟩ := he
    simp only [Console.flush] at h1
    split at h1
    · simp only [Option.some.injEq, Prod.mk.injEq] at h1
      obtain ⟨rfl, -⟩ := h1
      exact ⟨g, rfl, rfl, by simp⟩
    · simp at h1

/-- **C155 (native).**  The same for a native sink, its points and lines, and what it has written to its connection. -/
theorem C155_native (c : Config) (hd : Distinct c) (p : Setup F) (hp : SetUp c p) (ls : Nat → Label F) (t : Nat) (n : Str) (hn : n ∈ c.sinks)
    (bits : Native.Bits F) (interval : Nat) (os : Nat → List Bool) (connected : Bool) (tags : TagMap)
    (hk : p.sink n = ⟨_, nativeImpl bits interval os, some { state := { connected := connected, tags := tags } }⟩) :
    ∃ m r, (run p ls t).nodes n = some (.sink ⟨_, nativeImpl bits interval os, some { state := { connected := connected, tags := tags } }⟩ m r) ∧
      ∀ h, r.state = some h →
        (((run p ls t).log n).map (·.2)).filter Event.isPointOrLine = h.log.flatMap (·.1) ++ h.state.buffer ++ r.waiting.filter Event.isPointOrLine ∧
        ∀ b ∈ h.log, ∃ bs, Native.FlushWrites bits tags b.1 bs ∧ b.2.getLast? = some (.write bs) := by
  have := accepted c hd p hp ls t n hn (some interval) (by rw [hk]; intro s; rfl)
  rw [hk] at this
  obtain ⟨m, r, j, recv, read, h1, h2, h3, h4, h5⟩ := this
  refine ⟨m, r, h1, fun h hh => ⟨?_, (native_writes bits interval os connected tags h3 h hh).2⟩⟩
  have hw := kept (nativeImpl bits interval os) (fun h => h.log.flatMap (·.1)) (fun h => h.state.buffer) selBoth ?_ ?_ ?_ ?_ rfl
    { state := { connected := connected, tags := tags } } rfl rfl m j recv h (by rw [← hh, h2])
  · rw [← h2, h5, payload_sel selBoth (by intro e he; cases e <;> simp_all [Event.isPayload, selBoth])] at hw
    rw [hw, h4, both_sel, both_sel, List.flatMap_append]
  · intro s t h he
    simp only [nativeImpl, Option.map_eq_some_iff] at he
    obtain ⟨g, rfl, rfl⟩ := he
    exact ⟨g, rfl, rfl, rfl⟩
  · intro s l h he
    simp only [nativeImpl, Option.map_eq_some_iff] at he
    obtain ⟨g, rfl, rfl⟩ := he
    exact ⟨g, rfl, rfl, rfl⟩
  · intro s l h he
    exact ⟨h, he, by simp [selBoth], rfl⟩
  · intro s h he
    simp only [nativeImpl, Option.bind_eq_some_iff] at he
    obtain ⟨g, rfl, he⟩ := he
    split at he
    · rename_i s' acts h1
      simp only [Option.some.injEq] at he
      subst he
      obtain ⟨s2, a2, d2, e1, e2, -⟩ := C80_flush bits g.state (os g.calls)
        (Native.wire (Native.payloadOf bits g.state.tags g.state.buffer))
        (by simp [Native.FlushWrites, Native.Sink.flush, Native.flushLoop])
      rw [h1] at e1
      simp only [Prod.mk.injEq] at e1
      obtain ⟨rfl, rfl, rfl⟩ := e1
      exact ⟨g, rfl, e2, by simp⟩
    · simp at he

/-- **C155 (InfluxDB).**  The same for an InfluxDB sink, its points, and what it has posted; and its buffer never has more than 100,001 points. -/
theorem C155_influxdb (c : Config) (hd : Distinct c) (p : Setup F) (hp : SetUp c p) (ls : Nat → Label F) (t : Nat) (n : Str) (hn : n ∈ c.sinks)
    (ext : Wavefront.Ext F) (interval : Nat) (os : Nat → List Influx.Outcome) (tags : TagMap)
    (hk : p.sink n = ⟨_, influxImpl ext interval os, some { state := Influx.init tags }⟩) :
    ∃ m r, (run p ls t).nodes n = some (.sink ⟨_, influxImpl ext interval os, some { state := Influx.init tags }⟩ m r) ∧
      ∀ h, r.state = some h →
        pointsIn (((run p ls t).log n).map (·.2)) = h.log.flatMap (·.1) ++ h.state.aggrs ++ pointsIn r.waiting ∧
        h.state.aggrs.length ≤ 100001 ∧
        ∀ b ∈ h.log, ∃ text, Influx.formatStats ext tags b.1 = some text ∧ b.2.getLast? = some (.post text) := by
  have := accepted c hd p hp ls t n hn (some interval) (by rw [hk]; intro s; rfl)
  rw [hk] at this
  obtain ⟨m, r, j, recv, read, h1, h2, h3, h4, h5⟩ := this
  have hflush : ∀ s h, (influxImpl ext interval os).flush s = some h → ∃ g, s = some g ∧ h.state.aggrs = [] ∧
      h.log.flatMap (·.1) = g.log.flatMap (·.1) ++ g.state.aggrs := by
    intro s h he
    simp only [influxImpl, Option.bind_eq_some_iff] at he
    obtain ⟨g, rfl, he⟩ := he
    split at he
    · rename_i s' wire h1
      simp only [Option.some.injEq] at he
      subst he
      simp only [Influx.flush] at h1
      split at h1
      · simp at h1
      · simp only [Option.some.injEq, Prod.mk.injEq] at h1
        obtain ⟨rfl, -, h3⟩ := h1
        exact ⟨g, rfl, by simp [h3], by simp⟩
    · simp at he
  refine ⟨m, r, h1, fun h hh => ⟨?_, ?_, (influx_posts ext interval os tags h3 h hh).2⟩⟩
  · have hw := kept (influxImpl ext interval os) (fun h => h.log.flatMap (·.1)) (fun h => h.state.aggrs) selPoint ?_ ?_ ?_ hflush rfl
      { state := Influx.init tags } rfl rfl m j recv h (by rw [← hh, h2])
    · rw [← h2, h5, payload_sel selPoint (by intro e he; cases e <;> simp_all [Event.isPayload, selPoint])] at hw
      rw [hw, h4, points_sel, points_sel, List.flatMap_append]
    · intro s t h he
      simp only [influxImpl, Option.map_eq_some_iff] at he
      obtain ⟨g, rfl, rfl⟩ := he
      exact ⟨g, rfl, rfl, rfl⟩
    · intro s l h he
      exact ⟨h, he, by simp [selPoint], rfl⟩
    · intro s l h he
      exact ⟨h, he, by simp [selPoint], rfl⟩
  · have := SinkRun.always (influxImpl ext interval os) (fun s => ∀ h, s = some h → h.state.aggrs.length ≤ 100001) ?_ (fun _ _ h _ => h) (fun _ _ h _ => h)
      ?_ ?_ m j (some { state := Influx.init tags }) (by intro h he; simp only [Option.some.injEq] at he; subst he; simp [Influx.init]) recv
    · exact this h (by rw [← hh, h2])
    · intro s t hP hv h he
      simp only [influxImpl, Option.map_eq_some_iff] at he
      obtain ⟨g, rfl, rfl⟩ := he
      simp only [influxImpl, Influx.valveOpen] at hv
      simp [Influx.deliver] at hv ⊢
      omega
    · intro s _ h he
      obtain ⟨g, -, e, -⟩ := hflush s h he
      simp [e]
    · intro s _ _ h he
      obtain ⟨g, -, e, -⟩ := hflush s h he
      simp [e]

/-- **C155 (Elasticsearch).**  The same for an Elasticsearch sink and its lines, if every request so far failed altogether or was accepted in full: what has been accepted are the first lines, in
order and once each, however often requests failed. -/
theorem C155_elasticsearch (c : Config) (hd : Distinct c) (p : Setup F) (hp : SetUp c p) (ls : Nat → Label F) (t : Nat) (n : Str) (hn : n ∈ c.sinks)
    (ext : Elastic.Ext) (interval : Nat) (resps : Nat → Elastic.Response) (uuids : Nat → Nat) (limit : Nat) (pfx : Option Str) (type : Str) (tags : TagMap)
    (hk : p.sink n = ⟨_, elasticImpl ext interval resps uuids, some { state := Elastic.init limit pfx type tags }⟩) :
    ∃ m r, (run p ls t).nodes n = some (.sink ⟨_, elasticImpl ext interval resps uuids, some { state := Elastic.init limit pfx type tags }⟩ m r) ∧
      ∀ h, r.state = some h → (∀ b ∈ h.log, Elastic.CleanFlush b) →
        linesIn (((run p ls t).log n).map (·.2)) = Elastic.answered h.log ++ h.state.buffer.map (·.line) ++ linesIn r.waiting := by
  have := accepted c hd p hp ls t n hn (some interval) (by rw [hk]; intro s; rfl)
  rw [hk] at this
  obtain ⟨m, r, j, recv, read, h1, h2, -, h4, h5⟩ := this
  refine ⟨m, r, h1, fun h hh hc => ?_⟩
  have hw := (C86_elasticsearch_clean_partial ext interval resps uuids limit pfx type tags m j recv h (by rw [← hh, h2]) hc).1
  rw [← h2, h5, lines_sel, payload_sel selLine (by intro e he; cases e <;> simp_all [Event.isPayload, selLine])] at hw
  rw [hw, h4, lines_sel, lines_sel, List.flatMap_append]

private theorem wavefront_kept (ext : Wavefront.Ext F) (interval : Nat) (clock : Nat → Int) (os : Nat → List Wavefront.Io) (w : Int) (ps : List (Str × F))
    (age : Option Nat) (connected : Bool) (pc : Wavefront.PadControl) (tags : TagMap) (hage : ∀ a, age = some a → a < 2 ^ 63) (sources j : Nat)
    (recv : List (Option (Event F))) :
    let r := SinkRun.steps (wavefrontImpl ext interval clock os) sources j { state := some { state := Wavefront.State.init w ps age connected pc tags }, queue := recv }
    ∀ h, r.state = some h → ∃ bs cur, WfBetween ext clock w ps age pc tags bs cur h (deliveredBy r.calls) := by
  let P : Option (Hosted (Wavefront.State F) (List Wavefront.Wire)) → List (Event F) → Prop := fun s d =>
    ∀ h, s = some h → ∃ bs cur, WfBetween ext clock w ps age pc tags bs cur h d
  have hf : ∀ s d, P s d → P ((wavefrontImpl ext interval clock os).flush s) d := by
    intro s d hP h he
    cases s with
    | none => simp [wavefrontImpl] at he
    | some g =>
      obtain ⟨bs, cur, hb⟩ := hP g rfl
      exact ⟨_, [], wf_flush_between ext interval clock os w ps age pc tags bs cur g h d hb he⟩
  have hind := SinkRun.induction (wavefrontImpl ext interval clock os) P P ?_ ?_ ?_ hf (fun s d h _ => hf s d h) sources j
    (some { state := Wavefront.State.init w ps age connected pc tags }) ?_ recv
  · intro r
    cases hret : r.returned with
    | false => exact hind.1 hret
    | true => exact hind.2 hret
  · intro s d t hP _ h he
    cases s with
    | none => simp [wavefrontImpl] at he
    | some g =>
      obtain ⟨bs, cur, hb⟩ := hP g rfl
      exact ⟨_, _, wf_deliver_between ext interval clock os w ps age pc tags hage bs cur g h d t hb he⟩
  · intro s d t hP _ h he
    obtain ⟨bs, cur, hb⟩ := hP h he
    exact ⟨bs, cur, { hb with points := by have := hb.points; simp only [pointsIn] at this ⊢; rw [List.filterMap_append, this]; simp }⟩
  · intro s d t hP _ h he
    obtain ⟨bs, cur, hb⟩ := hP h he
    exact ⟨bs, cur, { hb with points := by have := hb.points; simp only [pointsIn] at this ⊢; rw [List.filterMap_append, this]; simp }⟩
  · intro h he
    simp only [Option.some.injEq] at he
    subst he
    refine ⟨[], [], rfl, rfl, rfl, rfl, rfl, ⟨rfl, ?_⟩, rfl, rfl, rfl⟩
    intro A b B hA
    simp at hA

/-- **C155 (Wavefront).**  For a Wavefront sink: the points its queue has accepted are, in order and once each, those of its completed flushes, each of which ended with the whole text of its
points on the wire, then those it has been given since, of which its store has what is young enough, then those that wait. -/
theorem C155_wavefront (c : Config) (hd : Distinct c) (p : Setup F) (hp : SetUp c p) (ls : Nat → Label F) (t : Nat) (n : Str) (hn : n ∈ c.sinks)
    (ext : Wavefront.Ext F) (interval : Nat) (clock : Nat → Int) (os : Nat → List Wavefront.Io) (w : Int) (ps : List (Str × F))
    (age : Option Nat) (connected : Bool) (pc : Wavefront.PadControl) (tags : TagMap) (hage : ∀ a, age = some a → a < 2 ^ 63)
    (hk : p.sink n = ⟨_, wavefrontImpl ext interval clock os, some { state := Wavefront.State.init w ps age connected pc tags }⟩) :
    ∃ m r, (run p ls t).nodes n = some (.sink ⟨_, wavefrontImpl ext interval clock os, some { state := Wavefront.State.init w ps age connected pc tags }⟩ m r) ∧
      ∀ h, r.state = some h → ∃ (bs : List (WfFlush F)) (cur : List (Int × Telemetry F)),
        pointsIn (((run p ls t).log n).map (·.2)) = (bs.flatMap fun b => b.points.map (·.2)) ++ cur.map (·.2) ++ pointsIn r.waiting ∧
        WfFlushed ext w ps age pc tags bs h.log ∧
        runBucket ext.nameTagHash (Buckets.new w) (wfHistory age bs ++ (cur.filter (youngEnough age)).map fun p => .add p.1 p.2) = some h.state.aggrs := by
  have := accepted c hd p hp ls t n hn (some interval) (by rw [hk]; intro s; rfl)
  rw [hk] at this
  obtain ⟨m, r, j, recv, read, h1, h2, -, h4, h5⟩ := this
  refine ⟨m, r, h1, fun h hh => ?_⟩
  obtain ⟨bs, cur, hb⟩ := wavefront_kept ext interval clock os w ps age connected pc tags hage m j recv h (by rw [← hh, h2])
  refine ⟨bs, cur, ?_, hb.flushed, hb.store⟩
  have hp := hb.points
  rw [← h2, h5, points_sel, payload_sel selPoint (by intro e he; cases e <;> simp_all [Event.isPayload, selPoint])] at hp
  rw [hp, h4, points_sel, points_sel, List.flatMap_append]

private theorem raws_payload (es : List (Event F)) : rawsIn (es.filter Event.isPayload) = rawsIn es := by
  induction es with
  | nil => rfl
  | cons e es ih => cases e <;> simp_all [rawsIn, Event.isPayload, List.filter_cons]

private theorem kafka_kept (utf8 : Bytes → Bool) (interval : Nat) (topic : Str) (maxBytes : Nat) (script : List (Submission → KOutcome)) (sources j : Nat)
    (recv : List (Option (Event F))) :
    let r := SinkRun.steps (kafkaImpl utf8 interval) sources j { state := some { topicName := topic, maxMessageBytes := maxBytes, script := script }, queue := recv }
    ∀ k, r.state = some k →
      (∀ o, (Kafka.finals k.trace).count o + (k.messages.map (·.sub.connectionId)).count o = ((rawsIn (deliveredBy r.calls)).map (·.connectionId)).count o) ∧
      ∀ c : Nat, (Kafka.acks k.trace).count c + (k.messages.map (·.sub.connectionId)).count (some c) =
        ((rawsIn (deliveredBy r.calls)).map (·.connectionId)).count (some c) := by
  let P : Option Kafka → List (Event F) → Prop := fun s d => ∀ k, s = some k →
    (∀ o, (Kafka.finals k.trace).count o + (k.messages.map (·.sub.connectionId)).count o = ((rawsIn d).map (·.connectionId)).count o) ∧
    ∀ c : Nat, (Kafka.acks k.trace).count c + (k.messages.map (·.sub.connectionId)).count (some c) = ((rawsIn d).map (·.connectionId)).count (some c)
  have hf : ∀ s d, P s d → P ((kafkaImpl (F := F) utf8 interval).flush s) d := by
    intro s d hP k he
    simp only [kafkaImpl, Option.bind_eq_some_iff] at he
    obtain ⟨g, rfl, he⟩ := he
    obtain ⟨p1, p2⟩ := hP g rfl
    obtain ⟨h1, -, es, h2, h3, -⟩ := C27_flush_accounts utf8 g k he
    obtain ⟨es', h4, h5, -⟩ := C28_acks_exactly_once utf8 g k he
    rw [h2, List.append_cancel_left_eq] at h4
    subst h4
    refine ⟨fun o => ?_, fun c => ?_⟩
    · rw [h1, h2, Kafka.finals_append, List.count_append, h3, p1]; rfl
    · rw [h1, h2, Kafka.acks_append, List.count_append, h5, p2]; rfl
  have hind := SinkRun.induction (kafkaImpl (F := F) utf8 interval) P P ?_ ?_ ?_ hf (fun s d h _ => hf s d h) sources j
    (some { topicName := topic, maxMessageBytes := maxBytes, script := script }) ?_ recv
  · intro r
    cases hret : r.returned with
    | false => exact hind.1 hret
    | true => exact hind.2 hret
  · intro s d t hP _ h he
    have := hP h he
    simp only [rawsIn] at this ⊢
    rw [List.filterMap_append]; simpa using this
  · intro s d t hP _ h he
    have := hP h he
    simp only [rawsIn] at this ⊢
    rw [List.filterMap_append]; simpa using this
  · intro s d t hP _ k' he
    simp only [kafkaImpl, Option.bind_eq_some_iff] at he
    obtain ⟨g, rfl, he⟩ := he
    obtain ⟨p1, p2⟩ := hP g rfl
    simp only [Kafka.deliverRaw, Kafka.tryPayload] at he
    split at he
    · simp only [Option.map_some, Option.some.injEq] at he
      subst he
      simp only [rawsIn] at p1 p2 ⊢
      refine ⟨fun o => ?_, fun c => ?_⟩
      · have := p1 o
        simp only [Kafka.finals_append, List.filterMap_append, List.map_append, List.count_append]
        simp only [Kafka.finals, List.filterMap_cons, List.filterMap_nil, List.map_cons, List.map_nil,
          List.count_nil] at this ⊢
        omega
      · have := p2 c
        simp only [Kafka.acks_append, List.filterMap_append, List.map_append, List.count_append]
        simp only [Kafka.acks, List.filterMap_cons, List.filterMap_nil, List.map_cons, List.map_nil,
          List.count_nil] at this ⊢
        omega
    · simp at he
  · intro k he; simp only [Option.some.injEq] at he; subst he
    simp [rawsIn, Kafka.finals, Kafka.acks]

/-- **C155 (Kafka).**  For a Kafka sink: of the messages of each connection (and of those of none) that its queue has accepted, as many as reached a final outcome, are in flight or wait
are all of them; and the connection has been told of exactly those with a final outcome.  So what is lost at a kill has not been acknowledged. -/
theorem C155_kafka (c : Config) (hd : Distinct c) (p : Setup F) (hp : SetUp c p) (ls : Nat → Label F) (t : Nat) (n : Str) (hn : n ∈ c.sinks)
    (utf8 : Bytes → Bool) (interval : Nat) (topic : Str) (maxBytes : Nat) (script : List (Submission → KOutcome))
    (hk : p.sink n = ⟨_, kafkaImpl utf8 interval, some { topicName := topic, maxMessageBytes := maxBytes, script := script }⟩) :
    ∃ m r, (run p ls t).nodes n = some (.sink ⟨_, kafkaImpl utf8 interval, some { topicName := topic, maxMessageBytes := maxBytes, script := script }⟩ m r) ∧
      ∀ k, r.state = some k →
        (∀ o, ((rawsIn (((run p ls t).log n).map (·.2))).map (·.connectionId)).count o =
          (Kafka.finals k.trace).count o + (k.messages.map (·.sub.connectionId)).count o + ((rawsIn r.waiting).map (·.connectionId)).count o) ∧
        ∀ c : Nat, (Kafka.acks k.trace).count c = (Kafka.finals k.trace).count (some c) := by
  have := accepted c hd p hp ls t n hn (some interval) (by rw [hk]; intro s; rfl)
  rw [hk] at this
  obtain ⟨m, r, j, recv, read, h1, h2, -, h4, h5⟩ := this
  refine ⟨m, r, h1, fun k hh => ?_⟩
  obtain ⟨w1, w2⟩ := kafka_kept utf8 interval topic maxBytes script m j recv k (by rw [← hh, h2])
  rw [← h2, h5, raws_payload] at w1 w2
  refine ⟨fun o => ?_, fun cc => ?_⟩
  · rw [w1, h4]; simp [rawsIn, List.filterMap_append, List.count_append]
  · have a := w1 (some cc)
    have b := w2 cc
    omega

/-! ## From a source -/

private theorem from_source {α : Type} (sel : Event F → List α) (hsel : ∀ e, notPulse e = false → sel e = []) (i : Nat) (log : List (Sender × Event F))
    (h : ∀ x ∈ log, notPulse x.2 = true → x.1 = .source i) : (log.map (·.2)).flatMap sel = (acceptedFrom (.source i) log).flatMap sel := by
  induction log with
  | nil => rfl
  | cons x log ih =>
    have ih := ih fun y hy => h y (List.mem_cons_of_mem _ hy)
    by_cases hx : x.1 = .source i
    · have : (x.1 == Sender.source i) = true := by rw [hx]; simp
      simp only [acceptedFrom, List.map_cons, List.flatMap_cons, List.filter_cons, this, if_true] at ih ⊢
      rw [ih]
    · have : (x.1 == Sender.source i) = false := by simpa using hx
      have hp : notPulse x.2 = false := by
        cases hn : notPulse x.2 with
        | false => rfl
        | true => exact absurd (h x List.mem_cons_self hn) hx
      simp only [acceptedFrom, List.map_cons, List.flatMap_cons, List.filter_cons, this, hsel _ hp, List.nil_append] at ih ⊢
      rw [ih]; simp

theorem direct_source (c : Config) (hd : Distinct c) (p : Setup F) (hp : SetUp c p) (ls : Nat → Label F) (t : Nat) (s : Str) (i : Nat) (chans : List Str)
    (hs : p.wiring.sources[i]? = some (s, chans)) (n : Str) (hn : n ∈ c.sinks) (honly : Only c s [] n) {α : Type} (sel : Event F → List α)
    (hsel : ∀ e, notPulse e = false → sel e = []) :
    ∃ kept dropped, Parted kept dropped (sourceSent p ls i t) ∧ dropped.Sublist (((run p ls t).lost n).map (·.2)) ∧
      (((run p ls t).log n).map (·.2)).flatMap sel = kept.flatMap sel := by
  have hf : Forwards c s n := by
    generalize hfs : ([] : List Str) = fs at honly
    cases honly with
    | via fs f n => simp at hfs
    | direct _ _ hf _ => exact hf
  refine ⟨_, _, ((C93_queues c hd p hp ls t n (.inl hn)).1 i s chans hs).1 hf, ?_, from_source sel hsel i _ (sole_sender hd hp ls hs honly)⟩
  exact List.Sublist.map _ List.filter_sublist

/-- **C155 (from a source).**  A source alone feeds a console, a native or an InfluxDB sink directly.  At any time, what the source has sent is what the sink's queue was too full for, and what it
accepted; and of the latter the sink has printed the first lines, keeps those after them and has yet to take the rest.  So each line the source has sent is in exactly one of four places. -/
theorem C155_source_console (c : Config) (hd : Distinct c) (p : Setup F) (hp : SetUp c p) (ls : Nat → Label F) (t : Nat) (s : Str) (i : Nat) (chans : List Str)
    (hs : p.wiring.sources[i]? = some (s, chans)) (n : Str) (hn : n ∈ c.sinks) (honly : Only c s [] n)
    (ext : Console.Ext F) (interval : Nat) (clock : Nat → Int) (stamps : Nat → Str × Str) (binWidth : Int) (tags : TagMap)
    (hk : p.sink n = ⟨_, consoleImpl ext interval clock stamps, some { state := Console.init binWidth tags }⟩) :
    ∃ kept dropped, Parted kept dropped (sourceSent p ls i t) ∧ dropped.Sublist (((run p ls t).lost n).map (·.2)) ∧
      ∃ m r, (run p ls t).nodes n = some (.sink ⟨_, consoleImpl ext interval clock stamps, some { state := Console.init binWidth tags }⟩ m r) ∧
        ∀ h, r.state = some h → linesIn kept = h.log.flatMap (·.1) ++ h.state.buffer ++ linesIn r.waiting := by
  obtain ⟨kept, dropped, h1, h2, h3⟩ := direct_source c hd p hp ls t s i chans hs n hn honly selLine (by intro e he; cases e <;> simp_all [notPulse, Event.isTimerFlush, selLine])
  obtain ⟨m, r, g1, g2⟩ := C155_console c hd p hp ls t n hn ext interval clock stamps binWidth tags hk
  refine ⟨kept, dropped, h1, h2, m, r, g1, fun h hh => ?_⟩
  rw [← (g2 h hh).1, lines_sel kept, ← h3, lines_sel]

/-- The same for a native sink. -/
theorem C155_source_native (c : Config) (hd : Distinct c) (p : Setup F) (hp : SetUp c p) (ls : Nat → Label F) (t : Nat) (s : Str) (i : Nat) (chans : List Str)
    (hs : p.wiring.sources[i]? = some (s, chans)) (n : Str) (hn : n ∈ c.sinks) (honly : Only c s [] n)
    (bits : Native.Bits F) (interval : Nat) (os : Nat → List Bool) (connected : Bool) (tags : TagMap)
    (hk : p.sink n = ⟨_, nativeImpl bits interval os, some { state := { connected := connected, tags := tags } }⟩) :
    ∃ kept dropped, Parted kept dropped (sourceSent p ls i t) ∧ dropped.Sublist (((run p ls t).lost n).map (·.2)) ∧
      ∃ m r, (run p ls t).nodes n = some (.sink ⟨_, nativeImpl bits interval os, some { state := { connected := connected, tags := tags } }⟩ m r) ∧
        ∀ h, r.state = some h → kept.filter Event.isPointOrLine = h.log.flatMap (·.1) ++ h.state.buffer ++ r.waiting.filter Event.isPointOrLine := by
  obtain ⟨kept, dropped, h1, h2, h3⟩ := direct_source c hd p hp ls t s i chans hs n hn honly selBoth (by intro e he; cases e <;> simp_all [notPulse, Event.isTimerFlush, selBoth])
  obtain ⟨m, r, g1, g2⟩ := C155_native c hd p hp ls t n hn bits interval os connected tags hk
  refine ⟨kept, dropped, h1, h2, m, r, g1, fun h hh => ?_⟩
  rw [← (g2 h hh).1, both_sel kept, ← h3, both_sel]

/-- The same for an InfluxDB sink. -/
theorem C155_source_influxdb (c : Config) (hd : Distinct c) (p : Setup F) (hp : SetUp c p) (ls : Nat → Label F) (t : Nat) (s : Str) (i : Nat) (chans : List Str)
    (hs : p.wiring.sources[i]? = some (s, chans)) (n : Str) (hn : n ∈ c.sinks) (honly : Only c s [] n)
    (ext : Wavefront.Ext F) (interval : Nat) (os : Nat → List Influx.Outcome) (tags : TagMap)
    (hk : p.sink n = ⟨_, influxImpl ext interval os, some { state := Influx.init tags }⟩) :
    ∃ kept dropped, Parted kept dropped (sourceSent p ls i t) ∧ dropped.Sublist (((run p ls t).lost n).map (·.2)) ∧
      ∃ m r, (run p ls t).nodes n = some (.sink ⟨_, influxImpl ext interval os, some { state := Influx.init tags }⟩ m r) ∧
        ∀ h, r.state = some h → pointsIn kept = h.log.flatMap (·.1) ++ h.state.aggrs ++ pointsIn r.waiting := by
  obtain ⟨kept, dropped, h1, h2, h3⟩ := direct_source c hd p hp ls t s i chans hs n hn honly selPoint (by intro e he; cases e <;> simp_all [notPulse, Event.isTimerFlush, selPoint])
  obtain ⟨m, r, g1, g2⟩ := C155_influxdb c hd p hp ls t n hn ext interval os tags hk
  refine ⟨kept, dropped, h1, h2, m, r, g1, fun h hh => ?_⟩
  rw [← (g2 h hh).1, points_sel kept, ← h3, points_sel]

/-! ## An example: a source and a console, killed at any moment -/

private def killed : Config := ⟨[['k']], [], [], [(['a'], [['k']])]⟩

private def killedSetup : Setup Int where
  wiring := ⟨[(['k'], [['a']])], [], [(['a'], [['k']])], [['k']]⟩
  filter _ := ⟨_, delayProcess, 10⟩
  sink _ := ⟨_, consoleImpl { consoleExt with time := fun _ => some ['T'] } 1 (fun _ => 0) (fun _ => (['1'], ['2'])), some { state := Console.init 1 [] }⟩
  stopOrder := [0]
  joinOrder := [['k']]

/-- Two lines, a pulse, a third line that the console takes and keeps, a fourth one that it only takes from its queue and a fifth it does not. -/
private def killedLabels (t : Nat) : Label Int :=
  let line (n : Nat) : Event Int := .log (.new n ['p'] ['v'])
  ([.emit 0 (line 1), .emit 0 (line 2), .pulse 1] ++ List.replicate 6 (.act ['k'] 0) ++
    [.emit 0 (line 3), .act ['k'] 0, .act ['k'] 0, .emit 0 (line 4), .act ['k'] 0, .emit 0 (line 5)])[t]?.getD (.act ['a'] 0)

example : Distinct killed ∧ SetUp killed killedSetup ∧ ['k'] ∈ killed.sinks ∧ Only killed ['a'] [] ['k'] ∧ killedSetup.wiring.sources[0]? = some (['a'], [['k']]) := by
  refine ⟨by decide, ⟨rfl, by decide, by decide, fun n hn => by simp [killed] at hn⟩, by decide, .direct _ (by decide) ⟨[['k']], by decide, by decide⟩ ?_, rfl⟩
  rintro u ⟨fs, h1, h2⟩
  simp only [killed, List.mem_append, List.mem_cons, Prod.mk.injEq, List.not_mem_nil, or_false, false_or] at h1
  exact h1.1

private def standing : Node Int → List Nat × Nat
  | .sink _ _ r => (flushedBy r.calls, r.waiting.length)
  | _ => ([], 0)

/-- At the end of this the console has been given three lines and flushed once, after two of them; two more are waiting. -/
example : ((run killedSetup killedLabels 15).nodes ['k']).map (fun nd => (nd.delivered.length, standing nd)) = some (3, [1], 2) := by decide +kernel

end Verif
