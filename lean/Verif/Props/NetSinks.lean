import Verif.Lemmas.NetSinks
import Verif.Props.NetLog
import Verif.Props.SinkWavefront
import Verif.Props.Files
/-!
# C123 — what the sources sent has been written by the time the process ends
-/
namespace Verif
open Net Topology
open Pipeline (Through Proper notPulse)
variable {F : Type} [F64 F]

theorem rawsIn_payload (es : List (Event F)) : rawsIn (es.filter Event.isPayload) = rawsIn es := by
  induction es with
  | nil => rfl
  | cons e es ih => cases e <;> simp_all [rawsIn, Event.isPayload, List.filter_cons]

/-- **C123 (a sink in the process).**  At any time and under any schedule, a sink of the process is where its run-loop gets to on its own with
the events its queue has accepted: what other threads do, and when, makes no difference but through that queue. -/
theorem C123_alone (c : Config) (hd : Distinct c) (p : Setup F) (hp : SetUp c p) (ls : Nat → Label F) (t : Nat) (n : Str)
    (hn : n ∈ c.sinks) : ∃ m r j, (run p ls t).nodes n = some (.sink (p.sink n) m r) ∧
      r = SinkRun.steps (p.sink n).impl m j { state := (p.sink n).start, queue := ((run p ls t).log n).map (fun x => some x.2) } := by
  obtain ⟨w1, -⟩ := C57_mutual c hd _ hp.wired
  rw [← w1] at hn
  obtain ⟨ups, h⟩ := mem_fst hn
  obtain ⟨r, j, h1, h2⟩ := sink_alone (ls := ls) (linked hd hp.wired) h t
  refine ⟨_, r, j, h1, ?_⟩
  have := h2 []
  simp only [List.append_nil] at this
  exact this.symm

/-- What the process has made of what a source sent when it has exited, as the sink's own loop sees it. -/
private theorem at_exit (c : Config) (hd : Distinct c) (p : Setup F) (hp : SetUp c p) (ls : Nat → Label F) (t : Nat)
    (h : (run p ls t).main = .exited) (s : Str) (i : Nat) (chans : List Str) (hs : p.wiring.sources[i]? = some (s, chans))
    (fs : List Str) (n : Str) (honly : Only c s fs n) (hn : n ∈ c.sinks) (hroom : ∀ m ∈ fs ++ [n], (run p ls t).lost m = [])
    (iv : Option Nat) (hiv : ∀ st, (p.sink n).impl.flushInterval st = iv) :
    ∃ received out, sourceSent p ls i t = received.filter notPulse ++ [.shutdown] ∧ Through (fs.map p.filter) received out ∧
      ∃ m r j recv, (run p ls t).nodes n = some (.sink (p.sink n) m r) ∧
        r = SinkRun.steps (p.sink n).impl m j { state := (p.sink n).start, queue := recv } ∧ r.returned = true ∧
        (untilShutdown (arrivals recv)).filter Event.isPayload = out.filter Event.isPayload := by
  obtain ⟨nd, received, out, a1, a2, a3, a4⟩ := C93_at_exit_partial c hd p hp ls t h s i chans hs fs n honly hn hroom iv hiv
  obtain ⟨m, r, j, b1, b2⟩ := C123_alone c hd p hp ls t n hn
  obtain ⟨nd', c1, c2⟩ := (C92_orderly c hd p hp ls t h).2.2 n (.inl hn)
  have hr : r.returned = true := by
    rw [b1, Option.some.injEq] at c1
    rw [← c1] at c2
    exact c2
  refine ⟨received, out, a2, a3, m, r, j, _, b1, b2, hr, ?_⟩
  rw [b1, Option.some.injEq] at a1
  rw [← a1] at a4
  simp only [Node.delivered] at a4
  rw [← a4, b2]
  rw [b2] at hr
  exact (delivered_at_return _ iv hiv _ _ _ _ hr).symm

/-- **C123 (console).**  A console sink is fed by one source through filters, and no queue on the way has been full.  When the process has
exited, the sink has printed, in order and once each, exactly the lines among what the filters make of everything the source has sent. -/
theorem C123_console (c : Config) (hd : Distinct c) (p : Setup F) (hp : SetUp c p) (ls : Nat → Label F) (t : Nat)
    (h : (run p ls t).main = .exited) (s : Str) (i : Nat) (chans : List Str) (hs : p.wiring.sources[i]? = some (s, chans))
    (fs : List Str) (n : Str) (honly : Only c s fs n) (hn : n ∈ c.sinks) (hroom : ∀ m ∈ fs ++ [n], (run p ls t).lost m = [])
    (ext : Console.Ext F) (interval : Nat) (clock : Nat → Int) (stamps : Nat → Str × Str) (binWidth : Int) (tags : TagMap)
    (hk : p.sink n = ⟨_, consoleImpl ext interval clock stamps, some { state := Console.init binWidth tags }⟩) :
    ∃ received out m r, sourceSent p ls i t = received.filter notPulse ++ [.shutdown] ∧ Through (fs.map p.filter) received out ∧
      (run p ls t).nodes n = some (.sink ⟨_, consoleImpl ext interval clock stamps, some { state := Console.init binWidth tags }⟩ m r) ∧
      ∀ k, r.state = some k → k.log.flatMap (·.1) = linesIn out ∧
      ∀ b ∈ k.log, ∃ parts : List Str, b.1.map (Console.printLine ext tags) = parts.map some ∧ parts.flatten <:+: b.2 := by
  obtain ⟨received, out, a1, a2, a3⟩ := at_exit c hd p hp ls t h s i chans hs fs n honly hn hroom (some interval)
    (by rw [hk]; intro st; rfl)
  rw [hk] at a3
  obtain ⟨m, r, j, recv, b1, b2, b3, b4⟩ := a3
  subst b2
  refine ⟨received, out, m, _, a1, a2, b1, fun k hkk => ?_⟩
  obtain ⟨e1, e2⟩ := C86_console ext interval clock stamps binWidth tags m j recv k b3 hkk
  refine ⟨?_, e2⟩
  rw [e1, ← linesIn_payload, b4, linesIn_payload]

/-- **C123 (native).**  The same for the native sink: when the process has exited, the batches it has written are, in order and once each,
the points and lines. -/
theorem C123_native (c : Config) (hd : Distinct c) (p : Setup F) (hp : SetUp c p) (ls : Nat → Label F) (t : Nat)
    (h : (run p ls t).main = .exited) (s : Str) (i : Nat) (chans : List Str) (hs : p.wiring.sources[i]? = some (s, chans))
    (fs : List Str) (n : Str) (honly : Only c s fs n) (hn : n ∈ c.sinks) (hroom : ∀ m ∈ fs ++ [n], (run p ls t).lost m = [])
    (bits : Native.Bits F) (interval : Nat) (os : Nat → List Bool) (connected : Bool) (tags : TagMap)
    (hk : p.sink n = ⟨_, nativeImpl bits interval os, some { state := { connected := connected, tags := tags } }⟩) :
    ∃ received out m r, sourceSent p ls i t = received.filter notPulse ++ [.shutdown] ∧ Through (fs.map p.filter) received out ∧
      (run p ls t).nodes n = some (.sink ⟨_, nativeImpl bits interval os, some { state := { connected := connected, tags := tags } }⟩ m r) ∧
      ∀ k, r.state = some k → k.log.flatMap (·.1) = out.filter Event.isPointOrLine ∧
      ∀ b ∈ k.log, ∃ bs, Native.FlushWrites bits tags b.1 bs ∧ b.2.getLast? = some (.write bs) := by
  obtain ⟨received, out, a1, a2, a3⟩ := at_exit c hd p hp ls t h s i chans hs fs n honly hn hroom (some interval)
    (by rw [hk]; intro st; rfl)
  rw [hk] at a3
  obtain ⟨m, r, j, recv, b1, b2, b3, b4⟩ := a3
  subst b2
  refine ⟨received, out, m, _, a1, a2, b1, fun k hkk => ?_⟩
  obtain ⟨e1, e2⟩ := C86_native bits interval os connected tags m j recv k b3 hkk
  refine ⟨?_, e2⟩
  have hsub : ∀ es : List (Event F), es.filter Event.isPointOrLine = (es.filter Event.isPayload).filter Event.isPointOrLine := by
    intro es
    rw [List.filter_filter]
    congr 1
    funext e
    cases e <;> rfl
  rw [e1, hsub, b4, ← hsub]

/-- **C123 (InfluxDB).**  The same for the InfluxDB sink: when the process has exited, the points have been posted in flushes, in order and
once each, and each flush has ended with a post of its points. -/
theorem C123_influxdb (c : Config) (hd : Distinct c) (p : Setup F) (hp : SetUp c p) (ls : Nat → Label F) (t : Nat)
    (h : (run p ls t).main = .exited) (s : Str) (i : Nat) (chans : List Str) (hs : p.wiring.sources[i]? = some (s, chans))
    (fs : List Str) (n : Str) (honly : Only c s fs n) (hn : n ∈ c.sinks) (hroom : ∀ m ∈ fs ++ [n], (run p ls t).lost m = [])
    (ext : Wavefront.Ext F) (interval : Nat) (os : Nat → List Influx.Outcome) (tags : TagMap)
    (hk : p.sink n = ⟨_, influxImpl ext interval os, some { state := Influx.init tags }⟩) :
    ∃ received out m r, sourceSent p ls i t = received.filter notPulse ++ [.shutdown] ∧ Through (fs.map p.filter) received out ∧
      (run p ls t).nodes n = some (.sink ⟨_, influxImpl ext interval os, some { state := Influx.init tags }⟩ m r) ∧
      ∀ k, r.state = some k → k.log.flatMap (·.1) = pointsIn out ∧
      ∀ b ∈ k.log, ∃ text, Influx.formatStats ext tags b.1 = some text ∧ b.2.getLast? = some (.post text) := by
  obtain ⟨received, out, a1, a2, a3⟩ := at_exit c hd p hp ls t h s i chans hs fs n honly hn hroom (some interval)
    (by rw [hk]; intro st; rfl)
  rw [hk] at a3
  obtain ⟨m, r, j, recv, b1, b2, b3, b4⟩ := a3
  subst b2
  refine ⟨received, out, m, _, a1, a2, b1, fun k hkk => ?_⟩
  obtain ⟨e1, e2⟩ := C86_influxdb ext interval os tags m j recv k b3 hkk
  refine ⟨?_, e2⟩
  rw [e1, ← pointsIn_payload, b4, pointsIn_payload]

/-- **C123 (Wavefront).**  The same for the Wavefront sink: when the process has exited, the points given to its flushes are, in order and
once each, the points among what the filters make of what the source has sent; every flush ended with one complete write of the lines of what the store then held. -/
theorem C123_wavefront (c : Config) (hd : Distinct c) (p : Setup F) (hp : SetUp c p) (ls : Nat → Label F) (t : Nat)
    (h : (run p ls t).main = .exited) (s : Str) (i : Nat) (chans : List Str) (hs : p.wiring.sources[i]? = some (s, chans))
    (fs : List Str) (n : Str) (honly : Only c s fs n) (hn : n ∈ c.sinks) (hroom : ∀ m ∈ fs ++ [n], (run p ls t).lost m = [])
    (ext : Wavefront.Ext F) (interval : Nat) (clock : Nat → Int) (os : Nat → List Wavefront.Io)
    (w : Int) (ps : List (Str × F)) (age : Option Nat) (connected : Bool) (pc : Wavefront.PadControl) (tags : TagMap)
    (hage : ∀ a, age = some a → a < 2 ^ 63)
    (hk : p.sink n = ⟨_, wavefrontImpl ext interval clock os, some { state := Wavefront.State.init w ps age connected pc tags }⟩) :
    ∃ received out m r, sourceSent p ls i t = received.filter notPulse ++ [.shutdown] ∧ Through (fs.map p.filter) received out ∧
      (run p ls t).nodes n = some (.sink ⟨_, wavefrontImpl ext interval clock os, some { state := Wavefront.State.init w ps age connected pc tags }⟩ m r) ∧
      ∀ k, r.state = some k → ∃ bs : List (WfFlush F),
        (bs.flatMap fun b => b.points.map (·.2)) = pointsIn out ∧
        (bs.flatMap fun b => b.points.map (·.1) ++ [b.time]) = (List.range k.calls).map clock ∧ k.log.length = bs.length ∧
        ∀ A b B, bs = A ++ b :: B → ∃ store pts shown text W,
          runBucket ext.nameTagHash (Buckets.new w) (wfHistory age A ++ b.adds age) = some store ∧ store.iter = some pts ∧
          Wavefront.Padded pts pts shown ∧ ((∀ k, Wavefront.pads pc k = false) → shown = pts) ∧
          (Wavefront.HashOk ext pts → ∀ k, Wavefront.pads pc k = false →
            (shown.filter fun t => t.kind = k) = pts.filter fun t => t.kind = k) ∧
          k.log[A.length]? = some (W ++ [.complete text]) ∧ (∀ e ∈ W, ∃ n, e = .part (text.take n) ∨ e = .delay n) ∧
          ∀ vals, Wavefront.Ordered ext vals → (∀ t ∈ shown, ∀ x, Wavefront.printed ps t x → vals x) →
            text = (shown.map (Wavefront.pointText ext ps tags)).flatten := by
  obtain ⟨received, out, a1, a2, a3⟩ := at_exit c hd p hp ls t h s i chans hs fs n honly hn hroom (some interval)
    (by rw [hk]; intro st; rfl)
  rw [hk] at a3
  obtain ⟨m, r, j, recv, b1, b2, b3, b4⟩ := a3
  subst b2
  refine ⟨received, out, m, _, a1, a2, b1, fun k hkk => ?_⟩
  obtain ⟨bs, e1, e2⟩ := C86_wavefront ext interval clock os w ps age connected pc tags hage m j recv k b3 hkk
  exact ⟨bs, by rw [e1, ← pointsIn_payload, b4, pointsIn_payload], e2⟩


/-- **C123 (Kafka).**  When the process has exited, the Kafka sink has nothing in flight, and for every connection id as many messages have
reached a final outcome as the filters have let through raw events with that id; each connection was acknowledged that often. -/
theorem C123_kafka (c : Config) (hd : Distinct c) (p : Setup F) (hp : SetUp c p) (ls : Nat → Label F) (t : Nat)
    (h : (run p ls t).main = .exited) (s : Str) (i : Nat) (chans : List Str) (hs : p.wiring.sources[i]? = some (s, chans))
    (fs : List Str) (n : Str) (honly : Only c s fs n) (hn : n ∈ c.sinks) (hroom : ∀ m ∈ fs ++ [n], (run p ls t).lost m = [])
    (utf8 : Bytes → Bool) (interval : Nat) (topic : Str) (maxBytes : Nat) (script : List (Submission → KOutcome))
    (hk : p.sink n = ⟨_, kafkaImpl utf8 interval, some { topicName := topic, maxMessageBytes := maxBytes, script := script }⟩) :
    ∃ received out m r, sourceSent p ls i t = received.filter notPulse ++ [.shutdown] ∧ Through (fs.map p.filter) received out ∧
      (run p ls t).nodes n = some (.sink ⟨_, kafkaImpl utf8 interval, some { topicName := topic, maxMessageBytes := maxBytes, script := script }⟩ m r) ∧
      ∀ k, r.state = some k → k.messages = [] ∧
        (∀ o, (Kafka.finals k.trace).count o = ((rawsIn out).map (·.connectionId)).count o) ∧
        ∀ c : Nat, (Kafka.acks k.trace).count c = ((rawsIn out).map (·.connectionId)).count (some c) := by
  obtain ⟨received, out, a1, a2, a3⟩ := at_exit c hd p hp ls t h s i chans hs fs n honly hn hroom (some interval)
    (by rw [hk]; intro st; rfl)
  rw [hk] at a3
  obtain ⟨m, r, j, recv, b1, b2, b3, b4⟩ := a3
  subst b2
  refine ⟨received, out, m, _, a1, a2, b1, fun k hkk => ?_⟩
  have e := C86_kafka utf8 interval topic maxBytes script m j recv k b3 hkk
  rw [← rawsIn_payload, b4, rawsIn_payload] at e
  exact e


/-- **C123 (Elasticsearch), partial.**  When the process has exited, every line among what the filters make of what the source has sent was part of at least one
bulk request.  Missing: that it was accepted, see `C86_elasticsearch_false`. -/
theorem C123_elasticsearch_partial (c : Config) (hd : Distinct c) (p : Setup F) (hp : SetUp c p) (ls : Nat → Label F) (t : Nat)
    (h : (run p ls t).main = .exited) (s : Str) (i : Nat) (chans : List Str) (hs : p.wiring.sources[i]? = some (s, chans))
    (fs : List Str) (n : Str) (honly : Only c s fs n) (hn : n ∈ c.sinks) (hroom : ∀ m ∈ fs ++ [n], (run p ls t).lost m = [])
    (ext : Elastic.Ext) (interval : Nat) (resps : Nat → Elastic.Response)
    (uuids : Nat → Nat) (limit : Nat) (pfx : Option Str) (type : Str) (tags : TagMap)
    (hk : p.sink n = ⟨_, elasticImpl ext interval resps uuids, some { state := Elastic.init limit pfx type tags }⟩) :
    ∃ received out m r, sourceSent p ls i t = received.filter notPulse ++ [.shutdown] ∧ Through (fs.map p.filter) received out ∧
      (run p ls t).nodes n = some (.sink ⟨_, elasticImpl ext interval resps uuids, some { state := Elastic.init limit pfx type tags }⟩ m r) ∧
      ∀ k, r.state = some k → ∀ l ∈ linesIn out, ∃ b ∈ k.log, ∃ m ∈ b.1, m.line = l := by
  obtain ⟨received, out, a1, a2, a3⟩ := at_exit c hd p hp ls t h s i chans hs fs n honly hn hroom (some interval)
    (by rw [hk]; intro st; rfl)
  rw [hk] at a3
  obtain ⟨m, r, j, recv, b1, b2, b3, b4⟩ := a3
  subst b2
  refine ⟨received, out, m, _, a1, a2, b1, fun k hkk => ?_⟩
  have e := C86_elasticsearch_partial ext interval resps uuids limit pfx type tags m j recv k b3 hkk
  rw [← linesIn_payload, b4, linesIn_payload] at e
  exact e


/-! ## The console, from a source to the terminal, in the end -/

private theorem stays_none {σ : Type} {k : SinkImpl F (Option σ)} (hf : k.flush none = none) : ∀ n, flushes k n none = none := by
  intro n
  induction n with
  | zero => rfl
  | succ n ih => simp only [flushes]; rw [hf]; exact ih

private theorem not_panicked {σ : Type} {k : SinkImpl F (Option σ)} {start : Option σ} (hf : k.flush none = none)
    (hv : k.valveOpen none = false) (hre : Reopens k start) {s : Option σ} (h : Reaches k start s) : ∃ h, s = some h := by
  cases s with
  | some st => exact ⟨st, rfl⟩
  | none =>
    obtain ⟨n, hn⟩ := hre none h
    rw [stays_none hf, hv] at hn
    simp at hn

/-- **C92 (console).**  The premise `SinksReopen` of C92 holds of every console sink whose bins are not of width 0, as long as the times of lines can be
represented: it never panics, whatever it is given. -/
theorem C92_console_reopens (ext : Console.Ext F) (htime : ∀ t, (ext.time t).isSome) (interval : Nat) (clock : Nat → Int) (stamps : Nat → Str × Str)
    (w : Int) (hw : w ≠ 0) (tags : TagMap) :
    Reopens (consoleImpl ext interval clock stamps) (some { state := Console.init w tags }) := by
  have hlines : ∀ (tags : TagMap) (ls : List LogLine), ∃ x, Console.printLines ext tags ls = some x := by
    intro tags ls
    induction ls with
    | nil => exact ⟨_, rfl⟩
    | cons l ls ih =>
      obtain ⟨x, hx⟩ := ih
      obtain ⟨y, hy⟩ := Option.isSome_iff_exists.1 (htime l.time)
      exact ⟨_, by simp only [Console.printLines, Console.printLine, hx, hy, Option.map_some]; rfl⟩
  have hflush : ∀ h : Hosted (Console.State F) (List LogLine × Str), Buckets.Wf h.state.aggrs → h.state.aggrs.binWidth = w →
      ∃ h', (consoleImpl ext interval clock stamps).flush (some h) = some h' ∧ Buckets.Wf h'.state.aggrs ∧ h'.state.aggrs.binWidth = w := by
    intro h h1 h2
    obtain ⟨x, hx⟩ := hlines h.state.tags h.state.buffer
    have e : ∃ text, Console.flush ext (clock h.calls) (stamps h.calls) h.state =
        some ({ h.state with buffer := [], aggrs := h.state.aggrs.reset (clock h.calls) }, text) := by
      simp only [Console.flush, hx, Buckets.iter_eq _ h1.len]
      exact ⟨_, rfl⟩
    obtain ⟨text, e⟩ := e
    refine ⟨⟨{ h.state with buffer := [], aggrs := h.state.aggrs.reset (clock h.calls) }, h.calls + 1, h.log ++ [(h.state.buffer, text)]⟩, ?_,
      h1.reset _, h2⟩
    simp only [consoleImpl, Option.bind_some, e, Option.map_some]
  have key : ∀ s, Reaches (consoleImpl ext interval clock stamps) (some { state := Console.init w tags }) s →
      ∃ h, s = some h ∧ Buckets.Wf h.state.aggrs ∧ h.state.aggrs.binWidth = w := by
    intro s hs
    induction hs with
    | start => exact ⟨_, rfl, Buckets.Wf.new w, rfl⟩
    | deliver s m _ ih =>
      obtain ⟨h, rfl, h1, h2⟩ := ih
      obtain ⟨b', kp, kq, vp, vq, row, row', ins, e, st, -⟩ := Buckets.add_total ext.nameTagHash (clock h.calls) h.state.aggrs m h1 (by rw [h2]; exact hw)
      exact ⟨_, by simp only [consoleImpl, Option.bind_some, Console.deliver, e, Option.map_some]; rfl, st.wf, st.width'.trans h2⟩
    | deliverLine s l _ ih => obtain ⟨h, rfl, h1, h2⟩ := ih; exact ⟨_, rfl, h1, h2⟩
    | deliverRaw s m _ ih => obtain ⟨h, rfl, h1, h2⟩ := ih; exact ⟨h, rfl, h1, h2⟩
    | flush s _ ih => obtain ⟨h, rfl, h1, h2⟩ := ih; exact hflush h h1 h2
    | shutdown s _ ih => obtain ⟨h, rfl, h1, h2⟩ := ih; exact hflush h h1 h2
  intro s hs
  obtain ⟨h, rfl, -⟩ := key s hs
  exact ⟨0, rfl⟩

/-- **C123 (in the end).**  A process whose sinks and filters are all fed by sources, and whose queues have room, gets a signal.  Then it exits; and by then
a console sink fed by one source has printed, in order and once each, exactly the lines among what the filters make of everything the source has ever sent. -/
theorem C123_in_the_end (c : Config) (hd : Distinct c) (p : Setup F) (hp : SetUp c p) (hre : SinksReopen c p) (ls : Nat → Label F)
    (hf : Fair p ls) (hfull : ∀ n k, p.full n k = false) (hfed : ∀ n, HasChannel c n → Fed c n) (hsig : ∃ t, ls t = .signal)
    (s : Str) (i : Nat) (chans : List Str) (hs : p.wiring.sources[i]? = some (s, chans))
    (fs : List Str) (n : Str) (honly : Only c s fs n) (hn : n ∈ c.sinks)
    (ext : Console.Ext F) (interval : Nat) (clock : Nat → Int) (stamps : Nat → Str × Str) (binWidth : Int) (tags : TagMap)
    (hk : p.sink n = ⟨_, consoleImpl ext interval clock stamps, some { state := Console.init binWidth tags }⟩) :
    ∃ t received out m r k, (run p ls t).main = .exited ∧
      sourceSent p ls i t = received.filter notPulse ++ [.shutdown] ∧ Through (fs.map p.filter) received out ∧
      (run p ls t).nodes n = some (.sink ⟨_, consoleImpl ext interval clock stamps, some { state := Console.init binWidth tags }⟩ m r) ∧
      r.state = some k ∧ k.log.flatMap (·.1) = linesIn out ∧
      ∀ b ∈ k.log, ∃ parts : List Str, b.1.map (Console.printLine ext tags) = parts.map some ∧ parts.flatten <:+: b.2 := by
  obtain ⟨t, ht⟩ := (C92_exits_partial c hd p hp hre ls hf (shutdowns_kept 0 fun n => .inl (hfull n)) hsig).2 hfed
  obtain ⟨received, out, m, r, a1, a2, a3, a4⟩ := C123_console c hd p hp ls t ht s i chans hs fs n honly hn
    (fun m _ => by rw [lost_settled (Nat.zero_le t) fun k _ => hfull m k]; rfl) ext interval clock stamps binWidth tags hk
  have hw1 := (C57_mutual c hd _ hp.wired).1
  obtain ⟨ups, hm⟩ := mem_fst (hw1 ▸ hn)
  have hre := hre n hn
  have hat := sink_at (linked hd hp.wired) ls hm t
  rw [hk] at hre hat
  obtain ⟨r', d1, d2⟩ := hat
  rw [a3] at d1
  simp only [Option.some.injEq, Node.sink.injEq, heq_eq_eq, true_and] at d1
  obtain ⟨-, rfl⟩ := d1
  obtain ⟨k, hkk⟩ := not_panicked rfl rfl hre d2
  exact ⟨t, received, out, m, r, k, ht, a1, a2, a3, hkk, a4 k hkk⟩

/-- **C123 (no filters).**  A source forwards straight to a console sink that nothing else feeds.  When the process has exited, the sink has
printed, in order and once each, exactly the lines the source has sent: those of a file source are the lines of the files (C122). -/
theorem C123_direct (c : Config) (hd : Distinct c) (p : Setup F) (hp : SetUp c p) (ls : Nat → Label F) (t : Nat)
    (h : (run p ls t).main = .exited) (s : Str) (i : Nat) (chans : List Str) (hs : p.wiring.sources[i]? = some (s, chans))
    (n : Str) (honly : Only c s [] n) (hn : n ∈ c.sinks) (hroom : (run p ls t).lost n = [])
    (ext : Console.Ext F) (interval : Nat) (clock : Nat → Int) (stamps : Nat → Str × Str) (binWidth : Int) (tags : TagMap)
    (hk : p.sink n = ⟨_, consoleImpl ext interval clock stamps, some { state := Console.init binWidth tags }⟩) :
    ∃ m r, (run p ls t).nodes n = some (.sink ⟨_, consoleImpl ext interval clock stamps, some { state := Console.init binWidth tags }⟩ m r) ∧
      ∀ k, r.state = some k → k.log.flatMap (·.1) = linesIn (sourceSent p ls i t) ∧
        ∀ b ∈ k.log, ∃ parts : List Str, b.1.map (Console.printLine ext tags) = parts.map some ∧ parts.flatten <:+: b.2 := by
  obtain ⟨received, out, m, r, a1, a2, a3, a4⟩ := C123_console c hd p hp ls t h s i chans hs [] n honly hn
    (fun m hm => by obtain rfl : m = n := by simpa using hm
                    exact hroom) ext interval clock stamps binWidth tags hk
  refine ⟨m, r, a3, fun k hkk => ?_⟩
  obtain ⟨e1, e2⟩ := a4 k hkk
  refine ⟨?_, e2⟩
  cases a2
  rw [e1, a1]
  have : ∀ es : List (Event F), linesIn (es.filter notPulse ++ [.shutdown]) = linesIn es := by
    intro es
    induction es with
    | nil => rfl
    | cons e es ih => cases e <;> simp_all [linesIn, notPulse, Event.isTimerFlush, List.filter_cons]
  exact (this _).symm

/-! ## An example: a source, a filter and a console -/

private def printed : Config := ⟨[['k']], [(['f'], [['k']])], [], [(['s'], [['f']])]⟩

/-- The console's outside world, with a text for every time. -/
private def anyTime : Console.Ext Int := { consoleExt with time := fun _ => some ['T'] }

private def printedSetup : Setup Int where
  wiring := ⟨[(['k'], [['f']])], [(['f'], [['s']], [['k']])], [(['s'], [['f']])], [['f']]⟩
  filter _ := ⟨_, delayProcess, 10⟩
  sink _ := ⟨_, consoleImpl anyTime 1000 (fun _ => 0) (fun _ => (['1'], ['2'])), some { state := Console.init 1 [] }⟩
  stopOrder := [0]
  joinOrder := [['k'], ['f']]

private theorem printed_setUp : SetUp printed printedSetup := by
  refine ⟨rfl, by decide, by decide, ?_⟩
  intro n _; exact (C63_filters_proper 10 0 ⟨fun _ => none, fun _ => [], fun _ => []⟩ ⟨false, [], id, 0⟩
      (L := Unit) (fun _ _ q => ((), .ok q)) (fun _ => .timerFlush 0) (fun _ => rfl) (fun _ q => ⟨q, rfl⟩) ⟨(), 0, []⟩).1

/-- Two lines, the second too old for the filter; a third; then everyone in turn, with a signal now and then. -/
private def printing (t : Nat) : Label Int :=
  if t = 0 then .emit 0 (.log (.new 5 ['p'] ['v'])) else if t = 1 then .emit 0 (.log (.new 50 ['p'] ['w'])) else
  if t = 2 then .emit 0 (.log (.new 7 ['q'] ['u'])) else rota t

private theorem printed_reopen : SinksReopen printed printedSetup :=
  fun _ _ => C92_console_reopens anyTime (fun _ => rfl) 1000 (fun _ => 0) (fun _ => (['1'], ['2'])) 1 (by decide) []

private theorem printed_only : Only printed ['s'] [['f']] ['k'] := by
  have hall : ∀ u n, Forwards printed u n → u = ['f'] ∧ n = ['k'] ∨ u = ['s'] ∧ n = ['f'] := by
    rintro u n ⟨fs, h1, h2⟩
    simp only [printed, List.mem_append, List.mem_singleton, Prod.mk.injEq, List.not_mem_nil, or_false, false_or] at h1
    rcases h1 with ⟨rfl, rfl⟩ | ⟨rfl, rfl⟩
    · exact .inl ⟨rfl, by simpa using h2⟩
    · exact .inr ⟨rfl, by simpa using h2⟩
  refine .via [] ['f'] ['k'] (.direct _ (by decide) ⟨[['f']], by decide, by decide⟩ ?_) ⟨[['k']], by decide, by decide⟩ ?_
  · intro u hu; rcases hall u _ hu with ⟨-, h⟩ | ⟨h, -⟩
    · exact absurd h (by decide)
    · exact h
  · intro u hu; rcases hall u _ hu with ⟨h, -⟩ | ⟨-, h⟩
    · exact h
    · exact absurd h (by decide)

private theorem printing_again (r t : Nat) (hr : r < 6) : ∃ t' ≥ t, printing t' = rota t' ∧ t' % 6 = r :=
  ⟨6 * (t + 1) + r, by omega, by simp only [printing]; rw [if_neg (by omega), if_neg (by omega), if_neg (by omega)], by omega⟩

example : Distinct printed ∧ SetUp printed printedSetup ∧ SinksReopen printed printedSetup ∧ Fair printedSetup printing ∧
    (∀ n k, printedSetup.full n k = false) ∧ (∀ n, HasChannel printed n → Fed printed n) ∧ (∃ t, printing t = .signal) ∧
    printedSetup.wiring.sources[0]? = some (['s'], [['f']]) ∧ Only printed ['s'] [['f']] ['k'] ∧ ['k'] ∈ printed.sinks ∧
    printedSetup.sink ['k'] = ⟨_, consoleImpl anyTime 1000 (fun _ => 0) (fun _ => (['1'], ['2'])), some { state := Console.init 1 [] }⟩ := by
  refine ⟨by decide, printed_setUp, printed_reopen, ⟨?_, ?_, ?_⟩, fun _ _ => rfl, ?_, ⟨5, rfl⟩, rfl, printed_only, by decide, rfl⟩
  · intro n hn t
    have : n = ['k'] ∨ n = ['f'] := by simpa [printedSetup] using hn
    rcases this with rfl | rfl
    · obtain ⟨t', h1, h2, h3⟩ := printing_again 0 t (by omega)
      exact ⟨t', h1, 0, by rw [h2]; simp [rota, h3]⟩
    · obtain ⟨t', h1, h2, h3⟩ := printing_again 2 t (by omega)
      exact ⟨t', h1, 0, by rw [h2]; simp [rota, h3]⟩
  · intro i hi t
    obtain rfl : i = 0 := by simp only [printedSetup, List.length_singleton] at hi; omega
    obtain ⟨t', h1, h2, h3⟩ := printing_again 3 t (by omega)
    exact ⟨t', h1, by rw [h2]; simp [rota, h3]⟩
  · intro t
    obtain ⟨t', h1, h2, h3⟩ := printing_again 4 t (by omega)
    exact ⟨t', h1, by rw [h2]; simp [rota, h3]⟩
  · have hf : Fed printed ['f'] := .source ['s'] ['f'] (by decide) ⟨[['f']], by decide, by decide⟩
    rintro n (h | ⟨fs, h⟩)
    · exact .filter ['f'] n hf ⟨[['k']], by decide, h⟩
    · simp only [printed, List.mem_singleton, Prod.mk.injEq] at h
      obtain ⟨rfl, -⟩ := h
      exact hf

/-- The process, run: it exits, and the second line has not been printed. -/
example : (run printedSetup printing 100).main = .exited ∧ (run printedSetup printing 100).lost ['f'] = [] ∧
    ((run printedSetup printing 100).nodes ['k']).map Node.delivered =
      some [.log (.new 5 ['p'] ['v']), .log (.new 7 ['q'] ['u'])] := by decide +kernel

end Verif
