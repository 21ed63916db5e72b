import Verif.Lemmas.NetSeveral
import Verif.Props.NetSinks
/-!
# C93 and C123 for sinks that several sources feed
-/
namespace Verif
open Net Topology
open Pipeline (Through Proper notPulse)
variable {F : Type} [F64 F]

/-- **C93 (several sources), partial.**  Any number of sources feed a node, and from there a single chain of filters leads to a sink; no queue
on the way has been full.  By the time the sink has returned it has been given, in order and once each, exactly the payloads among what the
filters make of the sequence `received` that the queue of that node accepted before the first `Shutdown`, in which, for every one of the sources, there is all that it sent, in order, until the first of them
returned, and perhaps some of what it sent after that.  Missing: the rest of it, see `C93_two_sources_false`; chains that join further down, see
`C93_overtaken_false`. -/
theorem C93_several_partial (c : Config) (hd : Distinct c) (p : Setup F) (hp : SetUp c p) (ls : Nat → Label F) (T t : Nat) (hTt : T ≤ t)
    (first : Str) (fs : List Str) (n : Str) (hfun : Funnel c first fs n) (hn : n ∈ c.sinks) (hroom : ∀ m ∈ fs ++ [n], (run p ls t).lost m = [])
    (hT : ∀ i s chans, p.wiring.sources[i]? = some (s, chans) → Forwards c s first → i ∉ (run p ls T).ended)
    (iv : Option Nat) (hiv : ∀ st, (p.sink n).impl.flushInterval st = iv)
    (nd : Node F) (hnd : (run p ls t).nodes n = some nd) (hret : nd.returned = true) :
    ∃ (received : List (Sender × Event F)) (out : List (Event F)),
      Through (fs.map p.filter) (received.map (·.2)) out ∧ nd.delivered = out.filter Event.isPayload ∧
      FromSources c p ls first T t received ∧ ∃ x late, (run p ls t).log first = received ++ (x, .shutdown) :: late := by
  have hw := hp.wired
  obtain ⟨w1, w2, w3, -, w5, w6, -, w7⟩ := C57_mutual c hd _ hw
  obtain ⟨-, -, -, -, n5, -⟩ := names hd hw
  obtain ⟨hc, honly, hmem⟩ := funnel_first hfun
  have h0 := some_of_channel hd hw hc
  obtain ⟨nd', read, waiting, h1, h2, h3, h4, h5⟩ := C93_sinks c hd p hp ls t n hn iv hiv
  rw [hnd] at h1
  obtain rfl := Option.some.inj h1
  obtain ⟨more, rfl⟩ := h5 hret
  obtain ⟨received, x, late, r1, r2, r3⟩ := funnel_received hd hp t hfun hroom read more h2 h3
  refine ⟨received, read, r3, h4, ⟨?_, ?_⟩, x, late, r1⟩
  · intro y hy
    refine ⟨r2 y hy, ?_⟩
    have hs := log_senders h0 t y (by rw [r1]; exact List.mem_append_left _ hy)
    revert hs
    cases y.1 with
    | source i => rintro ⟨u, ch, g1, g2⟩; exact ⟨u, ch, g1, ((w6 u ch (List.mem_of_getElem? g1)).2 first).1 g2⟩
    | filter f =>
      rintro ⟨ups, ch, g1, g2⟩
      exact absurd (List.mem_map.2 ⟨_, g1, rfl⟩) (n5 f (w3 ▸ honly f (((w5 f ups ch g1).2.2 first).1 g2)))
    | timer => exact fun h => h.2
  · intro i s chans hs hfw
    have hlost := hroom first hmem
    have hlostT : (run p ls T).lost first = [] := by
      have := lost_stable (ls := ls) h0 hTt
      rw [hlost] at this
      exact List.prefix_nil.1 this
    have qt := ((C93_queues c hd p hp ls t first hc).1 i s chans hs).1 hfw
    have qT := ((C93_queues c hd p hp ls T first hc).1 i s chans hs).1 hfw
    rw [hlost] at qt
    rw [hlostT] at qT
    rw [← qt.none_dropped, ← qT.none_dropped]
    refine ⟨acceptedFrom_prefix (before_first (r1 ▸ log_stable h0 hTt) (no_shutdown_yet hd hp T hc honly hT)) _, ?_⟩
    rw [r1]
    exact acceptedFrom_prefix (List.prefix_append _ _) _

/-- **C93 (before the signal).**  When the process has exited, a sink to which a single chain of filters leads, from a node that any number
of sources feed, has been given what the filters make of everything those sources sent before the signal, and perhaps of some of what they
sent later: what the queue of that node accepted before the first `Shutdown`; no queue on the way having been full. -/
theorem C93_before_signal (c : Config) (hd : Distinct c) (p : Setup F) (hp : SetUp c p) (ls : Nat → Label F) (T t : Nat)
    (hT : ∀ t' < T, ls t' ≠ .signal) (h : (run p ls t).main = .exited)
    (first : Str) (fs : List Str) (n : Str) (hfun : Funnel c first fs n) (hn : n ∈ c.sinks) (hroom : ∀ m ∈ fs ++ [n], (run p ls t).lost m = [])
    (iv : Option Nat) (hiv : ∀ st, (p.sink n).impl.flushInterval st = iv) :
    ∃ nd received out, (run p ls t).nodes n = some nd ∧ Through (fs.map p.filter) (received.map (·.2)) out ∧
      nd.delivered = out.filter Event.isPayload ∧ FromSources c p ls first T t received ∧
      ∃ x late, (run p ls t).log first = received ++ (x, .shutdown) :: late := by
  obtain ⟨⟨t', ht', hs⟩, -, hret⟩ := C92_orderly c hd p hp ls t h
  obtain ⟨nd, h1, h2⟩ := hret n (.inl hn)
  have hTt : T ≤ t := by
    apply Classical.byContradiction
    intro hlt
    exact hT t' (by omega) hs
  obtain ⟨received, out, g1, g2, g3⟩ := C93_several_partial c hd p hp ls T t hTt first fs n hfun hn hroom
    (fun i s chans _ _ => by rw [none_ended hT]; simp) iv hiv nd h1 h2
  exact ⟨nd, received, out, h1, g1, g2, g3⟩

/-- **C93 (quiet sources).**  If moreover a source has sent nothing but its `Shutdown` since the signal, what has been received from it is
everything it ever sent. -/
theorem C93_quiet (c : Config) (p : Setup F) (ls : Nat → Label F) (first : Str) (T t : Nat) (received : List (Sender × Event F))
    (h : FromSources c p ls first T t received) (i : Nat) (s : Str) (chans : List Str) (hs : p.wiring.sources[i]? = some (s, chans))
    (hf : Forwards c s first) (hq : sourceSent p ls i t = sourceSent p ls i T ++ [.shutdown]) :
    sourceSent p ls i t = acceptedFrom (.source i) received ++ [.shutdown] := by
  obtain ⟨⟨a, ha⟩, ⟨b, hb⟩⟩ := h.2 i s chans hs hf
  rw [hq, ← ha]
  rw [hq, ← ha, List.append_assoc] at hb
  have hb := List.append_cancel_left hb
  have : a = [] := by
    cases a with
    | nil => rfl
    | cons e a =>
      obtain rfl : e = .shutdown := by
        have := (List.cons.inj hb).1
        exact this
      have hmem : (Event.shutdown : Event F) ∈ acceptedFrom (.source i) received := by rw [← ha]; simp
      obtain ⟨x, hx, he⟩ := List.mem_map.1 hmem
      have := (h.1 x (List.mem_filter.1 hx).1).1
      rw [he] at this; cases this
  rw [this, List.append_nil]

/-! ## What the sinks have written -/

theorem Net.several_at_exit (c : Config) (hd : Distinct c) (p : Setup F) (hp : SetUp c p) (ls : Nat → Label F) (T t : Nat)
    (hT : ∀ t' < T, ls t' ≠ .signal) (h : (run p ls t).main = .exited)
    (first : Str) (fs : List Str) (n : Str) (hfun : Funnel c first fs n) (hn : n ∈ c.sinks) (hroom : ∀ m ∈ fs ++ [n], (run p ls t).lost m = [])
    (iv : Option Nat) (hiv : ∀ st, (p.sink n).impl.flushInterval st = iv) :
    ∃ received out, Through (fs.map p.filter) (received.map (·.2)) out ∧ FromSources c p ls first T t received ∧
      ∃ m r j recv, (run p ls t).nodes n = some (.sink (p.sink n) m r) ∧
        r = SinkRun.steps (p.sink n).impl m j { state := (p.sink n).start, queue := recv } ∧ r.returned = true ∧
        (untilShutdown (arrivals recv)).filter Event.isPayload = out.filter Event.isPayload := by
  obtain ⟨nd, received, out, a1, a2, a3, a4, -⟩ := C93_before_signal c hd p hp ls T t hT h first fs n hfun hn hroom iv hiv
  obtain ⟨m, r, j, b1, b2⟩ := C123_alone c hd p hp ls t n hn
  obtain ⟨nd', c1, c2⟩ := (C92_orderly c hd p hp ls t h).2.2 n (.inl hn)
  have hr : r.returned = true := by
    rw [b1, Option.some.injEq] at c1
    rw [← c1] at c2
    exact c2
  refine ⟨received, out, a2, a4, m, r, j, _, b1, b2, hr, ?_⟩
  rw [b1, Option.some.injEq] at a1
  rw [← a1] at a3
  simp only [Node.delivered] at a3
  rw [← a3, b2]
  rw [b2] at hr
  exact (delivered_at_return _ iv hiv _ _ _ _ hr).symm

/-- **C123 (console, several sources).**  Any number of sources feed a node from which a single chain of filters leads to a console sink, and no queue on the way has
been full.  When the process has exited, the sink has printed, in order and once each, exactly the lines among what the filters make of what was received from
those sources: all they sent before the signal, and perhaps some of what they sent later. -/
theorem C123_several_console (c : Config) (hd : Distinct c) (p : Setup F) (hp : SetUp c p) (ls : Nat → Label F) (T t : Nat)
    (hT : ∀ t' < T, ls t' ≠ .signal) (h : (run p ls t).main = .exited) (first : Str) (fs : List Str) (n : Str) (hfun : Funnel c first fs n)
    (hn : n ∈ c.sinks) (hroom : ∀ m ∈ fs ++ [n], (run p ls t).lost m = [])
    (ext : Console.Ext F) (interval : Nat) (clock : Nat → Int) (stamps : Nat → Str × Str) (binWidth : Int) (tags : TagMap)
    (hk : p.sink n = ⟨_, consoleImpl ext interval clock stamps, some { state := Console.init binWidth tags }⟩) :
    ∃ received out m r, Through (fs.map p.filter) (received.map (·.2)) out ∧ FromSources c p ls first T t received ∧
      (run p ls t).nodes n = some (.sink ⟨_, consoleImpl ext interval clock stamps, some { state := Console.init binWidth tags }⟩ m r) ∧
      ∀ k, r.state = some k → k.log.flatMap (·.1) = linesIn out ∧
      ∀ b ∈ k.log, ∃ parts : List Str, b.1.map (Console.printLine ext tags) = parts.map some ∧ parts.flatten <:+: b.2 := by
  obtain ⟨received, out, a1, a2, a3⟩ := several_at_exit c hd p hp ls T t hT h first fs n hfun hn hroom (some interval)
    (by rw [hk]; intro st; rfl)
  rw [hk] at a3
  obtain ⟨m, r, j, recv, b1, b2, b3, b4⟩ := a3
  subst b2
  refine ⟨received, out, m, _, a1, a2, b1, fun k hkk => ?_⟩
  obtain ⟨e1, e2⟩ := C86_console ext interval clock stamps binWidth tags m j recv k b3 hkk
  refine ⟨?_, e2⟩
  rw [e1, ← linesIn_payload, b4, linesIn_payload]

/-- **C123 (native, several sources).**  The same for the native sink: the batches it has written are the points and lines. -/
theorem C123_several_native (c : Config) (hd : Distinct c) (p : Setup F) (hp : SetUp c p) (ls : Nat → Label F) (T t : Nat)
    (hT : ∀ t' < T, ls t' ≠ .signal) (h : (run p ls t).main = .exited) (first : Str) (fs : List Str) (n : Str) (hfun : Funnel c first fs n)
    (hn : n ∈ c.sinks) (hroom : ∀ m ∈ fs ++ [n], (run p ls t).lost m = [])
    (bits : Native.Bits F) (interval : Nat) (os : Nat → List Bool) (connected : Bool) (tags : TagMap)
    (hk : p.sink n = ⟨_, nativeImpl bits interval os, some { state := { connected := connected, tags := tags } }⟩) :
    ∃ received out m r, Through (fs.map p.filter) (received.map (·.2)) out ∧ FromSources c p ls first T t received ∧
      (run p ls t).nodes n = some (.sink ⟨_, nativeImpl bits interval os, some { state := { connected := connected, tags := tags } }⟩ m r) ∧
      ∀ k, r.state = some k → k.log.flatMap (·.1) = out.filter Event.isPointOrLine ∧
      ∀ b ∈ k.log, ∃ bs, Native.FlushWrites bits tags b.1 bs ∧ b.2.getLast? = some (.write bs) := by
  obtain ⟨received, out, a1, a2, a3⟩ := several_at_exit c hd p hp ls T t hT h first fs n hfun hn hroom (some interval)
    (by rw [hk]; intro st; rfl)
  rw [hk] at a3
  obtain ⟨m, r, j, recv, b1, b2, b3, b4⟩ := a3
  subst b2
  refine ⟨received, out, m, _, a1, a2, b1, fun k hkk => ?_⟩
  obtain ⟨e1, e2⟩ := C86_native bits interval os connected tags m j recv k b3 hkk
  refine ⟨?_, e2⟩
  have hsub : ∀ es : List (Event F), es.filter Event.isPointOrLine = (es.filter Event.isPayload).filter Event.isPointOrLine := by
    intro es
    rw [List.filter_filter]
    congr 1
    funext e
    cases e <;> rfl
  rw [e1, hsub, b4, ← hsub]

/-- **C123 (InfluxDB, several sources).**  The same for the InfluxDB sink: the points have been posted in flushes, in order and once each. -/
theorem C123_several_influxdb (c : Config) (hd : Distinct c) (p : Setup F) (hp : SetUp c p) (ls : Nat → Label F) (T t : Nat)
    (hT : ∀ t' < T, ls t' ≠ .signal) (h : (run p ls t).main = .exited) (first : Str) (fs : List Str) (n : Str) (hfun : Funnel c first fs n)
    (hn : n ∈ c.sinks) (hroom : ∀ m ∈ fs ++ [n], (run p ls t).lost m = [])
    (ext : Wavefront.Ext F) (interval : Nat) (os : Nat → List Influx.Outcome) (tags : TagMap)
    (hk : p.sink n = ⟨_, influxImpl ext interval os, some { state := Influx.init tags }⟩) :
    ∃ received out m r, Through (fs.map p.filter) (received.map (·.2)) out ∧ FromSources c p ls first T t received ∧
      (run p ls t).nodes n = some (.sink ⟨_, influxImpl ext interval os, some { state := Influx.init tags }⟩ m r) ∧
      ∀ k, r.state = some k → k.log.flatMap (·.1) = pointsIn out ∧
      ∀ b ∈ k.log, ∃ text, Influx.formatStats ext tags b.1 = some text ∧ b.2.getLast? = some (.post text) := by
  obtain ⟨received, out, a1, a2, a3⟩ := several_at_exit c hd p hp ls T t hT h first fs n hfun hn hroom (some interval)
    (by rw [hk]; intro st; rfl)
  rw [hk] at a3
  obtain ⟨m, r, j, recv, b1, b2, b3, b4⟩ := a3
  subst b2
  refine ⟨received, out, m, _, a1, a2, b1, fun k hkk => ?_⟩
  obtain ⟨e1, e2⟩ := C86_influxdb ext interval os tags m j recv k b3 hkk
  refine ⟨?_, e2⟩
  rw [e1, ← pointsIn_payload, b4, pointsIn_payload]

/-- **C123 (Wavefront, several sources).**  The same for the Wavefront sink: the points given to its flushes are those points, and every flush ended with one
complete write of the lines of what the store then held. -/
theorem C123_several_wavefront (c : Config) (hd : Distinct c) (p : Setup F) (hp : SetUp c p) (ls : Nat → Label F) (T t : Nat)
    (hT : ∀ t' < T, ls t' ≠ .signal) (h : (run p ls t).main = .exited) (first : Str) (fs : List Str) (n : Str) (hfun : Funnel c first fs n)
    (hn : n ∈ c.sinks) (hroom : ∀ m ∈ fs ++ [n], (run p ls t).lost m = [])
    (ext : Wavefront.Ext F) (interval : Nat) (clock : Nat → Int) (os : Nat → List Wavefront.Io)
    (w : Int) (ps : List (Str × F)) (age : Option Nat) (connected : Bool) (pc : Wavefront.PadControl) (tags : TagMap)
    (hage : ∀ a, age = some a → a < 2 ^ 63)
    (hk : p.sink n = ⟨_, wavefrontImpl ext interval clock os, some { state := Wavefront.State.init w ps age connected pc tags }⟩) :
    ∃ received out m r, Through (fs.map p.filter) (received.map (·.2)) out ∧ FromSources c p ls first T t received ∧
      (run p ls t).nodes n = some (.sink ⟨_, wavefrontImpl ext interval clock os, some { state := Wavefront.State.init w ps age connected pc tags }⟩ m r) ∧
      ∀ k, r.state = some k → ∃ bs : List (WfFlush F),
        (bs.flatMap fun b => b.points.map (·.2)) = pointsIn out ∧
        (bs.flatMap fun b => b.points.map (·.1) ++ [b.time]) = (List.range k.calls).map clock ∧ k.log.length = bs.length ∧
        ∀ A b B, bs = A ++ b :: B → ∃ store pts shown text W,
          runBucket ext.nameTagHash (Buckets.new w) (wfHistory age A ++ b.adds age) = some store ∧ store.iter = some pts ∧
          Wavefront.Padded pts pts shown ∧ ((∀ k, Wavefront.pads pc k = false) → shown = pts) ∧
          (Wavefront.HashOk ext pts → ∀ k, Wavefront.pads pc k = false →
            (shown.filter fun t => t.kind = k) = pts.filter fun t => t.kind = k) ∧
          k.log[A.length]? = some (W ++ [.complete text]) ∧ (∀ e ∈ W, ∃ n, e = .part (text.take n) ∨ e = .delay n) ∧
          ∀ vals, Wavefront.Ordered ext vals → (∀ t ∈ shown, ∀ x, Wavefront.printed ps t x → vals x) →
            text = (shown.map (Wavefront.pointText ext ps tags)).flatten := by
  obtain ⟨received, out, a1, a2, a3⟩ := several_at_exit c hd p hp ls T t hT h first fs n hfun hn hroom (some interval)
    (by rw [hk]; intro st; rfl)
  rw [hk] at a3
  obtain ⟨m, r, j, recv, b1, b2, b3, b4⟩ := a3
  subst b2
  refine ⟨received, out, m, _, a1, a2, b1, fun k hkk => ?_⟩
  obtain ⟨bs, e1, e2⟩ := C86_wavefront ext interval clock os w ps age connected pc tags hage m j recv k b3 hkk
  exact ⟨bs, by rw [e1, ← pointsIn_payload, b4, pointsIn_payload], e2⟩

/-- **C123 (Kafka, several sources).**  When the process has exited, the Kafka sink has nothing in flight, and for every connection id as many messages have
reached a final outcome as the filters have let through raw events with that id; each connection was acknowledged that often. -/
theorem C123_several_kafka (c : Config) (hd : Distinct c) (p : Setup F) (hp : SetUp c p) (ls : Nat → Label F) (T t : Nat)
    (hT : ∀ t' < T, ls t' ≠ .signal) (h : (run p ls t).main = .exited) (first : Str) (fs : List Str) (n : Str) (hfun : Funnel c first fs n)
    (hn : n ∈ c.sinks) (hroom : ∀ m ∈ fs ++ [n], (run p ls t).lost m = [])
    (utf8 : Bytes → Bool) (interval : Nat) (topic : Str) (maxBytes : Nat) (script : List (Submission → KOutcome))
    (hk : p.sink n = ⟨_, kafkaImpl utf8 interval, some { topicName := topic, maxMessageBytes := maxBytes, script := script }⟩) :
    ∃ received out m r, Through (fs.map p.filter) (received.map (·.2)) out ∧ FromSources c p ls first T t received ∧
      (run p ls t).nodes n = some (.sink ⟨_, kafkaImpl utf8 interval, some { topicName := topic, maxMessageBytes := maxBytes, script := script }⟩ m r) ∧
      ∀ k, r.state = some k → k.messages = [] ∧
        (∀ o, (Kafka.finals k.trace).count o = ((rawsIn out).map (·.connectionId)).count o) ∧
        ∀ c : Nat, (Kafka.acks k.trace).count c = ((rawsIn out).map (·.connectionId)).count (some c) := by
  obtain ⟨received, out, a1, a2, a3⟩ := several_at_exit c hd p hp ls T t hT h first fs n hfun hn hroom (some interval)
    (by rw [hk]; intro st; rfl)
  rw [hk] at a3
  obtain ⟨m, r, j, recv, b1, b2, b3, b4⟩ := a3
  subst b2
  refine ⟨received, out, m, _, a1, a2, b1, fun k hkk => ?_⟩
  have e := C86_kafka utf8 interval topic maxBytes script m j recv k b3 hkk
  rw [← rawsIn_payload, b4, rawsIn_payload] at e
  exact e

/-! ## A `Shutdown` that overtakes -/

private def joined : Config := ⟨[['k']], [(['f'], [['k']])], [], [(['a'], [['f']]), (['b'], [['k']])]⟩

private def joinedSetup : Setup Int where
  wiring := ⟨[(['k'], [['f'], ['b']])], [(['f'], [['a']], [['k']])], [(['a'], [['f']]), (['b'], [['k']])], [['f'], ['k']]⟩
  filter _ := ⟨_, delayProcess, 10⟩
  sink _ := ⟨Unit, nullImpl, ()⟩
  stopOrder := [1, 0]
  joinOrder := [['k'], ['f']]

/-- A line is waiting in the filter's queue when the other source ends. -/
private def joinedRota : List (Label Int) := [.emit 0 (.log (.new 0 ['p'] ['v'])), .signal, .main, .main, .stop 1, .act ['k'] 0, .act ['k'] 0, .act ['k'] 0, .main,
  .main, .stop 0, .main, .main, .act ['f'] 0, .act ['f'] 0, .main, .main, .main]

/-- **C93 is false** of what was sent before the signal when chains join further down: the `Shutdown` of a source that forwards straight to the sink
overtakes a line that waits in the queue of a filter.  The process exits although the line, sent before the signal, has not been given to the sink. -/
theorem C93_overtaken_false : ∃ (c : Config) (p : Setup Int) (ls : Nat → Label Int) (T t : Nat) (l : LogLine),
    Distinct c ∧ SetUp c p ∧ (∀ t' < T, ls t' ≠ .signal) ∧ Forwards c ['a'] ['f'] ∧ Forwards c ['f'] ['k'] ∧
    p.wiring.sources[0]? = some (['a'], [['f']]) ∧ sourceSent p ls 0 T = [.log l] ∧ (run p ls t).main = .exited ∧
    (run p ls t).lost ['f'] = [] ∧ (run p ls t).lost ['k'] = [] ∧ (.filter ['f'], .log l) ∈ (run p ls t).log ['k'] ∧
    ((run p ls t).nodes ['k']).map Node.delivered = some [] := by
  refine ⟨joined, joinedSetup, fun t => joinedRota[t]?.getD .main, 1, 18, .new 0 ['p'] ['v'], by decide, ⟨rfl, by decide, by decide, ?_⟩, ?_,
    ⟨[['f']], by decide, by decide⟩, ⟨[['k']], by decide, by decide⟩, rfl, by decide +kernel, by decide +kernel, by decide +kernel, by decide +kernel, by decide +kernel,
    by decide +kernel⟩
  · intro n _; exact (C63_filters_proper 10 0 ⟨fun _ => none, fun _ => [], fun _ => []⟩ ⟨false, [], id, 0⟩
      (L := Unit) (fun _ _ q => ((), .ok q)) (fun _ => .timerFlush 0) (fun _ => rfl) (fun _ q => ⟨q, rfl⟩) ⟨(), 0, []⟩).1
  · intro t' ht'
    obtain rfl : t' = 0 := by omega
    intro h; cases h

/-! ## An example: two sources, a filter and a console -/

private def both : Config := ⟨[['k']], [(['f'], [['k']])], [], [(['a'], [['f']]), (['b'], [['f']])]⟩

private def bothSetup : Setup Int where
  wiring := ⟨[(['k'], [['f']])], [(['f'], [['a'], ['b']], [['k']])], [(['a'], [['f']]), (['b'], [['f']])], [['f']]⟩
  filter _ := ⟨_, delayProcess, 10⟩
  sink _ := ⟨_, consoleImpl consoleExt 1000 (fun _ => 0) (fun _ => (['1'], ['2'])), some { state := Console.init 1 [] }⟩
  stopOrder := [0, 1]
  joinOrder := [['k'], ['f']]

/-- Three lines, then the signal, and a fourth line from the second source when the first has already returned. -/
private def bothRota : List (Label Int) := [.emit 0 (.log (.new 5 ['p'] ['v'])), .emit 1 (.log (.new 6 ['q'] ['w'])), .emit 0 (.log (.new 7 ['p'] ['u'])),
  .signal, .main, .main, .stop 0, .emit 1 (.log (.new 8 ['q'] ['z'])), .main, .main, .stop 1, .main, .main,
  .act ['f'] 0, .act ['f'] 0, .act ['f'] 0, .act ['f'] 0, .act ['f'] 0, .act ['f'] 0, .act ['k'] 0, .act ['k'] 0, .act ['k'] 0, .act ['k'] 0,
  .act ['k'] 0, .act ['k'] 0, .act ['k'] 0, .act ['k'] 0, .act ['k'] 0, .act ['k'] 0, .main, .main, .main, .main]

private def bothLabels (t : Nat) : Label Int := bothRota[t]?.getD .main

example : Distinct both ∧ SetUp both bothSetup ∧ (∀ t' < 3, bothLabels t' ≠ .signal) ∧ Funnel both ['f'] [['f']] ['k'] ∧ ['k'] ∈ both.sinks ∧
    (run bothSetup bothLabels 40).main = .exited ∧ (∀ m ∈ [['f']] ++ [['k']], (run bothSetup bothLabels 40).lost m = []) := by
  have hall : ∀ u n, Forwards both u n → u = ['f'] ∧ n = ['k'] ∨ (u = ['a'] ∨ u = ['b']) ∧ n = ['f'] := by
    rintro u n ⟨fs, h1, h2⟩
    simp only [both, List.mem_append, List.mem_cons, Prod.mk.injEq, List.not_mem_nil, or_false, false_or] at h1
    rcases h1 with ⟨rfl, rfl⟩ | ⟨rfl, rfl⟩ | ⟨rfl, rfl⟩
    · exact .inl ⟨rfl, by simpa using h2⟩
    · exact .inr ⟨.inl rfl, by simpa using h2⟩
    · exact .inr ⟨.inr rfl, by simpa using h2⟩
  refine ⟨by decide, ⟨rfl, by decide, by decide, ?_⟩, ?_, ?_, by decide, by decide +kernel, ?_⟩
  · intro n _; exact (C63_filters_proper 10 0 ⟨fun _ => none, fun _ => [], fun _ => []⟩ ⟨false, [], id, 0⟩
      (L := Unit) (fun _ _ q => ((), .ok q)) (fun _ => .timerFlush 0) (fun _ => rfl) (fun _ q => ⟨q, rfl⟩) ⟨(), 0, []⟩).1
  · intro t' ht' h
    have : t' = 0 ∨ t' = 1 ∨ t' = 2 := by omega
    rcases this with rfl | rfl | rfl <;> cases h
  · refine .via [] ['f'] ['k'] (.sources (.inr ⟨_, List.mem_singleton.2 rfl⟩) ?_) ⟨[['k']], by decide, by decide⟩ ?_
    · intro u hu; rcases hall u _ hu with ⟨-, h⟩ | ⟨h | h, -⟩
      · exact absurd h (by decide)
      · rw [h]; decide
      · rw [h]; decide
    · intro u hu; rcases hall u _ hu with ⟨h, -⟩ | ⟨-, h⟩
      · exact h
      · exact absurd h (by decide)
  · intro m hm
    have : m = ['f'] ∨ m = ['k'] := by simpa using hm
    rcases this with rfl | rfl <;> decide +kernel

/-- What was sent before the signal has been given to the console; the fourth line has not. -/
example : ((run bothSetup bothLabels 40).nodes ['k']).map Node.delivered =
    some [.log (.new 5 ['p'] ['v']), .log (.new 6 ['q'] ['w']), .log (.new 7 ['p'] ['u'])] := by decide +kernel

end Verif
