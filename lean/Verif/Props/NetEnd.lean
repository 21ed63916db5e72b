import Verif.Props.NetAcked
import Verif.Spec.NetEnd
/-!
# C92 and C123: a process that is told to stop exits, having written everything

Unlike in `C123_in_the_end` the sinks may be of any kind and fed by any number of sources, and their valves need only open in what happens to them in this run, as do those of
Wavefront sinks that are given few series.
-/
namespace Verif
open Net Topology
open Pipeline (Through)
variable {F : Type} [F64 F]

theorem Net.exits_in_the_end (c : Config) (p : Setup F) (ls : Nat → Label F) (h : Ending c p ls) :
    ∃ t, (run p ls t).main = .exited ∧ ∀ n, (run p ls t).lost n = [] := by
  obtain ⟨t, ht⟩ := (C92_exits_run_partial c h.distinct p h.setUp ls h.reopen h.fair (shutdowns_kept 0 fun n => .inl (h.room n)) h.signal).2 h.fed
  exact ⟨t, ht, fun n => by rw [lost_settled (Nat.zero_le t) fun k _ => h.room n k]; rfl⟩

/-- **C123 (console, in the end).**  A process like that exits; by then a console sink reached from any number of sources through a chain of filters has printed, in order and once each,
the lines among what the filters make of what was received: all the sources sent before the signal, and perhaps some of what they sent later. -/
theorem C123_console_in_the_end (c : Config) (p : Setup F) (ls : Nat → Label F) (h : Ending c p ls) (T : Nat) (hT : ∀ t < T, ls t ≠ .signal)
    (first : Str) (fs : List Str) (n : Str) (hfun : Funnel c first fs n) (hn : n ∈ c.sinks)
    (ext : Console.Ext F) (interval : Nat) (clock : Nat → Int) (stamps : Nat → Str × Str) (binWidth : Int) (tags : TagMap)
    (hk : p.sink n = ⟨_, consoleImpl ext interval clock stamps, some { state := Console.init binWidth tags }⟩) :
    ∃ t received out m r k, (run p ls t).main = .exited ∧ Through (fs.map p.filter) (received.map (·.2)) out ∧ FromSources c p ls first T t received ∧
      (run p ls t).nodes n = some (.sink ⟨_, consoleImpl ext interval clock stamps, some { state := Console.init binWidth tags }⟩ m r) ∧
      r.state = some k ∧ k.log.flatMap (·.1) = linesIn out ∧
      ∀ b ∈ k.log, ∃ parts : List Str, b.1.map (Console.printLine ext tags) = parts.map some ∧ parts.flatten <:+: b.2 := by
  obtain ⟨t, ht, hl⟩ := exits_in_the_end c p ls h
  obtain ⟨received, out, m, r, a1, a2, a3, a4⟩ := C123_several_console c h.distinct p h.setUp ls T t hT ht first fs n hfun hn (fun m _ => hl m)
    ext interval clock stamps binWidth tags hk
  have hv := h.reopen n hn t
  rw [hk] at hv
  obtain ⟨k, hkk⟩ := flushes_none rfl rfl (hv m r a3)
  exact ⟨t, received, out, m, r, k, ht, a1, a2, a3, hkk, a4 k hkk⟩

/-- **C123 (native, in the end).**  The same for a native sink. -/
theorem C123_native_in_the_end (c : Config) (p : Setup F) (ls : Nat → Label F) (h : Ending c p ls) (T : Nat) (hT : ∀ t < T, ls t ≠ .signal)
    (first : Str) (fs : List Str) (n : Str) (hfun : Funnel c first fs n) (hn : n ∈ c.sinks)
    (bits : Native.Bits F) (interval : Nat) (os : Nat → List Bool) (connected : Bool) (tags : TagMap)
    (hk : p.sink n = ⟨_, nativeImpl bits interval os, some { state := { connected := connected, tags := tags } }⟩) :
    ∃ t received out m r k, (run p ls t).main = .exited ∧ Through (fs.map p.filter) (received.map (·.2)) out ∧ FromSources c p ls first T t received ∧
      (run p ls t).nodes n = some (.sink ⟨_, nativeImpl bits interval os, some { state := { connected := connected, tags := tags } }⟩ m r) ∧
      r.state = some k ∧ k.log.flatMap (·.1) = out.filter Event.isPointOrLine ∧
      ∀ b ∈ k.log, ∃ bs, Native.FlushWrites bits tags b.1 bs ∧ b.2.getLast? = some (.write bs) := by
  obtain ⟨t, ht, hl⟩ := exits_in_the_end c p ls h
  obtain ⟨received, out, m, r, a1, a2, a3, a4⟩ := C123_several_native c h.distinct p h.setUp ls T t hT ht first fs n hfun hn (fun m _ => hl m)
    bits interval os connected tags hk
  have hv := h.reopen n hn t
  rw [hk] at hv
  obtain ⟨k, hkk⟩ := flushes_none rfl rfl (hv m r a3)
  exact ⟨t, received, out, m, r, k, ht, a1, a2, a3, hkk, a4 k hkk⟩

/-- **C123 (InfluxDB, in the end).**  The same for an InfluxDB sink. -/
theorem C123_influxdb_in_the_end (c : Config) (p : Setup F) (ls : Nat → Label F) (h : Ending c p ls) (T : Nat) (hT : ∀ t < T, ls t ≠ .signal)
    (first : Str) (fs : List Str) (n : Str) (hfun : Funnel c first fs n) (hn : n ∈ c.sinks)
    (ext : Wavefront.Ext F) (interval : Nat) (os : Nat → List Influx.Outcome) (tags : TagMap)
    (hk : p.sink n = ⟨_, influxImpl ext interval os, some { state := Influx.init tags }⟩) :
    ∃ t received out m r k, (run p ls t).main = .exited ∧ Through (fs.map p.filter) (received.map (·.2)) out ∧ FromSources c p ls first T t received ∧
      (run p ls t).nodes n = some (.sink ⟨_, influxImpl ext interval os, some { state := Influx.init tags }⟩ m r) ∧
      r.state = some k ∧ k.log.flatMap (·.1) = pointsIn out ∧
      ∀ b ∈ k.log, ∃ text, Influx.formatStats ext tags b.1 = some text ∧ b.2.getLast? = some (.post text) := by
  obtain ⟨t, ht, hl⟩ := exits_in_the_end c p ls h
  obtain ⟨received, out, m, r, a1, a2, a3, a4⟩ := C123_several_influxdb c h.distinct p h.setUp ls T t hT ht first fs n hfun hn (fun m _ => hl m)
    ext interval os tags hk
  have hv := h.reopen n hn t
  rw [hk] at hv
  obtain ⟨k, hkk⟩ := flushes_none rfl rfl (hv m r a3)
  exact ⟨t, received, out, m, r, k, ht, a1, a2, a3, hkk, a4 k hkk⟩

/-- **C123 (Wavefront, in the end).**  The same for a Wavefront sink: the points have been given to its flushes, in order and once each, and every flush ended with one complete write
of the lines of what the store then held. -/
theorem C123_wavefront_in_the_end (c : Config) (p : Setup F) (ls : Nat → Label F) (h : Ending c p ls) (T : Nat) (hT : ∀ t < T, ls t ≠ .signal)
    (first : Str) (fs : List Str) (n : Str) (hfun : Funnel c first fs n) (hn : n ∈ c.sinks)
    (ext : Wavefront.Ext F) (interval : Nat) (clock : Nat → Int) (os : Nat → List Wavefront.Io)
    (w : Int) (ps : List (Str × F)) (age : Option Nat) (connected : Bool) (pc : Wavefront.PadControl) (tags : TagMap)
    (hage : ∀ a, age = some a → a < 2 ^ 63)
    (hk : p.sink n = ⟨_, wavefrontImpl ext interval clock os, some { state := Wavefront.State.init w ps age connected pc tags }⟩) :
    ∃ t received out m r k, (run p ls t).main = .exited ∧ Through (fs.map p.filter) (received.map (·.2)) out ∧ FromSources c p ls first T t received ∧
      (run p ls t).nodes n = some (.sink ⟨_, wavefrontImpl ext interval clock os, some { state := Wavefront.State.init w ps age connected pc tags }⟩ m r) ∧
      r.state = some k ∧ ∃ bs : List (WfFlush F),
        (bs.flatMap fun b => b.points.map (·.2)) = pointsIn out ∧
        (bs.flatMap fun b => b.points.map (·.1) ++ [b.time]) = (List.range k.calls).map clock ∧ k.log.length = bs.length ∧
        ∀ A b B, bs = A ++ b :: B → ∃ store pts shown text W,
          runBucket ext.nameTagHash (Buckets.new w) (wfHistory age A ++ b.adds age) = some store ∧ store.iter = some pts ∧
          Wavefront.Padded pts pts shown ∧ ((∀ k, Wavefront.pads pc k = false) → shown = pts) ∧
          (Wavefront.HashOk ext pts → ∀ k, Wavefront.pads pc k = false →
            (shown.filter fun t => t.kind = k) = pts.filter fun t => t.kind = k) ∧
          k.log[A.length]? = some (W ++ [.complete text]) ∧ (∀ e ∈ W, ∃ n, e = .part (text.take n) ∨ e = .delay n) ∧
          ∀ vals, Wavefront.Ordered ext vals → (∀ t ∈ shown, ∀ x, Wavefront.printed ps t x → vals x) →
            text = (shown.map (Wavefront.pointText ext ps tags)).flatten := by
  obtain ⟨t, ht, hl⟩ := exits_in_the_end c p ls h
  obtain ⟨received, out, m, r, a1, a2, a3, a4⟩ := C123_several_wavefront c h.distinct p h.setUp ls T t hT ht first fs n hfun hn (fun m _ => hl m)
    ext interval clock os w ps age connected pc tags hage hk
  have hv := h.reopen n hn t
  rw [hk] at hv
  obtain ⟨k, hkk⟩ := flushes_none rfl rfl (hv m r a3)
  exact ⟨t, received, out, m, r, k, ht, a1, a2, a3, hkk, a4 k hkk⟩

/-- **C123 (Kafka, in the end).**  The same for a Kafka sink: nothing is in flight, and for every connection id as many messages have reached a final outcome, and as many
acknowledgements have been given, as the filters have let through raw events with that id. -/
theorem C123_kafka_in_the_end (c : Config) (p : Setup F) (ls : Nat → Label F) (h : Ending c p ls) (T : Nat) (hT : ∀ t < T, ls t ≠ .signal)
    (first : Str) (fs : List Str) (n : Str) (hfun : Funnel c first fs n) (hn : n ∈ c.sinks)
    (utf8 : Bytes → Bool) (interval : Nat) (topic : Str) (maxBytes : Nat) (script : List (Submission → KOutcome))
    (hk : p.sink n = ⟨_, kafkaImpl utf8 interval, some { topicName := topic, maxMessageBytes := maxBytes, script := script }⟩) :
    ∃ t received out m r k, (run p ls t).main = .exited ∧ Through (fs.map p.filter) (received.map (·.2)) out ∧ FromSources c p ls first T t received ∧
      (run p ls t).nodes n = some (.sink ⟨_, kafkaImpl utf8 interval, some { topicName := topic, maxMessageBytes := maxBytes, script := script }⟩ m r) ∧
      r.state = some k ∧ k.messages = [] ∧
        (∀ o, (Kafka.finals k.trace).count o = ((rawsIn out).map (·.connectionId)).count o) ∧
        ∀ c : Nat, (Kafka.acks k.trace).count c = ((rawsIn out).map (·.connectionId)).count (some c) := by
  obtain ⟨t, ht, hl⟩ := exits_in_the_end c p ls h
  obtain ⟨received, out, m, r, a1, a2, a3, a4⟩ := C123_several_kafka c h.distinct p h.setUp ls T t hT ht first fs n hfun hn (fun m _ => hl m)
    utf8 interval topic maxBytes script hk
  have hv := h.reopen n hn t
  rw [hk] at hv
  obtain ⟨k, hkk⟩ := flushes_none rfl rfl (hv m r a3)
  exact ⟨t, received, out, m, r, k, ht, a1, a2, a3, hkk, a4 k hkk⟩

/-! ## An example: two sources, a Kafka sink and a Wavefront sink -/

private def ended : Config := ⟨[['k'], ['w']], [], [], [(['a'], [['k'], ['w']]), (['b'], [['w']])]⟩

private def endedCounter (i : Nat) : Telemetry Int := ⟨if i = 0 then ['c'] else ['d', 'd'], .sum 1, true, none, i, none, none⟩

private def endedSetup : Setup Int where
  wiring := ⟨[(['k'], [['a']]), (['w'], [['a'], ['b']])], [], [(['a'], [['k'], ['w']]), (['b'], [['w']])], [['k'], ['w']]⟩
  filter _ := ⟨_, delayProcess, 10⟩
  sink n := if n = ['k'] then
      ⟨_, kafkaImpl (fun _ => true) 3, some { topicName := ['t'], maxMessageBytes := 10, script := [fun _ => .published] }⟩
    else ⟨_, wavefrontImpl wfExt 3 (fun i => i) (fun _ => [.fail 2, .ok, .ok]), some { state := Wavefront.State.init 1 [] none true ⟨false, false, false, false⟩ [] }⟩
  stopOrder := [0, 1]
  joinOrder := [['k'], ['w']]

/-- Both sources send a counter, one of them publishes something; then everyone in turn, with a signal now and then. -/
private def endedLabels (t : Nat) : Label Int :=
  if t = 0 then .emit 0 (.telemetry (endedCounter 0)) else if t = 1 then .emit 1 (.telemetry (endedCounter 1)) else
  if t = 2 then .emit 0 (.raw ⟨5, .raw, [1, 2], none, some 7⟩) else
  if t % 6 = 0 then .act ['k'] 0 else if t % 6 = 1 then .act ['w'] 0 else if t % 6 = 2 then .stop 0 else
  if t % 6 = 3 then .stop 1 else if t % 6 = 4 then .main else .signal

private theorem ended_label {t : Nat} (ht : 3 ≤ t) : endedLabels t = if t % 6 = 0 then .act ['k'] 0 else if t % 6 = 1 then .act ['w'] 0 else
    if t % 6 = 2 then .stop 0 else if t % 6 = 3 then .stop 1 else if t % 6 = 4 then .main else .signal := by
  simp only [endedLabels]; rw [if_neg (by omega), if_neg (by omega), if_neg (by omega)]

private theorem ended_wavefront : ∀ t, ∀ x ∈ (run endedSetup endedLabels t).log ['w'], ∀ v, x.2 = .telemetry v → v = endedCounter 0 ∨ v = endedCounter 1 := by
  intro t
  induction t with
  | zero => intro x hx; cases hx
  | succ t ih =>
    intro x hx v hv
    rw [log_succ rfl] at hx
    rcases List.mem_append.1 hx with hx | hx
    · exact ih x hx v hv
    obtain ⟨e, he, rfl⟩ := List.mem_map.1 hx
    have he := arrive_mem he
    simp only at hv
    subst hv
    have emit : ∀ i (e x : Event Int) s, x ∈ offered endedSetup s (.emit i e) ['w'] → x = e := by
      intro i e x s h
      simp only [offered] at h
      split at h
      · cases h
      · split at h
        · exact (List.mem_replicate.1 h).2
        · cases h
    have noact : ∀ m, Event.telemetry v ∉ offered endedSetup (run endedSetup endedLabels t) (.act m 0) ['w'] := by
      intro m hm
      simp only [offered] at hm
      cases hnd : (run endedSetup endedLabels t).nodes m with
      | none => simp [hnd] at hm
      | some nd =>
        simp only [hnd, List.mem_flatMap, List.mem_replicate] at hm
        obtain ⟨e', h1, h2, -⟩ := hm
        rcases node_of t hnd with ⟨ups, ch, q, r, g1, rfl⟩ | ⟨ups, r, g1, rfl⟩
        · cases g1
        · simp [Node.channels] at h2
    have nostop : ∀ i, Event.telemetry v ∉ offered endedSetup (run endedSetup endedLabels t) (.stop i) ['w'] := by
      intro i hm
      simp only [offered] at hm
      split at hm
      · cases hm
      · split at hm
        · have := (List.mem_replicate.1 hm).2; cases this
        · cases hm
    by_cases h0 : t = 0
    · subst h0
      have := emit _ _ _ _ he
      simp only [Event.telemetry.injEq] at this; exact .inl this
    by_cases h1 : t = 1
    · subst h1
      have := emit _ _ _ _ he
      simp only [Event.telemetry.injEq] at this; exact .inr this
    by_cases h2 : t = 2
    · subst h2
      cases emit _ _ _ _ he
    rw [ended_label (by omega)] at he
    split at he
    · exact absurd he (noact _)
    split at he
    · exact absurd he (noact _)
    split at he
    · exact absurd he (nostop _)
    split at he
    · exact absurd he (nostop _)
    split at he <;> cases he

/-- All that the theorems above ask for. -/
example : Ending ended endedSetup endedLabels ∧ Funnel ended ['k'] [] ['k'] ∧ Funnel ended ['w'] [] ['w'] ∧ ∀ t < 3, endedLabels t ≠ .signal := by
  have hd : Distinct ended := by decide
  have hp : SetUp ended endedSetup := ⟨rfl, by decide, by decide, fun n _ => (C63_filters_proper 10 0 ⟨fun _ => none, fun _ => [], fun _ => []⟩ ⟨false, [], id, 0⟩
      (L := Unit) (fun _ _ q => ((), .ok q)) (fun _ => .timerFlush 0) (fun _ => rfl) (fun _ q => ⟨q, rfl⟩) ⟨(), 0, []⟩).1⟩
  have hsrc : ∀ n, HasChannel ended n → Funnel ended n [] n := by
    refine fun n h => .sources h ?_
    rintro u ⟨fs, h1, h2⟩
    simp only [ended, List.mem_append, List.mem_cons, Prod.mk.injEq, List.not_mem_nil, or_false, false_or] at h1
    rcases h1 with ⟨rfl, -⟩ | ⟨rfl, -⟩ <;> decide
  have again : ∀ r t, r < 6 → ∃ t' ≥ t, 3 ≤ t' ∧ t' % 6 = r := fun r t hr => ⟨6 * (t + 1) + r, by omega, by omega, by omega⟩
  refine ⟨⟨hd, hp, ?_, fun _ _ => rfl, ?_, ⟨?_, ?_, ?_⟩, ⟨5, rfl⟩⟩, hsrc _ (.inl (by decide)), hsrc _ (.inl (by decide)), ?_⟩
  · rintro n (h | ⟨fs, h⟩)
    · exact .source ['a'] n (by decide) ⟨[['k'], ['w']], by decide, h⟩
    · cases h
  · intro n hn
    have : n = ['k'] ∨ n = ['w'] := by simpa [ended] using hn
    rcases this with rfl | rfl
    · refine reopens_on hd hp endedLabels (by decide) ?_
      exact C146_kafka_reopens (F := Int) (fun _ => true) (fun _ => rfl) 3 ['t'] 10 (by decide) [fun _ => .published]
    · refine C146_wavefront_reopens ended hd endedSetup hp endedLabels ['w'] (by decide) wfExt 3 (fun i => i) (fun _ => [.fail 2, .ok, .ok])
        (fun _ => ⟨[.fail 2], [], rfl⟩) 1 (by decide) [] none true ⟨false, false, false, false⟩ (fun k => by cases k <;> rfl) [] rfl (fun _ => True)
        ⟨id, fun a b _ _ => ⟨rfl, fun h => by rw [show a = b from h]⟩⟩ (fun _ _ _ _ => trivial) [endedCounter 0, endedCounter 1] (by decide) ?_ ?_
      · intro a ha b hb h
        simp only [List.mem_cons, List.not_mem_nil, or_false] at ha hb
        rcases ha with rfl | rfl <;> rcases hb with rfl | rfl <;> first | exact ⟨rfl, rfl⟩ | exact absurd h (by decide)
      · intro t x hx v hv
        rcases ended_wavefront t x hx v hv with rfl | rfl
        · exact ⟨.inr ⟨1, rfl, trivial⟩, _, by simp, rfl, rfl⟩
        · exact ⟨.inr ⟨1, rfl, trivial⟩, endedCounter 1, by simp, rfl, rfl⟩
  · intro n hn t
    have : n = ['k'] ∨ n = ['w'] := by simpa [endedSetup] using hn
    rcases this with rfl | rfl
    · obtain ⟨t', h1, h2, h3⟩ := again 0 t (by omega)
      exact ⟨t', h1, 0, by rw [ended_label h2, h3]; rfl⟩
    · obtain ⟨t', h1, h2, h3⟩ := again 1 t (by omega)
      exact ⟨t', h1, 0, by rw [ended_label h2, h3]; rfl⟩
  · intro i hi t
    have : i = 0 ∨ i = 1 := by simp only [endedSetup, List.length_cons, List.length_nil] at hi; omega
    rcases this with rfl | rfl
    · obtain ⟨t', h1, h2, h3⟩ := again 2 t (by omega)
      exact ⟨t', h1, by rw [ended_label h2, h3]; rfl⟩
    · obtain ⟨t', h1, h2, h3⟩ := again 3 t (by omega)
      exact ⟨t', h1, by rw [ended_label h2, h3]; rfl⟩
  · intro t
    obtain ⟨t', h1, h2, h3⟩ := again 4 t (by omega)
    exact ⟨t', h1, by rw [ended_label h2, h3]; rfl⟩
  · intro t ht
    have : t = 0 ∨ t = 1 ∨ t = 2 := by omega
    rcases this with rfl | rfl | rfl <;> (intro h; cases h)

/-- The process, run: it exits, and the Wavefront sink has been given both counters. -/
example : (run endedSetup endedLabels 100).main = .exited ∧ ((run endedSetup endedLabels 100).nodes ['w']).map Node.delivered =
    some [.telemetry (endedCounter 0), .telemetry (endedCounter 1), .raw ⟨5, .raw, [1, 2], none, some 7⟩] := by decide +kernel

end Verif
