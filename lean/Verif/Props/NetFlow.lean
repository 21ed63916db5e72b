import Verif.Lemmas.NetPulse
/-!
# C146: what is sent gets through without the process having to stop
-/
namespace Verif
open Net Topology
open Pipeline (Through)
variable {F : Type} [F64 F]

private theorem quiet {c : Config} (hd : Distinct c) {p : Setup F} (hp : SetUp c p) {ls : Nat → Label F} (hs : ∀ t, ls t ≠ .signal) {n : Str}
    (hc : HasChannel c n) (t : Nat) : ∀ x ∈ (run p ls t).log n, x.2.isShutdown = false := by
  have hw := hp.wired
  obtain ⟨-, w2, -⟩ := C57_mutual c hd _ hw
  exact quiet_log (linked hd hw) (fun n hn => hp.filters n (w2 ▸ hn)) t (fun t' _ => hs t') n (some_of_channel hd hw hc)

/-- **C146 (filters).**  A process is never told to stop, and the thread of a filter gets its turn again and again.  Whatever the filter's queue has accepted by
time `T`, there is a time by which the filter has read all of it and has sent what it makes of it. -/
theorem C146_filters (c : Config) (hd : Distinct c) (p : Setup F) (hp : SetUp c p) (ls : Nat → Label F) (hs : ∀ t, ls t ≠ .signal) (n : Str)
    (hn : n ∈ c.filters.map (·.1)) (hb : Busy ls n) (T : Nat) :
    ∃ t, T ≤ t ∧ ∃ nd read, ∃ clock : List Int, (run p ls t).nodes n = some nd ∧ ((run p ls T).log n).map (·.2) <+: read ∧
      read <+: ((run p ls t).log n).map (·.2) ∧ clock.length = read.length ∧
      nd.sent = expectedSent (p.filter n).process (p.filter n).start ((clock.zip read).map some) := by
  have hw := hp.wired
  obtain ⟨-, w2, -⟩ := C57_mutual c hd _ hw
  obtain ⟨⟨ups, ch⟩, hf⟩ := mem_fst (w2 ▸ hn)
  obtain ⟨⟨_, fs⟩, hfc, rfl⟩ := List.mem_map.1 hn
  obtain ⟨t, ht, ins, q, h1, h2, h3⟩ := filter_flows (linked hd hw) hf (fun t => hb t) (quiet hd hp hs (.inr ⟨fs, hfc⟩)) T
  refine ⟨t, ht, _, ins.map (·.2), ins.map (·.1), h1, h3, by rw [h2]; exact List.prefix_append _ _, by simp, ?_⟩
  have hz : (ins.map (·.1)).zip (ins.map (·.2)) = ins := by
    rw [List.zip_map']; simp
  rw [hz, Node.sent, Pipeline.after_sent (hp.filters _ hn).tidy _ _ _ rfl]
  rfl

/-- **C146 (sinks).**  A process is never told to stop, the thread of a sink gets its turn again and again, and flushing the sink opens its valve.  Whatever the
sink's queue has accepted by time `T`, there is a time by which the sink has been given all the payloads among it. -/
theorem C146_sinks (c : Config) (hd : Distinct c) (p : Setup F) (hp : SetUp c p) (ls : Nat → Label F) (hs : ∀ t, ls t ≠ .signal) (n : Str)
    (hn : n ∈ c.sinks) (hb : Busy ls n) (hre : ValveReopens p ls n)
    (iv : Option Nat) (hiv : ∀ st, (p.sink n).impl.flushInterval st = iv) (T : Nat) :
    ∃ t, T ≤ t ∧ ∃ nd, (run p ls t).nodes n = some nd ∧
      (((run p ls T).log n).map (·.2)).filter Event.isPayload <+: nd.delivered ∧
      nd.delivered <+: (((run p ls t).log n).map (·.2)).filter Event.isPayload := by
  have hw := hp.wired
  obtain ⟨w1, -⟩ := C57_mutual c hd _ hw
  obtain ⟨ups, hf⟩ := mem_fst (w1 ▸ hn)
  obtain ⟨t, ht, r, cns, h1, h2, h3⟩ := sink_flows (linked hd hw) hf (fun t => hb t) (quiet hd hp hs (.inl hn)) hre hiv T
  refine ⟨t, ht, _, h1, ?_, ?_⟩
  · rw [Node.delivered, h2.delivered]; exact h3.filter _
  · rw [Node.delivered, h2.delivered]
    refine List.IsPrefix.filter _ ?_
    rw [h2.split, List.append_assoc]
    exact List.prefix_append _ _

private theorem sent_prefix {σ : Type} (f : Process F σ) (a b : List (Option (Int × Event F))) (st : σ) :
    expectedSent f st a <+: expectedSent f st (a ++ b) := by
  induction a generalizing st with
  | nil => exact List.nil_prefix
  | cons x a ih =>
    cases x with
    | none => exact ih st
    | some y =>
      obtain ⟨now, e⟩ := y
      cases he : e.isShutdown with
      | true =>
        obtain rfl := isShutdown_true he
        exact List.cons_prefix_cons.2 ⟨rfl, ih st⟩
      | false =>
        rw [List.cons_append, expectedSent_event f st now e he, expectedSent_event f st now e he]
        split
        · exact List.prefix_append_right_inj _ |>.2 (ih _)
        · exact List.cons_prefix_cons.2 ⟨rfl, ih _⟩

private theorem sourceSent_mono {p : Setup F} {ls : Nat → Label F} (i : Nat) {t t' : Nat} (h : t ≤ t') : sourceSent p ls i t <+: sourceSent p ls i t' := by
  induction h with
  | refl => exact List.prefix_rfl
  | step _ ih => exact ih.trans (List.prefix_append _ _)

theorem Net.from_later {c : Config} {p : Setup F} {ls : Nat → Label F} {first : Str} {T t u : Nat} {received : List (Sender × Event F)}
    (h : FromSources c p ls first T t received) (htu : t ≤ u) : FromSources c p ls first T u received :=
  ⟨h.1, fun i s ch hs hf => ⟨(h.2 i s ch hs hf).1, (h.2 i s ch hs hf).2.trans (sourceSent_mono i htu)⟩⟩

/-- What has come to a node that only one filter feeds is what the filter has sent. -/
private theorem via_log {c : Config} (hd : Distinct c) {p : Setup F} (hp : SetUp c p) {ls : Nat → Label F} {first : Str} {fs : List Str} {f n : Str}
    (hfun : Funnel c first fs f) (hf : Forwards c f n) (honly : ∀ u, Forwards c u n → u = f) (u : Nat) (hroom : (run p ls u).lost n = []) :
    ∃ nd, (run p ls u).nodes f = some nd ∧ ((run p ls u).log n).map (·.2) = nd.sent := by
  have hw := hp.wired
  obtain ⟨w1, w2, w3, -, w5, w6, -, w7⟩ := C57_mutual c hd _ hw
  obtain ⟨-, -, -, -, n5, n6⟩ := names hd hw
  have hn := funnel_channel hd hw (.via fs f n hfun hf honly)
  have hff := funnel_filter hd hw hfun hf
  obtain ⟨nd, q1, q2, -⟩ := (C93_queues c hd p hp ls u n hn).2.1 f hff
  refine ⟨nd, q1, ?_⟩
  have q2 := q2 hf
  rw [hroom] at q2
  rw [← q2.none_dropped]
  apply acceptedFrom_only
  intro x hx
  have h0 := log_senders (some_of_channel hd hw hn) u x hx
  obtain ⟨xs, xe⟩ := x
  cases xs with
  | source j =>
    obtain ⟨v, ch, g1, g2⟩ := h0
    obtain rfl : v = f := honly v ((w6 v ch (List.mem_of_getElem? g1)).2 n |>.1 g2)
    exact absurd (w2 ▸ hff) (n5 v (List.mem_map.2 ⟨_, List.mem_of_getElem? g1, rfl⟩))
  | filter g =>
    obtain ⟨ups, ch, g1, g2⟩ := h0
    obtain rfl : g = f := honly g (((w5 g ups ch g1).2.2 n).1 g2)
    rfl
  | timer =>
    obtain ⟨s', hs', hfw⟩ := (w7 n).1 h0.1
    obtain rfl := honly s' hfw
    exact absurd (w2 ▸ hff) (n5 s' (w3 ▸ hs'))

/-- What the sources have sent by `T` reaches the queue of the last node. -/
private theorem reaches_queue {c : Config} (hd : Distinct c) {p : Setup F} (hp : SetUp c p) {ls : Nat → Label F} (hs : ∀ t, ls t ≠ .signal) (T : Nat)
    {first : Str} {fs : List Str} {n : Str} (h : Funnel c first fs n) (hb : ∀ m ∈ fs, Busy ls m)
    (hroom : ∀ t, ∀ m ∈ fs ++ [n], (run p ls t).lost m = []) :
    ∃ t, T ≤ t ∧ ∃ received out, Through (fs.map p.filter) (received.map (·.2)) out ∧ FromSources c p ls first T t received ∧
      out <+: ((run p ls t).log n).map (·.2) := by
  have hw := hp.wired
  obtain ⟨w1, w2, w3, -, w5, w6, -, w7⟩ := C57_mutual c hd _ hw
  obtain ⟨-, -, -, -, n5, n6⟩ := names hd hw
  induction h with
  | sources hc honly =>
    have h0 := some_of_channel hd hw hc
    refine ⟨T, Nat.le_refl _, (run p ls T).log first, _, .done _, ⟨?_, ?_⟩, List.prefix_rfl⟩
    · intro y hy
      refine ⟨quiet hd hp hs hc T y hy, ?_⟩
      have hsd := log_senders h0 T y hy
      revert hsd
      cases y.1 with
      | source i => rintro ⟨u, ch, g1, g2⟩; exact ⟨u, ch, g1, ((w6 u ch (List.mem_of_getElem? g1)).2 first).1 g2⟩
      | filter f =>
        rintro ⟨ups, ch, g1, g2⟩
        exact absurd (List.mem_map.2 ⟨_, g1, rfl⟩) (n5 f (w3 ▸ honly f (((w5 f ups ch g1).2.2 first).1 g2)))
      | timer => exact fun h => h.2
    · intro i s chans hsi hfw
      have q := ((C93_queues c hd p hp ls T first hc).1 i s chans hsi).1 hfw
      rw [hroom T first (by simp)] at q
      rw [← q.none_dropped]
      exact ⟨List.prefix_rfl, List.prefix_rfl⟩
  | via fs f n hfun hf honly ih =>
    obtain ⟨t, ht, received, out, h1, h2, h3⟩ := ih (fun m hm => hb m (by simp [hm])) (fun t m hm => hroom t m (by
      simp only [List.mem_append] at hm ⊢; exact .inl hm))
    have hn := funnel_channel hd hw (.via fs f n hfun hf honly)
    have hff := funnel_filter hd hw hfun hf
    obtain ⟨u, hu, nd, read, clock, k1, k2, -, k4, k5⟩ := C146_filters c hd p hp ls hs f hff (hb f (by simp)) t
    obtain ⟨nd', q1, q3⟩ := via_log hd hp hfun hf honly u (hroom u n (by simp))
    rw [k1] at q1
    obtain rfl := Option.some.inj q1
    have hread : out <+: read := h3.trans k2
    obtain ⟨rest, rfl⟩ := hread
    refine ⟨u, by omega, received, expectedSent (p.filter f).process (p.filter f).start (((clock.take out.length).zip out).map some), ?_, from_later h2 hu, ?_⟩
    · rw [List.map_append, List.map_cons, List.map_nil]
      exact through_snoc h1 (p.filter f) _ (by simp at k4 ⊢; omega)
    · have hsplit : clock.zip (out ++ rest) = (clock.take out.length).zip out ++ (clock.drop out.length).zip rest := by
        have := List.zip_append (l₁ := clock.take out.length) (l₂ := out) (r₁ := clock.drop out.length) (r₂ := rest) (by simp at k4 ⊢; omega)
        rwa [List.take_append_drop] at this
      have hpre : expectedSent (p.filter f).process (p.filter f).start (((clock.take out.length).zip out).map some) <+: nd.sent := by
        rw [k5, hsplit, List.map_append]
        exact sent_prefix _ _ _ _
      rwa [← q3] at hpre

/-- **C146 (from end to end).**  Any number of sources feed a node from which a single chain of filters leads to a sink; no queue on the way is ever full, every
thread on the way gets its turn again and again, flushing opens the sink's valve, and the process is never told to stop.  Then for any time `T` there is a time by
which the sink has been given what the filters make of everything those sources had sent by `T`: nothing waits for the process to end. -/
theorem C146_end_to_end (c : Config) (hd : Distinct c) (p : Setup F) (hp : SetUp c p) (ls : Nat → Label F) (hs : ∀ t, ls t ≠ .signal)
    (first : Str) (fs : List Str) (n : Str) (hfun : Funnel c first fs n) (hn : n ∈ c.sinks) (hb : ∀ m ∈ fs ++ [n], Busy ls m)
    (hroom : ∀ t, ∀ m ∈ fs ++ [n], (run p ls t).lost m = []) (hre : ValveReopens p ls n)
    (iv : Option Nat) (hiv : ∀ st, (p.sink n).impl.flushInterval st = iv) (T : Nat) :
    ∃ t, T ≤ t ∧ ∃ nd received out, (run p ls t).nodes n = some nd ∧ Through (fs.map p.filter) (received.map (·.2)) out ∧
      FromSources c p ls first T t received ∧ out.filter Event.isPayload <+: nd.delivered := by
  obtain ⟨t, ht, received, out, h1, h2, h3⟩ := reaches_queue hd hp hs T hfun (fun m hm => hb m (List.mem_append_left _ hm)) hroom
  obtain ⟨u, hu, nd, k1, k2, -⟩ := C146_sinks c hd p hp ls hs n hn (hb n (by simp)) hre iv hiv t
  exact ⟨u, by omega, nd, received, out, k1, h1, from_later h2 hu, (h3.filter _).trans k2⟩

/-! ## Flushes -/

private theorem funnel_pulses {c : Config} (hd : Distinct c) {p : Setup F} (hp : SetUp c p) {ls : Nat → Label F} (hs : ∀ t, ls t ≠ .signal)
    {number : Nat → Nat} (htk : Ticks ls number) {first : Str} {fs : List Str} {n : Str} (h : Funnel c first fs n) (hfed : ∃ u, Forwards c u first)
    (hb : ∀ m ∈ fs, Busy ls m ∧ PassesPulses (p.filter m)) (hroom : ∀ t, ∀ m ∈ fs ++ [n], (run p ls t).lost m = []) :
    (∀ t, ∃ k, records 0 (pulses (((run p ls t).log n).map (·.2))) = List.range' 1 k) ∧
    ∀ k, ∃ t k', k ≤ k' ∧ records 0 (pulses (((run p ls t).log n).map (·.2))) = List.range' 1 k' := by
  have hw := hp.wired
  induction h with
  | sources hc honly =>
    have key := first_pulses hd hp htk hs hc honly hfed (fun t => hroom t first (by simp))
    refine ⟨fun t => ⟨_, key t⟩, fun k => ?_⟩
    obtain ⟨t, ht⟩ := ticks_on htk k
    exact ⟨t, _, ht, key t⟩
  | via fs f n hfun hf honly ih =>
    obtain ⟨i1, i2⟩ := ih (fun m hm => hb m (by simp [hm])) (fun t m hm => hroom t m (by
      simp only [List.mem_append] at hm ⊢; exact .inl hm))
    have hff := funnel_filter hd hw hfun hf
    have hc := funnel_channel hd hw hfun
    obtain ⟨hbusy, hpass⟩ := hb f (by simp)
    have made : ∀ (t : Nat) (read : List (Event F)) (clock : List Int) (nd : Node F), (run p ls t).nodes f = some nd → read <+: ((run p ls t).log f).map (·.2) →
        clock.length = read.length → nd.sent = expectedSent (p.filter f).process (p.filter f).start ((clock.zip read).map some) →
        records 0 (pulses (((run p ls t).log n).map (·.2))) = records 0 (pulses read) := by
      intro t read clock nd h1 h2 h3 h4
      obtain ⟨nd', q1, q3⟩ := via_log hd hp hfun hf honly t (hroom t n (by simp))
      rw [h1] at q1
      obtain rfl := Option.some.inj q1
      rw [q3, h4]
      have hz : (clock.zip read).map (·.2) = read := List.map_snd_zip (by omega)
      have := hpass (clock.zip read) (by
        intro i hi
        have hm : i.2 ∈ read := by rw [← hz]; exact List.mem_map.2 ⟨i, hi, rfl⟩
        obtain ⟨x, hx, he⟩ := List.mem_map.1 (h2.subset hm)
        rw [← he]; exact quiet hd hp hs hc t x hx)
      rw [hz] at this
      exact this
    refine ⟨fun t => ?_, fun k => ?_⟩
    · obtain ⟨nd, read, waiting, clock, h1, h2, h3, h4⟩ := C93_filters c hd p hp ls t f hff
      have hpre : read <+: ((run p ls t).log f).map (·.2) := by rw [h2]; exact List.prefix_append _ _
      rw [made t read clock nd h1 hpre h3 h4]
      obtain ⟨k, hk⟩ := i1 t
      exact ⟨_, prefix_range (hk ▸ records_prefix (pulses_prefix hpre) 0)⟩
    · obtain ⟨t, k', hk, hr⟩ := i2 k
      obtain ⟨u, hu, nd, read, clock, h1, h2, h3, h4, h5⟩ := C146_filters c hd p hp ls hs f hff hbusy t
      obtain ⟨k2, hk2⟩ := i1 u
      have e := prefix_range (hk2 ▸ records_prefix (pulses_prefix h3) 0)
      refine ⟨u, _, ?_, by rw [made u read clock nd h1 h3 h4 h5]; exact e⟩
      have := (records_prefix (pulses_prefix h2) 0).length_le
      rw [hr, List.length_range'] at this
      omega

private theorem calls_grow {κ : Type} (k : SinkImpl F κ) (n : Nat) (r : SinkRun F κ) : r.calls <+: (r.step k n).calls := by
  have hh : ∀ e, r.calls <+: (r.handle k n e).calls := by
    intro e
    cases e with
    | shutdown => simp only [SinkRun.handle]; split <;> simp
    | timerFlush idx => simp only [SinkRun.handle]; repeat' split
                        all_goals simp
    | _ => simp [SinkRun.handle]
  simp only [SinkRun.step]
  split
  · exact List.prefix_rfl
  · cases r.current with
    | none => simp only; split <;> exact List.prefix_rfl
    | some e =>
      simp only
      split
      · exact hh e
      · exact List.prefix_append _ _

private theorem calls_stable {p : Setup F} {ls : Nat → Label F} {n : Str} {k : SinkCode F} {m : Nat} {t u : Nat} (h : t ≤ u) {r : SinkRun F k.κ}
    (hr : (run p ls t).nodes n = some (.sink k m r)) : ∃ r', (run p ls u).nodes n = some (.sink k m r') ∧ r.calls <+: r'.calls := by
  induction h with
  | refl => exact ⟨r, hr, List.prefix_rfl⟩
  | @step u _ ih =>
    obtain ⟨r', h1, h2⟩ := ih
    rcases sink_step p _ (ls u) h1 with ⟨g, -⟩ | ⟨-, g⟩
    · exact ⟨_, g, h2⟩
    · exact ⟨_, g, h2.trans (calls_grow _ _ _)⟩

/-- The sink gets what the sources had sent by `T`, and is flushed after that. -/
theorem Net.flushed_anew (c : Config) (hd : Distinct c) (p : Setup F) (hp : SetUp c p) (ls : Nat → Label F) (hs : ∀ t, ls t ≠ .signal)
    (number : Nat → Nat) (htk : Ticks ls number)
    (first : Str) (fs : List Str) (n : Str) (hfun : Funnel c first fs n) (hfed : ∃ u, Forwards c u first) (hn : n ∈ c.sinks)
    (hb : ∀ m ∈ fs ++ [n], Busy ls m) (hpass : ∀ m ∈ fs, PassesPulses (p.filter m))
    (hroom : ∀ t, ∀ m ∈ fs ++ [n], (run p ls t).lost m = []) (hre : ValveReopens p ls n)
    (interval : Nat) (hiv : ∀ st, (p.sink n).impl.flushInterval st = some interval) (T : Nat) :
    ∃ t1 t3 m r1 r3 received out before s idx after, T ≤ t1 ∧ t1 ≤ t3 ∧ (run p ls t1).nodes n = some (.sink (p.sink n) m r1) ∧
      (run p ls t3).nodes n = some (.sink (p.sink n) m r3) ∧ Through (fs.map p.filter) (received.map (·.2)) out ∧
      FromSources c p ls first T t3 received ∧ r3.calls = r1.calls ++ (before ++ .pulseFlush s idx :: after) ∧
      out.filter Event.isPayload <+: deliveredBy r1.calls := by
  have hw := hp.wired
  have hL := linked hd hw
  obtain ⟨w1, -⟩ := C57_mutual c hd _ hw
  obtain ⟨ups, hf⟩ := mem_fst (w1 ▸ hn)
  have h0 := some_of_channel hd hw (.inl hn : HasChannel c n)
  obtain ⟨t0, ht0, received, out, h1, h2, h3⟩ := reaches_queue hd hp hs T hfun (fun m hm => hb m (List.mem_append_left _ hm)) hroom
  obtain ⟨p1, p2⟩ := funnel_pulses hd hp hs htk hfun hfed (fun m hm => ⟨hb m (List.mem_append_left _ hm), hpass m hm⟩) hroom
  have hq := fun t => quiet hd hp hs (.inl hn : HasChannel c n) t
  have hbn : ∀ t, ∃ t', t ≤ t' ∧ ∃ now, ls t' = .act n now := fun t => hb n (by simp) t
  -- everything has been delivered
  obtain ⟨t1, ht1, r1, c1, a1, a2, a3⟩ := sink_flows hL hf hbn hq hre hiv t0
  obtain ⟨k1, hk1⟩ := p1 t1
  -- a pulse comes at which the sink is due
  obtain ⟨K, hK, hdue⟩ : ∃ K, k1 < K ∧ dueAt (some interval) K = true := by
    refine ⟨(k1 + 1) * (interval + if interval = 0 then 1 else 0), ?_, ?_⟩
    · by_cases hi : interval = 0
      · simp [hi]
      · have : 1 ≤ interval := by omega
        have := Nat.mul_le_mul_left (k1 + 1) this
        simp only [hi, if_false]; exact Nat.lt_of_succ_le (by simpa using this)
    · by_cases hi : interval = 0
      · simp [dueAt, hi]
      · simp [dueAt, hi, Nat.dvd_mul_left]
  obtain ⟨t2, k2, hk2, hr2⟩ := p2 K
  obtain ⟨t3, ht3, r3, c3, b1, b2, b3⟩ := sink_flows hL hf hbn hq hre hiv (max t1 t2)
  obtain ⟨r', d1, d2⟩ := calls_stable (by omega : t1 ≤ t3) a1
  rw [b1] at d1
  simp only [Option.some.injEq, Node.sink.injEq, heq_eq_eq, true_and] at d1
  subst d1
  obtain ⟨rest, hrest⟩ := d2
  have hin : K ∈ flushedBy r3.calls := by
    rw [b2.flushed, List.mem_filter]
    refine ⟨?_, hdue⟩
    have hpre : ((run p ls t2).log n).map (·.2) <+: c3 := ((log_stable h0 (by omega : t2 ≤ max t1 t2)).map _).trans b3
    refine (records_prefix (pulses_prefix hpre) 0).subset ?_
    rw [hr2, List.mem_range']
    exact ⟨K - 1, by omega, by omega⟩
  have hnot : K ∉ flushedBy r1.calls := by
    rw [a2.flushed, List.mem_filter]
    rintro ⟨hm, -⟩
    have hpre : c1 <+: ((run p ls t1).log n).map (·.2) := by rw [a2.split, List.append_assoc]; exact List.prefix_append _ _
    have := (records_prefix (pulses_prefix hpre) 0).subset hm
    rw [hk1, List.mem_range'] at this
    obtain ⟨i, hi, he⟩ := this
    omega
  have hr : K ∈ flushedBy rest := by
    rw [← hrest] at hin
    simp only [flushedBy, List.filterMap_append, List.mem_append] at hin hnot ⊢
    exact hin.resolve_left hnot
  simp only [flushedBy, List.mem_filterMap] at hr
  obtain ⟨x, hx, he⟩ := hr
  obtain ⟨b, a, rfl⟩ := List.append_of_mem hx
  cases x with
  | pulseFlush s idx =>
    refine ⟨t1, t3, _, r1, r3, received, out, b, s, idx, a, by omega, by omega, a1, b1, h1, from_later h2 (by omega), hrest.symm, ?_⟩
    rw [a2.delivered]; exact (h3.trans a3).filter _
  | _ => simp at he


/-- **C146 (flushes).**  Moreover the timer's pulses are numbered from 1 up and never stop, the sink has a flush interval, and the filters on the way pass the pulses
on.  Then for any time `T` there is a time by which the sink has been given what the filters make of everything those sources had sent by `T`, and has been flushed
since. -/
theorem C146_flushed_partial (c : Config) (hd : Distinct c) (p : Setup F) (hp : SetUp c p) (ls : Nat → Label F) (hs : ∀ t, ls t ≠ .signal)
    (number : Nat → Nat) (htk : Ticks ls number)
    (first : Str) (fs : List Str) (n : Str) (hfun : Funnel c first fs n) (hfed : ∃ u, Forwards c u first) (hn : n ∈ c.sinks)
    (hb : ∀ m ∈ fs ++ [n], Busy ls m) (hpass : ∀ m ∈ fs, PassesPulses (p.filter m))
    (hroom : ∀ t, ∀ m ∈ fs ++ [n], (run p ls t).lost m = []) (hre : ValveReopens p ls n)
    (interval : Nat) (hiv : ∀ st, (p.sink n).impl.flushInterval st = some interval) (T : Nat) :
    ∃ t, T ≤ t ∧ ∃ nd received out, (run p ls t).nodes n = some nd ∧ Through (fs.map p.filter) (received.map (·.2)) out ∧
      FromSources c p ls first T t received ∧ nd.flushedSince (out.filter Event.isPayload) := by
  obtain ⟨t1, t3, m, r1, r3, received, out, b, s, idx, a, h1, h2, -, h4, h5, h6, h7, h8⟩ :=
    flushed_anew c hd p hp ls hs number htk first fs n hfun hfed hn hb hpass hroom hre interval hiv T
  refine ⟨t3, by omega, _, received, out, h4, h5, h6, r1.calls ++ b, s, idx, a, by rw [h7, List.append_assoc], h8.trans ?_⟩
  simp only [deliveredBy, List.filterMap_append]
  exact List.prefix_append _ _

/-- **C146 (flushes, again and again).**  As in `C146_flushed_partial`; however often the sink has been flushed, it will be flushed at a pulse of the timer once more. -/
theorem C146_flushed_again_partial (c : Config) (hd : Distinct c) (p : Setup F) (hp : SetUp c p) (ls : Nat → Label F) (hs : ∀ t, ls t ≠ .signal)
    (number : Nat → Nat) (htk : Ticks ls number)
    (first : Str) (fs : List Str) (n : Str) (hfun : Funnel c first fs n) (hfed : ∃ u, Forwards c u first) (hn : n ∈ c.sinks)
    (hb : ∀ m ∈ fs ++ [n], Busy ls m) (hpass : ∀ m ∈ fs, PassesPulses (p.filter m))
    (hroom : ∀ t, ∀ m ∈ fs ++ [n], (run p ls t).lost m = []) (hre : ValveReopens p ls n)
    (interval : Nat) (hiv : ∀ st, (p.sink n).impl.flushInterval st = some interval) (t m : Nat)
    (r : SinkRun F (p.sink n).κ) (hr : (run p ls t).nodes n = some (.sink (p.sink n) m r)) :
    ∃ t' r' more s idx, t ≤ t' ∧ (run p ls t').nodes n = some (.sink (p.sink n) m r') ∧ r'.calls = r.calls ++ more ∧ .pulseFlush s idx ∈ more := by
  obtain ⟨t1, t3, m', r1, r3, received, out, b, s, idx, a, h1, h2, h3, h4, -, -, h7, -⟩ :=
    flushed_anew c hd p hp ls hs number htk first fs n hfun hfed hn hb hpass hroom hre interval hiv t
  obtain ⟨r', d1, x, hx⟩ := calls_stable h1 hr
  rw [h3] at d1
  simp only [Option.some.injEq, Node.sink.injEq, heq_eq_eq, true_and] at d1
  obtain ⟨rfl, rfl⟩ := d1
  exact ⟨t3, r3, x ++ (b ++ .pulseFlush s idx :: a), s, idx, by omega, h4, by rw [h7, ← hx, List.append_assoc], by simp⟩

end Verif
