import Verif.Lemmas.NetNames
import Verif.Lemmas.NetLog
import Verif.Props.Net
/-!
# C93: every event reaches every sink

Theorems range over every configuration, every schedule and every time.
-/
namespace Verif
open Net Topology
open Pipeline (Through Proper notPulse)
variable {F : Type} [F64 F]

theorem Net.some_of_channel {c : Config} (hd : Distinct c) {p : Setup F} (hw : wire c = .ok p.wiring) {n : Str}
    (hn : HasChannel c n) : ((initial p).nodes n).isSome := by
  rw [← node_iff hd hw] at hn
  have hL := linked hd hw
  rcases List.mem_append.1 hn with h | h
  · obtain ⟨ups, h⟩ := mem_fst h
    rw [hL.sinkNode n ups h]; rfl
  · obtain ⟨⟨ups, downs⟩, h⟩ := mem_fst h
    rw [hL.filterNode n ups downs h]; rfl

private theorem replicate_one (es : List (Event F)) {ch : List Str} (hn : ch.Nodup) {n : Str} (h : n ∈ ch) :
    es.flatMap (List.replicate (ch.count n)) = es := by
  rw [hn.count, if_pos h]
  induction es with
  | nil => rfl
  | cons e es ih => simpa using ih

private theorem replicate_none (es : List (Event F)) {ch : List Str} {n : Str} (h : n ∉ ch) :
    es.flatMap (List.replicate (ch.count n)) = [] := by
  rw [List.count_eq_zero.2 h]
  induction es with
  | nil => rfl
  | cons e es ih => simpa using ih

/-- **C93 (queues).**  At any time, the queue of a sink or filter has accepted from every source and every filter that forwards to it what
that has sent, in order and once, except what was dropped because the queue was full, which is on record; from others nothing; and pulses
of the timer, if some source forwards to it. -/
theorem C93_queues (c : Config) (hd : Distinct c) (p : Setup F) (hp : SetUp c p) (ls : Nat → Label F) (t : Nat) (n : Str)
    (hn : HasChannel c n) :
    (∀ i s chans, p.wiring.sources[i]? = some (s, chans) →
      (Forwards c s n → Parted (acceptedFrom (.source i) ((run p ls t).log n)) (acceptedFrom (.source i) ((run p ls t).lost n)) (sourceSent p ls i t)) ∧
      (¬ Forwards c s n → acceptedFrom (.source i) ((run p ls t).log n) = [])) ∧
    (∀ f ∈ c.filters.map (·.1), ∃ nd, (run p ls t).nodes f = some nd ∧
      (Forwards c f n → Parted (acceptedFrom (.filter f) ((run p ls t).log n)) (acceptedFrom (.filter f) ((run p ls t).lost n)) nd.sent) ∧
      (¬ Forwards c f n → acceptedFrom (.filter f) ((run p ls t).log n) = [])) ∧
    ∀ x ∈ (run p ls t).log n, match x.1 with
      | .source i => i < p.wiring.sources.length
      | .filter f => f ∈ c.filters.map (·.1)
      | .timer => x.2.isTimerFlush = true ∧ ∃ s ∈ (c.natives ++ c.sources).map (·.1), Forwards c s n := by
  have hw := hp.wired
  have hL := linked hd hw
  obtain ⟨-, w2, -, -, w5, w6, -, w7⟩ := C57_mutual c hd _ hw
  have h0 := some_of_channel hd hw hn
  refine ⟨?_, ?_, ?_⟩
  · intro i s chans hs
    obtain ⟨g1, g2⟩ := w6 s chans (List.mem_of_getElem? hs)
    have key := from_source (ls := ls) h0 hs t
    refine ⟨fun hf => ?_, fun hf => ?_⟩
    · rwa [replicate_one _ g1 ((g2 n).2 hf)] at key
    · rw [replicate_none _ fun h => hf ((g2 n).1 h)] at key
      exact List.sublist_nil.1 key.sublist.1
  · intro f hf
    rw [← w2] at hf
    obtain ⟨⟨ups, ch⟩, hf⟩ := mem_fst hf
    obtain ⟨-, g1, g2⟩ := w5 f ups ch hf
    obtain ⟨q, r, e1, e2⟩ := from_filter (ls := ls) hL h0 hf t
    refine ⟨_, e1, ?_, ?_⟩
    · intro hfw; rwa [replicate_one _ g1 ((g2 n).2 hfw)] at e2
    · intro hfw
      rw [replicate_none _ fun h => hfw ((g2 n).1 h)] at e2
      exact List.sublist_nil.1 e2.sublist.1
  · intro x hx
    have := log_senders h0 t x hx
    revert this
    cases x.1 with
    | source i => rintro ⟨u, ch, h1, -⟩; exact (List.getElem?_eq_some_iff.1 h1).1
    | filter f => rintro ⟨ups, ch, h1, -⟩; exact w2 ▸ List.mem_map.2 ⟨_, h1, rfl⟩
    | timer => rintro ⟨h1, h2⟩; exact ⟨h2, (w7 n).1 h1⟩

/-- **C93 (full queues).**  Of what is sent to a queue, exactly what finds it full is dropped; the rest is accepted, in order. -/
theorem C93_full (p : Setup F) (ls : Nat → Label F) (t : Nat) (n : Str) : ∃ sent : List (Sender × Event F),
    (run p ls t).log n = (sent.zipIdx.filter fun x => !p.full n x.2).map (·.1) ∧
    (run p ls t).lost n = (sent.zipIdx.filter fun x => p.full n x.2).map (·.1) :=
  let ⟨sent, _, h⟩ := log_full n t
  ⟨sent, h⟩

/-- **C93 (filters).**  At any time, a filter has read some of what its queue has accepted, in order, and has sent what its code makes of that,
one event after the other. -/
theorem C93_filters (c : Config) (hd : Distinct c) (p : Setup F) (hp : SetUp c p) (ls : Nat → Label F) (t : Nat) (n : Str)
    (hn : n ∈ c.filters.map (·.1)) : ∃ nd read waiting, ∃ clock : List Int, (run p ls t).nodes n = some nd ∧
      ((run p ls t).log n).map (·.2) = read ++ waiting ∧ clock.length = read.length ∧
      nd.sent = expectedSent (p.filter n).process (p.filter n).start ((clock.zip read).map some) := by
  have hw := hp.wired
  obtain ⟨-, w2, -⟩ := C57_mutual c hd _ hw
  obtain ⟨⟨ups, ch⟩, hf⟩ := mem_fst (w2 ▸ hn)
  obtain ⟨ins, q, h1, h2⟩ := filter_log (ls := ls) (linked hd hw) hf t
  refine ⟨_, ins.map (·.2), q, ins.map (·.1), h1, h2, by simp, ?_⟩
  have hz : (ins.map (·.1)).zip (ins.map (·.2)) = ins := by
    rw [List.zip_map']; simp
  rw [hz, Node.sent, Pipeline.after_sent (hp.filters n hn).tidy _ _ _ rfl]
  rfl

/-- **C93 (sinks).**  At any time, a sink has been given the payloads among what its queue accepted first, in order and once each; if it
has returned, this is everything before the first `Shutdown`. -/
theorem C93_sinks (c : Config) (hd : Distinct c) (p : Setup F) (hp : SetUp c p) (ls : Nat → Label F) (t : Nat) (n : Str)
    (hn : n ∈ c.sinks) (iv : Option Nat) (hiv : ∀ s, (p.sink n).impl.flushInterval s = iv) :
    ∃ nd read waiting, (run p ls t).nodes n = some nd ∧
      ((run p ls t).log n).map (·.2) = read ++ waiting ∧ (∀ e ∈ read, e.isShutdown = false) ∧
      nd.delivered = read.filter Event.isPayload ∧
      (nd.returned = true → ∃ more, waiting = .shutdown :: more) := by
  have hw := hp.wired
  obtain ⟨w1, -⟩ := C57_mutual c hd _ hw
  obtain ⟨ups, hf⟩ := mem_fst (w1 ▸ hn)
  obtain ⟨r, cns, h1, h2⟩ := sink_log (ls := ls) (linked hd hw) hf hiv t
  refine ⟨_, cns, r.current.toList ++ arrivals r.queue, h1, by rw [h2.split, List.append_assoc], h2.noShutdown, h2.delivered, ?_⟩
  intro hr
  obtain ⟨hc, -⟩ := h2.ret hr
  exact ⟨_, by rw [hc]; rfl⟩

/-! ## From end to end -/

private theorem lossy_snoc {fs : List (Pipeline.FilterCode F)} {es mid : List (Event F)} {ds : List (List (Event F))} (h : Lossy fs es ds mid)
    (f : Pipeline.FilterCode F) (clock : List Int) (hc : clock.length = mid.length) {kept d : List (Event F)}
    (hd : Parted kept d (expectedSent f.process f.start ((clock.zip mid).map some))) :
    Lossy (fs ++ [f]) es (ds ++ [d]) kept := by
  induction h with
  | done es => exact .filter f [] es clock _ _ _ _ hc hd (.done _)
  | filter g gs es cl k d' ds out h1 h2 _ ih => exact .filter g (gs ++ [f]) es cl k d' _ _ h1 h2 (ih hc hd)

private theorem lossy_length {fs : List (Pipeline.FilterCode F)} {es out : List (Event F)} {ds : List (List (Event F))} (h : Lossy fs es ds out) :
    ds.length = fs.length := by
  induction h with
  | done es => rfl
  | filter g gs es cl k d' ds out h1 h2 _ ih => simp [ih]

private theorem lossless {fs : List (Pipeline.FilterCode F)} {es out : List (Event F)} {ds : List (List (Event F))} (h : Lossy fs es ds out)
    (hd : ∀ d ∈ ds, d = []) : Through fs es out := by
  induction h with
  | done es => exact .done es
  | filter g gs es cl k d' ds out h1 h2 _ ih =>
    obtain rfl := hd d' List.mem_cons_self
    obtain rfl := h2.none_dropped
    exact .filter g gs es cl out h1 (ih fun d hd' => hd d (List.mem_cons_of_mem _ hd'))

theorem Net.ended_iff (p : Setup F) (ls : Nat → Label F) {i : Nat} {sc} (hs : p.wiring.sources[i]? = some sc) (t : Nat) :
    (i ∉ (run p ls t).ended ∧ ∀ e ∈ sourceSent p ls i t, e.isShutdown = false ∧ e.isTimerFlush = false) ∨
    (i ∈ (run p ls t).ended ∧ ∃ es, sourceSent p ls i t = es ++ [.shutdown] ∧
      ∀ e ∈ es, e.isShutdown = false ∧ e.isTimerFlush = false) := by
  induction t with
  | zero => exact .inl ⟨by simp [run, initial], by simp [sourceSent]⟩
  | succ t ih =>
    rw [run]
    rcases ih with ⟨h1, h2⟩ | ⟨h1, h2⟩
    · cases hl : ls t with
      | emit j e =>
        left
        have hend : (step p (run p ls t) (.emit j e)).ended = (run p ls t).ended := by
          rcases step_ended p (run p ls t) (.emit j e) with h | ⟨_, _, h, -⟩
          · exact h
          · cases h
        refine ⟨by rw [hend]; exact h1, ?_⟩
        simp only [sourceSent, hl]
        intro x hx
        rcases List.mem_append.1 hx with hx | hx
        · exact h2 x hx
        · split at hx
          · rename_i hc
            simp only [List.mem_singleton] at hx
            subst hx
            have := hc.2.1
            cases x <;> simp_all [Event.isServed, Event.isShutdown, Event.isTimerFlush]
          · cases hx
      | stop j =>
        by_cases hc : j = i ∧ i ∈ (run p ls t).told ∧ i ∉ (run p ls t).ended
        · right
          obtain ⟨rfl, hc2, hc3⟩ := hc
          obtain ⟨u, ch⟩ := sc
          refine ⟨by simp [step, hs, hc2, hc3], sourceSent p ls j t, by simp [sourceSent, hl, hc2, hc3], h2⟩
        · left
          have hend : i ∉ (step p (run p ls t) (.stop j)).ended := by
            rcases step_ended p (run p ls t) (.stop j) with h | ⟨k, sc', h, h3, h4, h5, h6⟩
            · rw [h]; exact h1
            · cases h
              rw [h6]
              intro hi
              rcases List.mem_cons.1 hi with rfl | hi
              · exact hc ⟨rfl, h4, h5⟩
              · exact h1 hi
          refine ⟨hend, ?_⟩
          simp only [sourceSent, hl, if_neg hc, List.append_nil]
          exact h2
      | _ =>
        left
        rename_i hl'
        refine ⟨?_, by simp only [sourceSent, hl, List.append_nil]; exact h2⟩
        rcases step_ended p (run p ls t) (ls t) with h | ⟨_, _, h, -⟩
        · rw [hl] at h; rw [h]; exact h1
        · rw [hl] at h; cases h
    · right
      refine ⟨?_, ?_⟩
      · rcases step_ended p (run p ls t) (ls t) with h | ⟨k, _, _, _, _, _, h⟩
        · rw [h]; exact h1
        · rw [h]; exact List.mem_cons_of_mem _ h1
      · have : sourceSent p ls i (t + 1) = sourceSent p ls i t := by
          simp only [sourceSent]
          cases ls t <;> simp [h1]
        rw [this]; exact h2

theorem Net.first_of {ins : List (Int × Event F)} (hsd : ∃ x ∈ ins, x.2.isShutdown = true) :
    ∃ a x b, ins = a ++ x :: b ∧ x.2.isShutdown = true ∧ ∀ y ∈ a, y.2.isShutdown = false := by
  induction ins with
  | nil => obtain ⟨x, hx, -⟩ := hsd; cases hx
  | cons x ins ih =>
    cases hx : x.2.isShutdown with
    | true => exact ⟨[], x, ins, rfl, hx, by simp⟩
    | false =>
      obtain ⟨y, hy, hy2⟩ := hsd
      rcases List.mem_cons.1 hy with rfl | hy
      · rw [hx] at hy2; cases hy2
      · obtain ⟨a, z, b, g1, g2, g3⟩ := ih ⟨y, hy, hy2⟩
        refine ⟨x :: a, z, b, by rw [g1]; rfl, g2, ?_⟩
        intro w hw
        rcases List.mem_cons.1 hw with rfl | hw
        · exact hx
        · exact g3 w hw

private theorem only_channel {c : Config} (hd : Distinct c) {w : Wiring} (hw : wire c = .ok w) {s : Str} {fs : List Str} {n : Str}
    (h : Only c s fs n) : HasChannel c n := by
  have hchan := ((C58_starts_partial c hd).1 ⟨_, hw⟩).1
  cases h with
  | direct _ _ h => exact hchan s n h
  | via _ f _ _ h => exact hchan f n h

private theorem only_filter {c : Config} (hd : Distinct c) {w : Wiring} (hw : wire c = .ok w) {s : Str} {fs : List Str} {f n : Str}
    (h : Only c s fs f) (hf : Forwards c f n) : f ∈ c.filters.map (·.1) := by
  obtain ⟨w1, w2, -⟩ := C57_mutual c hd _ hw
  obtain ⟨-, -, -, -, n5, n6⟩ := names hd hw
  rcases forwards_node hd hw hf with h' | h'
  · exact w2 ▸ h'
  · rcases only_channel hd hw h with hc | ⟨_, hc⟩
    · exact absurd (w1 ▸ hc) (n6 f h')
    · exact List.mem_map.2 ⟨_, hc, rfl⟩

theorem sole_sender {c : Config} (hd : Distinct c) {p : Setup F} (hp : SetUp c p) (ls : Nat → Label F) {t : Nat} {s : Str}
    {i : Nat} {chans : List Str} (hs : p.wiring.sources[i]? = some (s, chans)) {n : Str} (h : Only c s [] n) :
    ∀ x ∈ (run p ls t).log n, notPulse x.2 = true → x.1 = .source i := by
  have hw := hp.wired
  have hL := linked hd hw
  obtain ⟨-, -, w3, -⟩ := C57_mutual c hd _ hw
  obtain ⟨-, -, -, -, n5, -⟩ := names hd hw
  have hn := only_channel hd hw h
  generalize hfs : ([] : List Str) = fs at h
  cases h with
  | via fs f n => simp at hfs
  | direct _ hsrc hf honly =>
  intro x hx hnp
  have h0 := log_senders (some_of_channel hd hw hn) t x hx
  obtain ⟨xs, xe⟩ := x
  cases xs with
  | source j =>
    obtain ⟨u, ch, g1, g2⟩ := h0
    obtain rfl : u = s := honly u (((C57_mutual c hd _ hw).2.2.2.2.2.1 u ch (List.mem_of_getElem? g1)).2 n |>.1 g2)
    exact congrArg Sender.source (hL.unique _ _ _ _ _ g1 hs)
  | filter f =>
    obtain ⟨ups, ch, g1, g2⟩ := h0
    obtain rfl : f = s := honly f ((((C57_mutual c hd _ hw).2.2.2.2.1 f ups ch g1).2.2 n).1 g2)
    exact absurd (List.mem_map.2 ⟨_, g1, rfl⟩) (n5 f (w3 ▸ hsrc))
  | timer => simp [notPulse, h0.2] at hnp

private theorem only_received {c : Config} (hd : Distinct c) {p : Setup F} (hp : SetUp c p) (ls : Nat → Label F) (t : Nat) {s : Str}
    {i : Nat} {chans : List Str} (hs : p.wiring.sources[i]? = some (s, chans)) {fs : List Str} {n : Str} (h : Only c s fs n) :
    (∀ m ∈ fs ++ [n], ∀ x, (x, .shutdown) ∉ (run p ls t).lost m) →
    ∀ pre post, ((run p ls t).log n).map (·.2) = pre ++ .shutdown :: post → (∀ e ∈ pre, e.isShutdown = false) →
      ∃ served received first drops, sourceSent p ls i t = served ++ [.shutdown] ∧ Parted (received.filter notPulse) first served ∧
        Lossy (fs.map p.filter) received drops pre ∧
        ∀ (k : Nat) d m, (first :: drops)[k]? = some d → (fs ++ [n])[k]? = some m → d.Sublist (((run p ls t).lost m).map (·.2)) := by
  have hw := hp.wired
  have hL := linked hd hw
  obtain ⟨w1, w2, w3, -⟩ := C57_mutual c hd _ hw
  obtain ⟨n1, n2, n3, n4, n5, n6⟩ := names hd hw
  induction h with
  | direct n hsrc hf honly =>
    intro hkept pre post hlog hpre
    have hn := only_channel hd hw (.direct n hsrc hf honly)
    obtain ⟨q1, q2, q3⟩ := C93_queues c hd p hp ls t n hn
    have hfrom := (q1 i s chans hs).1 hf
    -- without pulses, the queue has exactly what the source sent
    have hall : (((run p ls t).log n).map (·.2)).filter notPulse = (acceptedFrom (.source i) ((run p ls t).log n)).filter notPulse := by
      rw [acceptedFrom]
      have := sole_sender hd hp ls (t := t) hs (.direct n hsrc hf honly)
      generalize (run p ls t).log n = log at this
      induction log with
      | nil => rfl
      | cons x log ih =>
        have ih := ih fun y hy => this y (List.mem_cons_of_mem _ hy)
        have hx := this x List.mem_cons_self
        simp only [List.map_cons]
        cases hnp : notPulse x.2 with
        | true =>
          have : (x.1 == Sender.source i) = true := by simpa using hx hnp
          rw [List.filter_cons_of_pos hnp, List.filter_cons_of_pos (by simpa using this), List.map_cons, List.filter_cons_of_pos hnp, ih]
        | false =>
          rw [List.filter_cons_of_neg (by simp [hnp])]
          by_cases hx1 : (x.1 == Sender.source i) = true
          · rw [List.filter_cons_of_pos (by simpa using hx1), List.map_cons, List.filter_cons_of_neg (by simp [hnp]), ih]
          · rw [List.filter_cons_of_neg (by simpa using hx1), ih]
    rw [hlog, List.filter_append, List.filter_cons_of_pos (by rfl)] at hall
    rcases ended_iff p ls hs t with ⟨-, h2⟩ | ⟨-, es, h1, h2⟩
    · exfalso
      have : (Event.shutdown : Event F) ∈ (acceptedFrom (.source i) ((run p ls t).log n)).filter notPulse := by rw [← hall]; simp
      have := (h2 _ (hfrom.sublist.1.subset (List.mem_filter.1 this).1)).1
      cases this
    · rw [h1] at hfrom ⊢
      have hnl : (Event.shutdown : Event F) ∉ acceptedFrom (.source i) ((run p ls t).lost n) := by
        intro hx
        obtain ⟨⟨x, e⟩, hm, he⟩ := List.mem_map.1 hx
        simp only at he
        subst he
        exact hkept n (by simp) x (List.mem_filter.1 hm).1
      obtain ⟨a1, a2, d1, d2, e1, e2, h3, h4⟩ := hfrom.split hnl
      have hnp : (acceptedFrom (.source i) ((run p ls t).log n)).filter notPulse = acceptedFrom (.source i) ((run p ls t).log n) := by
        apply List.filter_eq_self.2
        intro e he
        rcases List.mem_append.1 (hfrom.sublist.1.subset he) with he | he
        · simp [notPulse, (h2 e he).2]
        · simp only [List.mem_singleton] at he; subst he; rfl
      rw [hnp, e1] at hall
      have hpre' : pre.filter notPulse = a1 := by
        refine Pipeline.first_shutdown_unique hall ?_ fun e he => (h2 e (h3.sublist.1.subset he)).1
        intro e he
        exact hpre e (List.mem_filter.1 he).1
      refine ⟨es, pre, d1, [], rfl, by rw [hpre']; exact h3, .done _, ?_⟩
      intro k d m hk hm
      cases k with
      | succ k => simp at hk
      | zero =>
        simp only [List.getElem?_cons_zero, Option.some.injEq, List.nil_append] at hk hm
        subst hk hm
        have hsub : d1.Sublist (acceptedFrom (.source i) ((run p ls t).lost n)) := by rw [e2]; exact List.sublist_append_left _ _
        exact hsub.trans (List.filter_sublist.map _)
  | via fs f n hOnly hf honly ih =>
    intro hkept pre post hlog hpre
    have ih := ih fun m hm => hkept m (by simp only [List.mem_append] at hm ⊢; exact .inl hm)
    have hn := only_channel hd hw (.via fs f n hOnly hf honly)
    have hff := only_filter hd hw hOnly hf
    obtain ⟨q1, q2, q3⟩ := C93_queues c hd p hp ls t n hn
    obtain ⟨nd, k1, k2, -⟩ := q2 f hff
    have k2 := k2 hf
    have hall : ((run p ls t).log n).map (·.2) = acceptedFrom (.filter f) ((run p ls t).log n) := by
      apply acceptedFrom_only
      intro x hx
      have h0 := log_senders (some_of_channel hd hw hn) t x hx
      obtain ⟨xs, xe⟩ := x
      cases xs with
      | source j =>
        obtain ⟨u, ch, g1, g2⟩ := h0
        obtain rfl : u = f := honly u (((C57_mutual c hd _ hw).2.2.2.2.2.1 u ch (List.mem_of_getElem? g1)).2 n |>.1 g2)
        exact absurd (w2 ▸ hff) (n5 u (List.mem_map.2 ⟨_, List.mem_of_getElem? g1, rfl⟩))
      | filter g =>
        obtain ⟨ups, ch, g1, g2⟩ := h0
        obtain rfl : g = f := honly g ((((C57_mutual c hd _ hw).2.2.2.2.1 g ups ch g1).2.2 n).1 g2)
        rfl
      | timer =>
        obtain ⟨s', hs', hfw⟩ := ((C57_mutual c hd _ hw).2.2.2.2.2.2.2 n).1 h0.1
        obtain rfl := honly s' hfw
        exact absurd (w2 ▸ hff) (n5 s' (w3 ▸ hs'))
    rw [← hall, hlog] at k2
    have hnl : (Event.shutdown : Event F) ∉ acceptedFrom (.filter f) ((run p ls t).lost n) := by
      intro hx
      obtain ⟨⟨x, e⟩, hm, he⟩ := List.mem_map.1 hx
      simp only at he
      subst he
      exact hkept n (by simp) x (List.mem_filter.1 hm).1
    obtain ⟨⟨ups, ch⟩, hfl⟩ := mem_fst (w2 ▸ hff)
    obtain ⟨ins, q, e1, e2⟩ := filter_log (ls := ls) hL hfl t
    rw [k1] at e1
    obtain rfl := Option.some.inj e1
    have hprop := hp.filters f hff
    rw [Node.sent, Pipeline.after_sent hprop.tidy _ _ _ rfl] at k2
    simp only [List.nil_append] at k2
    -- the filter has read a Shutdown
    by_cases hsd : ∃ x ∈ ins, x.2.isShutdown = true
    · obtain ⟨a, ⟨now, e⟩, b, rfl, hb, ha⟩ := first_of hsd
      obtain rfl : e = .shutdown := by cases e <;> simp_all [Event.isShutdown]
      obtain ⟨more, hm⟩ := Pipeline.expectedSent_split (p.filter f).process a (p.filter f).start now b ha
      rw [hm] at k2
      obtain ⟨a1, a2, d1, d2, j1, j2, j3, j4⟩ := k2.split hnl
      have hpe := Pipeline.first_shutdown_unique j1 hpre fun e he => hprop.keeps a ha e (j3.sublist.1.subset he)
      obtain ⟨served, received, first, drops, r1, r2, r3, r4⟩ := ih (a.map (·.2)) (b.map (·.2) ++ q) (by rw [e2]; simp) (by
        intro e he
        obtain ⟨y, hy, rfl⟩ := List.mem_map.1 he
        exact ha y hy)
      have hz : (a.map (·.1)).zip (a.map (·.2)) = a := by rw [List.zip_map']; simp
      refine ⟨served, received, first, drops ++ [d1], r1, r2, ?_, ?_⟩
      · rw [List.map_append, List.map_cons, List.map_nil, hpe]
        exact lossy_snoc r3 (p.filter f) (a.map (·.1)) (by simp) (by rw [hz]; exact j3)
      · have hlen : (first :: drops).length = (fs ++ [f]).length := by
          have := lossy_length r3
          simp only [List.length_map] at this
          simp [this]
        intro k d m hk hm
        rw [show first :: (drops ++ [d1]) = (first :: drops) ++ [d1] from rfl] at hk
        by_cases hlt : k < (fs ++ [f]).length
        · rw [List.getElem?_append_left (by omega)] at hk
          rw [List.getElem?_append_left hlt] at hm
          exact r4 k d m hk hm
        · rw [List.getElem?_append_right (by omega)] at hk hm
          have hk0 : k - (first :: drops).length = 0 := by
            cases hx : k - (first :: drops).length with
            | zero => rfl
            | succ y => rw [hx] at hk; simp at hk
          rw [hk0] at hk
          rw [← hlen, hk0] at hm
          simp only [List.getElem?_cons_zero, Option.some.injEq] at hk hm
          subst hk hm
          have hsub : d1.Sublist (acceptedFrom (.filter f) ((run p ls t).lost n)) := by rw [j2]; exact List.sublist_append_left _ _
          exact hsub.trans (List.filter_sublist.map _)
    · exfalso
      have hno : ∀ x ∈ ins, x.2.isShutdown = false := by
        intro x hx
        cases h : x.2.isShutdown with
        | true => exact absurd ⟨x, hx, h⟩ hsd
        | false => rfl
      have : (Event.shutdown : Event F) ∈ expectedSent (p.filter f).process (p.filter f).start (ins.map some) := by
        exact k2.sublist.1.subset (by simp)
      have := hprop.keeps ins hno _ this
      cases this

/-- **C93 (end to end).**  If nothing but one source and the filters in between feeds a sink, then by the time the sink has returned it has
been given, in order and once each, exactly the payloads among what the filters make of everything the source served, with pulses of the
timer somewhere in between, and without what was dropped on the way because a queue was full: `first` and `drops`, which are on record with
the queues.  Missing: sinks fed by several sources or filters, see `C93_two_sources_false`, and dropped `Shutdown`s, see
`C92_lost_shutdown_false`. -/
theorem C93_lossy_partial (c : Config) (hd : Distinct c) (p : Setup F) (hp : SetUp c p) (ls : Nat → Label F) (t : Nat)
    (s : Str) (i : Nat) (chans : List Str) (hs : p.wiring.sources[i]? = some (s, chans)) (fs : List Str) (n : Str)
    (honly : Only c s fs n) (hn : n ∈ c.sinks) (hkept : ∀ m ∈ fs ++ [n], ∀ x, (x, .shutdown) ∉ (run p ls t).lost m)
    (iv : Option Nat) (hiv : ∀ st, (p.sink n).impl.flushInterval st = iv)
    (nd : Node F) (hnd : (run p ls t).nodes n = some nd) (hret : nd.returned = true) :
    ∃ served received first drops out, sourceSent p ls i t = served ++ [.shutdown] ∧ Parted (received.filter notPulse) first served ∧
      Lossy (fs.map p.filter) received drops out ∧ nd.delivered = out.filter Event.isPayload ∧
      ∀ (k : Nat) d m, (first :: drops)[k]? = some d → (fs ++ [n])[k]? = some m → d.Sublist (((run p ls t).lost m).map (·.2)) := by
  obtain ⟨nd', read, waiting, h1, h2, h3, h4, h5⟩ := C93_sinks c hd p hp ls t n hn iv hiv
  rw [hnd] at h1
  obtain rfl := Option.some.inj h1
  obtain ⟨more, rfl⟩ := h5 hret
  obtain ⟨served, received, first, drops, g1, g2, g3, g4⟩ := only_received hd hp ls t hs honly hkept read more h2 h3
  exact ⟨served, received, first, drops, read, g1, g2, g3, h4, g4⟩

/-- **C93 (end to end, nothing dropped).**  If moreover no queue on the way has been full, the sink has been given exactly the payloads among
what the filters make of everything the source sent.  Missing: as above. -/
theorem C93_end_to_end_partial (c : Config) (hd : Distinct c) (p : Setup F) (hp : SetUp c p) (ls : Nat → Label F) (t : Nat)
    (s : Str) (i : Nat) (chans : List Str) (hs : p.wiring.sources[i]? = some (s, chans)) (fs : List Str) (n : Str)
    (honly : Only c s fs n) (hn : n ∈ c.sinks) (hroom : ∀ m ∈ fs ++ [n], (run p ls t).lost m = [])
    (iv : Option Nat) (hiv : ∀ st, (p.sink n).impl.flushInterval st = iv)
    (nd : Node F) (hnd : (run p ls t).nodes n = some nd) (hret : nd.returned = true) :
    ∃ received out, sourceSent p ls i t = received.filter notPulse ++ [.shutdown] ∧
      Through (fs.map p.filter) received out ∧ nd.delivered = out.filter Event.isPayload := by
  obtain ⟨served, received, first, drops, out, g1, g2, g3, g4, g5⟩ := C93_lossy_partial c hd p hp ls t s i chans hs fs n honly hn
    (fun m hm x hx => by rw [hroom m hm] at hx; cases hx) iv hiv nd hnd hret
  have hlen : (first :: drops).length = (fs ++ [n]).length := by
    have := lossy_length g3
    simp only [List.length_map] at this
    simp [this]
  have hnil : ∀ d ∈ first :: drops, d = [] := by
    intro d hd
    obtain ⟨k, hk, he⟩ := List.getElem_of_mem hd
    have := g5 k d _ (by rw [List.getElem?_eq_getElem hk, he]) (List.getElem?_eq_getElem (hlen ▸ hk))
    rw [hroom _ (List.getElem_mem _)] at this
    exact List.sublist_nil.1 this
  obtain rfl := hnil first List.mem_cons_self
  obtain rfl := g2.none_dropped
  exact ⟨received, out, g1, lossless g3 fun d hd => hnil d (List.mem_cons_of_mem _ hd), g4⟩

/-- **C93 (at exit), partial.**  When the process has exited, this is so for every sink that is fed by one source only.  Missing: as above. -/
theorem C93_at_exit_partial (c : Config) (hd : Distinct c) (p : Setup F) (hp : SetUp c p) (ls : Nat → Label F) (t : Nat)
    (h : (run p ls t).main = .exited) (s : Str) (i : Nat) (chans : List Str) (hs : p.wiring.sources[i]? = some (s, chans))
    (fs : List Str) (n : Str) (honly : Only c s fs n) (hn : n ∈ c.sinks) (hroom : ∀ m ∈ fs ++ [n], (run p ls t).lost m = [])
    (iv : Option Nat) (hiv : ∀ st, (p.sink n).impl.flushInterval st = iv) :
    ∃ nd received out, (run p ls t).nodes n = some nd ∧ sourceSent p ls i t = received.filter notPulse ++ [.shutdown] ∧
      Through (fs.map p.filter) received out ∧ nd.delivered = out.filter Event.isPayload := by
  obtain ⟨nd, h1, h2⟩ := (C92_orderly c hd p hp ls t h).2.2 n (.inl hn)
  obtain ⟨received, out, h3⟩ := C93_end_to_end_partial c hd p hp ls t s i chans hs fs n honly hn hroom iv hiv nd h1 h2
  exact ⟨nd, received, out, h1, h3⟩

private def twoSources : Config := ⟨[['k']], [], [], [(['a'], [['k']]), (['b'], [['k']])]⟩

private def twoSetup : Setup Int where
  wiring := ⟨[(['k'], [['a'], ['b']])], [], [(['a'], [['k']]), (['b'], [['k']])], [['k']]⟩
  filter _ := ⟨_, delayProcess, 10⟩
  sink _ := ⟨Unit, nullImpl, ()⟩
  stopOrder := [0, 1]
  joinOrder := [['k']]

/-- The first source ends; then the second still sends a line before it is told to end. -/
private def twoRota : List (Label Int) := [.signal, .main, .main, .stop 0, .emit 1 (.log (.new 0 ['p'] ['v'])), .main, .main,
  .stop 1, .main, .main, .act ['k'] 0, .act ['k'] 0, .act ['k'] 0, .act ['k'] 0, .main, .main]

/-- **C93 is false** of a sink that two sources forward to: the process exits although a line that the second source has sent,
and the sink's queue has accepted, has not been given to the sink. -/
theorem C93_two_sources_false : ∃ (c : Config) (p : Setup Int) (ls : Nat → Label Int) (t : Nat) (l : LogLine),
    Distinct c ∧ SetUp c p ∧ Forwards c ['b'] ['k'] ∧ p.wiring.sources[1]? = some (['b'], [['k']]) ∧
    (run p ls t).main = .exited ∧ sourceSent p ls 1 t = [.log l, .shutdown] ∧
    (.source 1, .log l) ∈ (run p ls t).log ['k'] ∧ ((run p ls t).nodes ['k']).map Node.delivered = some [] := by
  refine ⟨twoSources, twoSetup, fun t => twoRota[t]?.getD .main, 16, .new 0 ['p'] ['v'], by decide, ⟨rfl, by decide, by decide, ?_⟩, ⟨[['k']], by decide, by decide⟩, rfl, by decide +kernel, by decide +kernel, by decide +kernel,
    by decide +kernel⟩
  intro n hn; cases hn

/-! ## A lost `Shutdown` -/

private theorem parted_once {es : List (Event F)} (hes : ∀ e ∈ es, e.isShutdown = false) : ∀ {kept dropped : List (Event F)},
    Parted kept dropped (es ++ [.shutdown]) → .shutdown ∈ dropped → .shutdown ∉ kept := by
  induction es with
  | nil =>
    intro kept dropped h h1 h2
    rw [List.nil_append] at h
    cases h with
    | kept _ h => cases h; cases h1
    | dropped _ h => cases h; cases h2
  | cons e es ih =>
    intro kept dropped h h1 h2
    have he : (Event.shutdown : Event F) ≠ e := by
      rintro rfl; have := hes _ List.mem_cons_self; cases this
    have hes := fun x hx => hes x (List.mem_cons_of_mem _ hx)
    rw [List.cons_append] at h
    cases h with
    | kept _ h => exact ih hes h h1 ((List.mem_cons.1 h2).resolve_left he)
    | dropped _ h => exact ih hes h ((List.mem_cons.1 h1).resolve_left he) h2

/-- **C92 is false** when the queue of a sink or filter is full at the moment the only source that feeds it sends its `Shutdown`:
the `Shutdown` is dropped like any other event, and the process never exits, whatever the schedule. -/
theorem C92_lost_shutdown_false (c : Config) (hd : Distinct c) (p : Setup F) (hp : SetUp c p) (ls : Nat → Label F) (t : Nat)
    (s : Str) (i : Nat) (chans : List Str) (hs : p.wiring.sources[i]? = some (s, chans)) (n : Str) (honly : Only c s [] n)
    (hlost : (.source i, .shutdown) ∈ (run p ls t).lost n) : ∀ t', (run p ls t').main ≠ .exited := by
  intro t' hx
  have hw := hp.wired
  have hL := linked hd hw
  have hn := only_channel hd hw honly
  have h0 := some_of_channel hd hw hn
  have hsole := sole_sender hd hp ls (t := t') hs honly
  have hf : Forwards c s n := by
    generalize hfs : ([] : List Str) = fs at honly
    cases honly with
    | via fs f n => simp at hfs
    | direct _ hsrc hf honly => exact hf
  -- its queue has accepted a Shutdown
  have hacc : ∃ x ∈ (run p ls t').log n, x.2.isShutdown = true := by
    apply Classical.byContradiction
    intro hno
    have hno : ∀ x ∈ (run p ls t').log n, x.2.isShutdown = false := by
      intro x hx'
      cases h : x.2.isShutdown with
      | false => rfl
      | true => exact absurd ⟨x, hx', h⟩ hno
    refine unended hL ?_ t' hno ((C92_orderly c hd p hp ls t' hx).2.2 n hn)
    have hj := (node_iff hd hw n).2 hn
    rcases List.mem_append.1 hj with h | h
    · exact .inl (mem_fst h)
    · obtain ⟨⟨a, b⟩, h⟩ := mem_fst h; exact .inr ⟨a, b, h⟩
  obtain ⟨⟨y, e⟩, h1, h2⟩ := hacc
  obtain rfl : e = .shutdown := by cases e <;> simp_all [Event.isShutdown]
  obtain rfl : y = .source i := hsole _ h1 rfl
  -- but the source sends only one
  have h1 := (log_stable (ls := ls) h0 (Nat.le_max_right t t')).subset h1
  have hlost := (lost_stable (ls := ls) h0 (Nat.le_max_left t t')).subset hlost
  have hfrom := ((C93_queues c hd p hp ls (max t t') n hn).1 i s chans hs).1 hf
  have m1 : (Event.shutdown : Event F) ∈ acceptedFrom (.source i) ((run p ls (max t t')).log n) :=
    List.mem_map.2 ⟨_, List.mem_filter.2 ⟨h1, by simp⟩, rfl⟩
  have m2 : (Event.shutdown : Event F) ∈ acceptedFrom (.source i) ((run p ls (max t t')).lost n) :=
    List.mem_map.2 ⟨_, List.mem_filter.2 ⟨hlost, by simp⟩, rfl⟩
  rcases ended_iff p ls hs (max t t') with ⟨-, h2⟩ | ⟨-, es, h3, h4⟩
  · have := (h2 _ (hfrom.sublist.1.subset m1)).1
    cases this
  · rw [h3] at hfrom
    exact parted_once (fun e he => (h4 e he).1) hfrom m2 m1

/-! ## Examples -/

/-- Two lines, the second too old for the filter; then a signal. -/
private def sending (t : Nat) : Label Int :=
  if t = 0 then .emit 0 (.log (.new 0 ['p'] ['v'])) else if t = 1 then .pulse 1 else
  if t = 2 then .emit 0 (.log (.new 50 ['p'] ['w'])) else rota t

example : (run forkedSetup sending 100).main = .exited ∧
    ((run forkedSetup sending 100).nodes ['k']).map Node.delivered = some [.log (.new 0 ['p'] ['v'])] ∧
    ((run forkedSetup sending 100).nodes ['l']).map Node.delivered = some [.log (.new 0 ['p'] ['v'])] := by decide +kernel

/-- The same, with the first event that `f` is sent dropped: the process exits, and what was dropped is on record. -/
private def crowdedSetup (k : Nat) : Setup Int := { forkedSetup with full := fun n j => n == ['f'] && j == k }

private theorem crowded_setUp (k : Nat) : SetUp forked (crowdedSetup k) := by
  obtain ⟨h1, h2, h3, h4⟩ := forked_setUp
  exact ⟨h1, h2, h3, h4⟩

example : (run (crowdedSetup 0) sending 100).main = .exited ∧
    (run (crowdedSetup 0) sending 100).lost ['f'] = [(.source 0, .log (.new 0 ['p'] ['v']))] ∧
    ((run (crowdedSetup 0) sending 100).nodes ['k']).map Node.delivered = some [] := by decide +kernel

example : ShutdownsKept (crowdedSetup 0) sending := by
  refine shutdowns_kept 1 fun n => ?_
  by_cases h : n = ['f']
  · subst h
    refine .inr ⟨?_, ?_, ?_⟩
    · intro t ht x; obtain rfl : t = 0 := by omega
      simp [run, initial]
    · intro x hx
      have : ((run (crowdedSetup 0) sending 1).lost ['f']).map (·.2) = [.log (.new 0 ['p'] ['v'])] := by decide +kernel
      have hm := List.mem_map_of_mem (f := (·.2)) hx
      rw [this] at hm
      simp at hm
    · intro k hk
      have : (run (crowdedSetup 0) sending 1).tries ['f'] = 1 := by decide +kernel
      have : k ≠ 0 := by omega
      simp [crowdedSetup, this]
  · exact .inl fun k => by simp [crowdedSetup, h]

/-- With the `Shutdown` dropped. -/
example : (.source 0, .shutdown) ∈ (run (crowdedSetup 3) sending 100).lost ['f'] ∧ ∀ t, (run (crowdedSetup 3) sending t).main ≠ .exited := by
  have h : (.source 0, .shutdown) ∈ (run (crowdedSetup 3) sending 100).lost ['f'] := by decide +kernel
  refine ⟨h, C92_lost_shutdown_false forked (by decide) (crowdedSetup 3) (crowded_setUp 3) sending 100 ['s'] 0 [['f']] rfl ['f'] ?_ h⟩
  refine .direct _ (by decide) ⟨[['f']], by decide, by decide⟩ ?_
  rintro u ⟨fs, h1, h2⟩
  simp only [forked, List.mem_append, List.mem_singleton, Prod.mk.injEq, List.not_mem_nil, or_false, false_or] at h1
  rcases h1 with ⟨rfl, rfl⟩ | ⟨rfl, rfl⟩
  · revert h2; decide
  · rfl

example : Distinct forked ∧ SetUp forked forkedSetup ∧ forkedSetup.wiring.sources[0]? = some (['s'], [['f']]) ∧
    Only forked ['s'] [['f']] ['k'] ∧ (∀ st, (forkedSetup.sink ['k']).impl.flushInterval st = (nullImpl (F := Int)).flushInterval ()) ∧
    HasChannel forked ['k'] := by
  refine ⟨by decide, forked_setUp, rfl, ?_, fun _ => rfl, .inl (by decide)⟩
  have hall : ∀ u n, Forwards forked u n → u = ['f'] ∧ n ≠ ['f'] ∨ u = ['s'] ∧ n = ['f'] := by
    rintro u n ⟨fs, h1, h2⟩
    simp only [forked, List.mem_append, List.mem_singleton, Prod.mk.injEq, List.not_mem_nil, or_false, false_or] at h1
    rcases h1 with ⟨rfl, rfl⟩ | ⟨rfl, rfl⟩
    · left; refine ⟨rfl, ?_⟩; rintro rfl; revert h2; decide
    · right; exact ⟨rfl, by simpa using h2⟩
  refine .via [] ['f'] ['k'] (.direct _ (by decide) ⟨[['f']], by decide, by decide⟩ ?_) ⟨[['k'], ['l']], by decide, by decide⟩ ?_
  · intro u hu; rcases hall u _ hu with ⟨-, h⟩ | ⟨h, -⟩
    · exact absurd rfl h
    · exact h
  · intro u hu; rcases hall u _ hu with ⟨h, -⟩ | ⟨-, h⟩
    · exact h
    · exact absurd h (by decide)

end Verif
