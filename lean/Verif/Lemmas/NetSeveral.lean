import Verif.Lemmas.NetNames
import Verif.Lemmas.NetLog
import Verif.Props.NetLog
/-! # Lemmas about sinks that several sources feed -/
namespace Verif
namespace Net
open Topology
open Pipeline (Through Proper notPulse)
variable {F : Type} [F64 F] {p : Setup F} {ls : Nat → Label F}

/-- Before a signal has arrived no source has returned. -/
theorem serving (t : Nat) : (run p ls t).main = .waiting → (run p ls t).told = [] ∧ (run p ls t).ended = [] := by
  induction t with
  | zero => intro _; exact ⟨rfl, rfl⟩
  | succ t ih =>
    intro h
    by_cases hl : ls t = .main
    · have hw : (run p ls t).main = .waiting := by
        rw [run, hl] at h
        simp only [step, State.mainStep] at h
        cases hm : (run p ls t).main with
        | waiting => rfl
        | stopping l => cases l with
          | nil => simp [hm] at h
          | cons i is =>
            simp only [hm] at h
            repeat' split at h
            all_goals simp_all
        | joining l => cases l with
          | nil => simp [hm] at h
          | cons n ns =>
            simp only [hm] at h
            repeat' split at h
            all_goals simp_all
        | exited => simp [hm] at h
      obtain ⟨i1, i2⟩ := ih hw
      rw [run, hl]
      simp only [step, State.mainStep, hw]
      split <;> exact ⟨i1, i2⟩
    · rw [run, step_main p _ _ hl] at h
      obtain ⟨i1, i2⟩ := ih h
      rw [run, step_told p _ _ hl]
      refine ⟨i1, ?_⟩
      rcases step_ended p (run p ls t) (ls t) with h' | ⟨k, _, _, _, h4, _⟩
      · rw [h', i2]
      · rw [i1] at h4; cases h4

theorem none_ended {t : Nat} (h : ∀ t' < t, ls t' ≠ .signal) : (run p ls t).ended = [] := by
  refine (serving t ?_).2
  cases hm : (run p ls t).main with
  | waiting => rfl
  | _ =>
    obtain ⟨t', h1, h2⟩ := (signal_seen (p := p) (ls := ls) t).1 ((signal_seen t).2 (by rw [hm]; intro h; cases h))
    exact absurd h2 (h t' h1)

theorem through_snoc {fs : List (Pipeline.FilterCode F)} {es mid : List (Event F)} (h : Through fs es mid)
    (f : Pipeline.FilterCode F) (clock : List Int) (hc : clock.length = mid.length) :
    Through (fs ++ [f]) es (expectedSent f.process f.start ((clock.zip mid).map some)) := by
  induction h with
  | done es => exact .filter f [] es clock _ hc (.done _)
  | filter g gs es cl out h1 _ ih => exact .filter g (gs ++ [f]) es cl _ h1 (ih hc)

theorem funnel_channel {c : Config} (hd : Distinct c) {w : Wiring} (hw : wire c = .ok w) {m n : Str} {fs : List Str}
    (h : Funnel c m fs n) : HasChannel c n := by
  have hchan := ((C58_starts_partial c hd).1 ⟨_, hw⟩).1
  cases h with
  | sources h _ => exact h
  | via _ f _ _ h => exact hchan f n h

theorem funnel_first {c : Config} {m n : Str} {fs : List Str} (h : Funnel c m fs n) :
    HasChannel c m ∧ (∀ u, Forwards c u m → u ∈ (c.natives ++ c.sources).map (·.1)) ∧ m ∈ fs ++ [n] := by
  induction h with
  | sources h1 h2 => exact ⟨h1, h2, by simp⟩
  | via fs f n _ _ _ ih => exact ⟨ih.1, ih.2.1, by simp only [List.mem_append] at ih ⊢; exact .inl ih.2.2⟩

theorem funnel_filter {c : Config} (hd : Distinct c) {w : Wiring} (hw : wire c = .ok w) {m f n : Str} {fs : List Str}
    (h : Funnel c m fs f) (hf : Forwards c f n) : f ∈ c.filters.map (·.1) := by
  obtain ⟨w1, w2, -⟩ := C57_mutual c hd _ hw
  obtain ⟨-, -, -, -, n5, n6⟩ := names hd hw
  rcases forwards_node hd hw hf with h' | h'
  · exact w2 ▸ h'
  · rcases funnel_channel hd hw h with hc | ⟨_, hc⟩
    · exact absurd (w1 ▸ hc) (n6 f h')
    · exact List.mem_map.2 ⟨_, hc, rfl⟩

theorem first_in_log {log : List (Sender × Event F)} {pre post : List (Event F)} (h : log.map (·.2) = pre ++ .shutdown :: post) :
    ∃ a x b, log = a ++ (x, .shutdown) :: b ∧ a.map (·.2) = pre := by
  obtain ⟨a, b, h1, h2, h3⟩ := List.map_eq_append_iff.1 h
  obtain ⟨x, b', h4, h5, h6⟩ := List.map_eq_cons_iff.1 h3
  obtain ⟨s, e⟩ := x
  simp only at h5
  subst h5 h4 h1
  exact ⟨a, s, b', rfl, h2⟩

/-- What the queue of the last node has before its first `Shutdown` is what the filters make of what the first has before its first. -/
theorem funnel_received {c : Config} (hd : Distinct c) (hp : SetUp c p) (t : Nat) {first : Str} {fs : List Str} {n : Str}
    (h : Funnel c first fs n) : (∀ m ∈ fs ++ [n], (run p ls t).lost m = []) →
    ∀ pre post, ((run p ls t).log n).map (·.2) = pre ++ .shutdown :: post → (∀ e ∈ pre, e.isShutdown = false) →
      ∃ received x late, (run p ls t).log first = received ++ (x, .shutdown) :: late ∧ (∀ y ∈ received, y.2.isShutdown = false) ∧
        Through (fs.map p.filter) (received.map (·.2)) pre := by
  have hw := hp.wired
  have hL := linked hd hw
  obtain ⟨w1, w2, w3, -⟩ := C57_mutual c hd _ hw
  obtain ⟨n1, n2, n3, n4, n5, n6⟩ := names hd hw
  induction h with
  | sources _ _ =>
    intro _ pre post hlog hpre
    obtain ⟨a, x, b, h1, h2⟩ := first_in_log hlog
    refine ⟨a, x, b, h1, ?_, by rw [h2]; exact .done _⟩
    intro y hy
    exact hpre _ (h2 ▸ List.mem_map.2 ⟨y, hy, rfl⟩)
  | via fs f n hfun hf honly ih =>
    intro hroom pre post hlog hpre
    have ih := ih fun m hm => hroom m (by simp only [List.mem_append] at hm ⊢; exact .inl hm)
    have hn := funnel_channel hd hw (.via fs f n hfun hf honly)
    have hff := funnel_filter hd hw hfun hf
    obtain ⟨q1, q2, q3⟩ := C93_queues c hd p hp ls t n hn
    obtain ⟨nd, k1, k2, -⟩ := q2 f hff
    have k2 := k2 hf
    have hall : ((run p ls t).log n).map (·.2) = acceptedFrom (.filter f) ((run p ls t).log n) := by
      apply acceptedFrom_only
      intro x hx
      have h0 := log_senders (some_of_channel hd hw hn) t x hx
      obtain ⟨xs, xe⟩ := x
      cases xs with
      | source j =>
        obtain ⟨u, ch, g1, g2⟩ := h0
        obtain rfl : u = f := honly u (((C57_mutual c hd _ hw).2.2.2.2.2.1 u ch (List.mem_of_getElem? g1)).2 n |>.1 g2)
        exact absurd (w2 ▸ hff) (n5 u (List.mem_map.2 ⟨_, List.mem_of_getElem? g1, rfl⟩))
      | filter g =>
        obtain ⟨ups, ch, g1, g2⟩ := h0
        obtain rfl : g = f := honly g ((((C57_mutual c hd _ hw).2.2.2.2.1 g ups ch g1).2.2 n).1 g2)
        rfl
      | timer =>
        obtain ⟨s', hs', hfw⟩ := ((C57_mutual c hd _ hw).2.2.2.2.2.2.2 n).1 h0.1
        obtain rfl := honly s' hfw
        exact absurd (w2 ▸ hff) (n5 s' (w3 ▸ hs'))
    rw [hroom n (by simp)] at k2
    have k3 := k2.none_dropped
    rw [← hall, hlog] at k3
    obtain ⟨⟨ups, ch⟩, hfl⟩ := mem_fst (w2 ▸ hff)
    obtain ⟨ins, q, e1, e2⟩ := filter_log (ls := ls) hL hfl t
    rw [k1] at e1
    obtain rfl := Option.some.inj e1
    have hprop := hp.filters f hff
    rw [Node.sent, Pipeline.after_sent hprop.tidy _ _ _ rfl] at k3
    simp only [List.nil_append] at k3
    by_cases hsd : ∃ x ∈ ins, x.2.isShutdown = true
    · obtain ⟨a, ⟨now, e⟩, b, rfl, hb, ha⟩ := first_of hsd
      obtain rfl : e = .shutdown := by cases e <;> simp_all [Event.isShutdown]
      obtain ⟨more, hm⟩ := Pipeline.expectedSent_split (p.filter f).process a (p.filter f).start now b ha
      rw [hm] at k3
      have hpe := Pipeline.first_shutdown_unique k3 hpre fun e he => hprop.keeps a ha e he
      obtain ⟨received, x, late, r1, r2, r3⟩ := ih (a.map (·.2)) (b.map (·.2) ++ q) (by rw [e2]; simp) (by
        intro e he
        obtain ⟨y, hy, rfl⟩ := List.mem_map.1 he
        exact ha y hy)
      have hz : (a.map (·.1)).zip (a.map (·.2)) = a := by rw [List.zip_map']; simp
      refine ⟨received, x, late, r1, r2, ?_⟩
      rw [List.map_append, List.map_cons, List.map_nil, hpe]
      have := through_snoc r3 (p.filter f) (a.map (·.1)) (by simp)
      rwa [hz] at this
    · exfalso
      have hno : ∀ x ∈ ins, x.2.isShutdown = false := by
        intro x hx
        cases h : x.2.isShutdown with
        | true => exact absurd ⟨x, hx, h⟩ hsd
        | false => rfl
      have : (Event.shutdown : Event F) ∈ expectedSent (p.filter f).process (p.filter f).start (ins.map some) := by
        rw [← k3]; simp
      have := hprop.keeps ins hno _ this
      cases this

/-- A list without `Shutdown`s that is a prefix of one with its first `Shutdown` after `a` is a prefix of `a`. -/
theorem before_first {l a b : List (Sender × Event F)} {x : Sender} (h : l <+: a ++ (x, .shutdown) :: b)
    (hl : ∀ y ∈ l, y.2.isShutdown = false) : l <+: a := by
  induction a generalizing l with
  | nil =>
    cases l with
    | nil => exact List.nil_prefix
    | cons y l =>
      have := (List.cons_prefix_cons.1 h).1
      have h2 := hl y List.mem_cons_self
      rw [this] at h2; cases h2
  | cons z a ih =>
    cases l with
    | nil => exact List.nil_prefix
    | cons y l =>
      obtain ⟨rfl, h'⟩ := List.cons_prefix_cons.1 h
      exact List.cons_prefix_cons.2 ⟨rfl, ih h' fun w hw => hl w (List.mem_cons_of_mem _ hw)⟩

theorem acceptedFrom_prefix {a b : List (Sender × Event F)} (h : a <+: b) (x : Sender) : acceptedFrom x a <+: acceptedFrom x b := by
  obtain ⟨c, rfl⟩ := h
  rw [acceptedFrom_append]; exact List.prefix_append _ _

/-- While none of the sources that feed a node has returned, its queue has accepted no `Shutdown`. -/
theorem no_shutdown_yet {c : Config} (hd : Distinct c) (hp : SetUp c p) (T : Nat) {first : Str} (hc : HasChannel c first)
    (honly : ∀ u, Forwards c u first → u ∈ (c.natives ++ c.sources).map (·.1))
    (hT : ∀ i s chans, p.wiring.sources[i]? = some (s, chans) → Forwards c s first → i ∉ (run p ls T).ended) :
    ∀ y ∈ (run p ls T).log first, y.2.isShutdown = false := by
  have hw := hp.wired
  obtain ⟨w1, w2, w3, -, w5, w6, -, w7⟩ := C57_mutual c hd _ hw
  obtain ⟨-, -, -, -, n5, -⟩ := names hd hw
  intro y hy
  have h0 := some_of_channel hd hw hc
  have hs := log_senders h0 T y hy
  obtain ⟨x, e⟩ := y
  cases x with
  | source i =>
    obtain ⟨u, ch, g1, g2⟩ := hs
    have hfw := ((w6 u ch (List.mem_of_getElem? g1)).2 first).1 g2
    have hq := ((C93_queues c hd p hp ls T first hc).1 i u ch g1).1 hfw
    have hmem : e ∈ acceptedFrom (.source i) ((run p ls T).log first) := List.mem_map.2 ⟨_, List.mem_filter.2 ⟨hy, by simp⟩, rfl⟩
    rcases ended_iff p ls g1 T with ⟨-, h2⟩ | ⟨h1, -⟩
    · exact (h2 e (hq.sublist.1.subset hmem)).1
    · exact absurd h1 (hT i u ch g1 hfw)
  | filter f =>
    obtain ⟨ups, ch, g1, g2⟩ := hs
    have hfw := ((w5 f ups ch g1).2.2 first).1 g2
    exact absurd (List.mem_map.2 ⟨_, g1, rfl⟩) (n5 f (w3 ▸ honly f hfw))
  | timer => cases e <;> simp_all [Event.isTimerFlush, Event.isShutdown]

end Net
end Verif
