import Verif.Spec.Startup
/-!
# C121: a configuration that cannot work is refused at start-up
-/
namespace Verif
open Startup Config Topology

/-! ### Binding addresses one after another -/

private def BindFrom (bind : List Addr → Addr → Bool) (base xs : List Addr) : Prop :=
  ∀ before x after, xs = before ++ x :: after → bind (base ++ before) x = true

private theorem bindFrom_nil (bind : List Addr → Addr → Bool) (base : List Addr) : BindFrom bind base [] := by
  intro b x a h; simp at h

private theorem bindFrom_cons (bind : List Addr → Addr → Bool) (base : List Addr) (y : Addr) (ys : List Addr) :
    BindFrom bind base (y :: ys) ↔ bind base y = true ∧ BindFrom bind (base ++ [y]) ys := by
  constructor
  · intro h
    refine ⟨by simpa using h [] y ys rfl, fun b x a e => ?_⟩
    have := h (y :: b) x a (by rw [e]; rfl)
    simpa using this
  · rintro ⟨h1, h2⟩ b x a e
    cases b with
    | nil => simp only [List.nil_append, List.cons.injEq] at e; rw [← e.1]; simpa using h1
    | cons z b =>
      simp only [List.cons_append, List.cons.injEq] at e
      obtain ⟨rfl, e⟩ := e
      simpa using h2 b x a e

private theorem bindFrom_append (bind : List Addr → Addr → Bool) : ∀ (xs ys base : List Addr),
    BindFrom bind base (xs ++ ys) ↔ BindFrom bind base xs ∧ BindFrom bind (base ++ xs) ys := by
  intro xs
  induction xs with
  | nil => intro ys base; simp [bindFrom_nil]
  | cons x xs ih => intro ys base; simp only [List.cons_append, bindFrom_cons, ih, List.append_assoc, List.nil_append, and_assoc]

private theorem bindAll_iff (bind : List Addr → Addr → Bool) : ∀ (xs base r : List Addr),
    bindAll bind base xs = some r ↔ r = base ++ xs ∧ BindFrom bind base xs := by
  intro xs
  induction xs with
  | nil => intro base r; simp [bindAll, bindFrom_nil, eq_comm]
  | cons x xs ih =>
    intro base r
    simp only [bindAll, bindFrom_cons]
    by_cases h : bind base x = true
    · rw [if_pos h, ih]; simp [h]
    · rw [if_neg h]; simp [h]

/-! ### The sources -/

private def tcpOf (h : Host) (s : Source) : List Addr := match s.kind with
  | .tcp host port => addresses h host port
  | _ => []

private def udpOf (h : Host) (s : Source) : List Addr := match s.kind with
  | .statsd host port => addresses h host port
  | _ => []

private def isKnown (h : Host) (s : Source) : Bool := match s.kind with
  | .tcp host port => (h.resolve host port).isSome
  | _ => true

private def isDead (h : Host) (s : Source) : Bool := match s.kind with
  | .file pattern => !h.pattern pattern
  | _ => false

private def isDeaf (h : Host) (s : Source) : Bool := match s.kind with
  | .tcp host port => (addresses h host port).isEmpty
  | .statsd host port => (addresses h host port).isEmpty
  | _ => false

private def after (h : Host) (s : Started) (srcs : List Source) (w : Wiring) : Started :=
  { wiring := w, tcp := s.tcp ++ srcs.flatMap (tcpOf h), udp := s.udp ++ srcs.flatMap (udpOf h),
    dead := s.dead ++ (srcs.filter (isDead h)).map (·.path), deaf := s.deaf ++ (srcs.filter (isDeaf h)).map (·.path) }

private theorem initSource_iff (h : Host) (s s' : Started) (src : Source) :
    initSource h s src = some s' ↔ isKnown h src = true ∧ BindFrom h.tcpBind s.tcp (tcpOf h src) ∧
      BindFrom h.udpBind s.udp (udpOf h src) ∧ s' = after h s [src] s.wiring := by
  obtain ⟨path, fwds, kind⟩ := src
  cases kind with
  | tcp host port =>
    simp only [initSource, isKnown, tcpOf, udpOf, after, addresses, isDead, isDeaf, List.flatMap_cons, List.flatMap_nil, List.append_nil,
      List.filter_cons, List.filter_nil]
    rcases Option.eq_none_or_eq_some (h.resolve host port) with hr | ⟨xs, hr⟩
    · simp [hr]
    · simp only [hr, Option.bind_some, Option.map_eq_some_iff, bindAll_iff, Option.isSome_some, Option.getD_some, true_and, bindFrom_nil]
      constructor
      · rintro ⟨r, ⟨rfl, h1⟩, rfl⟩
        refine ⟨h1, ?_⟩
        cases xs <;> simp
      · rintro ⟨h1, rfl⟩
        refine ⟨_, ⟨rfl, h1⟩, ?_⟩
        cases xs <;> simp
  | statsd host port =>
    simp only [initSource, isKnown, tcpOf, udpOf, after, addresses, isDead, isDeaf, List.flatMap_cons, List.flatMap_nil, List.append_nil,
      List.filter_cons, List.filter_nil]
    rcases Option.eq_none_or_eq_some (h.resolve host port) with hr | ⟨xs, hr⟩
    · simp [hr, bindFrom_nil, eq_comm]
    · simp only [hr, Option.map_eq_some_iff, bindAll_iff, Option.getD_some, true_and, bindFrom_nil]
      constructor
      · rintro ⟨r, ⟨rfl, h1⟩, rfl⟩
        refine ⟨h1, ?_⟩
        cases xs <;> simp
      · rintro ⟨h1, rfl⟩
        refine ⟨_, ⟨rfl, h1⟩, ?_⟩
        cases xs <;> simp
  | internal =>
    simp [initSource, isKnown, tcpOf, udpOf, after, isDead, isDeaf, bindFrom_nil]
    exact eq_comm
  | file pattern =>
    simp only [initSource, isKnown, tcpOf, udpOf, after, isDead, isDeaf, bindFrom_nil, true_and, List.flatMap_cons, List.flatMap_nil, List.append_nil,
      List.filter_cons, List.filter_nil]
    rcases Bool.eq_false_or_eq_true (h.pattern pattern) with hr | hr <;> simp [hr] <;> exact eq_comm

private theorem after_after (h : Host) (s : Started) (src : Source) (srcs : List Source) (w w' : Wiring) :
    after h { after h s [src] s.wiring with wiring := w } srcs w' = after h s (src :: srcs) w' := by
  simp only [after, List.flatMap_cons, List.flatMap_nil, List.append_nil, List.append_assoc, List.filter_cons, List.filter_nil]
  cases isDead h src <;> cases isDeaf h src <;> simp

private theorem sources_iff (h : Host) (snd : List Str) : ∀ (srcs : List Source) (m : Matrix.Adjacency Str) (s s' : Started),
    Startup.startSources h snd m s srcs = .ok s' ↔
      (∃ m' w, Topology.startSources snd m s.wiring (srcs.map fun x => (x.path, x.forwards)) = .ok (m', w) ∧ s' = after h s srcs w) ∧
      (∀ x ∈ srcs, isKnown h x = true) ∧ BindFrom h.tcpBind s.tcp (srcs.flatMap (tcpOf h)) ∧
      BindFrom h.udpBind s.udp (srcs.flatMap (udpOf h)) := by
  intro srcs
  induction srcs with
  | nil =>
    intro m s s'
    simp only [Startup.startSources, Topology.startSources, after, bindFrom_nil, List.map_nil, List.flatMap_nil, List.filter_nil, List.append_nil,
      Except.ok.injEq, Prod.mk.injEq, List.not_mem_nil, false_implies, implies_true, and_true]
    constructor
    · rintro rfl; exact ⟨_, _, ⟨rfl, rfl⟩, rfl⟩
    · rintro ⟨_, _, ⟨rfl, rfl⟩, rfl⟩; rfl
  | cons src srcs ih =>
    intro m s s'
    simp only [Startup.startSources, Topology.startSources, List.map_cons]
    cases hp : populate snd src.path m src.forwards with
    | none => simp
    | some m1 =>
      simp only
      rcases hm : m1.popMetadata src.path with ⟨downs, m2⟩
      simp only
      cases hi : initSource h s src with
      | none =>
        simp only [reduceCtorEq, false_iff]
        rintro ⟨-, h1, h2, h3⟩
        rw [List.flatMap_cons, bindFrom_append] at h2 h3
        have := (initSource_iff h s (after h s [src] s.wiring) src).2 ⟨h1 src (by simp), h2.1, h3.1, rfl⟩
        rw [hi] at this
        simp at this
      | some s1 =>
        obtain ⟨k1, k2, k3, rfl⟩ := (initSource_iff h s s1 src).1 hi
        simp only
        rw [ih]
        simp only [List.flatMap_cons, bindFrom_append, List.forall_mem_cons, k1, k2, k3, true_and, after_after]
        simp only [after, List.flatMap_cons, List.flatMap_nil, List.append_nil]

private theorem sources_exit (h : Host) (snd : List Str) : ∀ (srcs : List Source) (m : Matrix.Adjacency Str) (s : Started) (x : Stop),
    Startup.startSources h snd m s srcs = .error x → x ≠ .panic →
      ∃ e, Topology.startSources snd m s.wiring (srcs.map fun x => (x.path, x.forwards)) = .error e ∧ e.why = x := by
  intro srcs
  induction srcs with
  | nil => intro m s x hx; simp [Startup.startSources] at hx
  | cons src srcs ih =>
    intro m s x hx hp
    simp only [Startup.startSources, Topology.startSources, List.map_cons] at hx ⊢
    cases hq : populate snd src.path m src.forwards with
    | none =>
      simp only [hq, Except.error.injEq] at hx ⊢
      exact ⟨_, rfl, hx⟩
    | some m1 =>
      simp only [hq] at hx ⊢
      rcases hm : m1.popMetadata src.path with ⟨downs, m2⟩
      simp only [hm] at hx ⊢
      cases hi : initSource h s src with
      | none => simp only [hi, Except.error.injEq] at hx; exact absurd hx.symm hp
      | some s1 =>
        obtain ⟨-, -, -, rfl⟩ := (initSource_iff h s s1 src).1 hi
        simp only [hi] at hx
        obtain ⟨e, he, hw⟩ := ih _ _ _ hx hp
        exact ⟨e, he, hw⟩

private theorem sources_stop (h : Host) (snd : List Str) : ∀ (srcs : List Source) (m : Matrix.Adjacency Str) (s : Started) (e : Fail),
    Topology.startSources snd m s.wiring (srcs.map fun x => (x.path, x.forwards)) = .error e →
    (∀ x ∈ srcs, isKnown h x = true) → BindFrom h.tcpBind s.tcp (srcs.flatMap (tcpOf h)) →
    BindFrom h.udpBind s.udp (srcs.flatMap (udpOf h)) → Startup.startSources h snd m s srcs = .error e.why := by
  intro srcs
  induction srcs with
  | nil => intro m s e he; simp [Topology.startSources] at he
  | cons src srcs ih =>
    intro m s e he hk h2 h3
    simp only [Startup.startSources, Topology.startSources, List.map_cons] at he ⊢
    cases hq : populate snd src.path m src.forwards with
    | none =>
      simp only [hq, Except.error.injEq] at he ⊢
      rw [← he]
    | some m1 =>
      simp only [hq] at he ⊢
      rcases hm : m1.popMetadata src.path with ⟨downs, m2⟩
      simp only [hm] at he ⊢
      rw [List.flatMap_cons, bindFrom_append] at h2 h3
      have hi := (initSource_iff h s (after h s [src] s.wiring) src).2 ⟨hk src (by simp), h2.1, h3.1, rfl⟩
      simp only [hi]
      refine ih _ _ _ he (fun x hx => hk x (by simp [hx])) ?_ ?_
      · simpa [after] using h2.2
      · simpa [after] using h3.2

private theorem sourceList_map {F : Type} (a : Args F) :
    (sourceList a).map (fun x => (x.path, x.forwards)) = a.topology.natives ++ a.topology.sources := by
  simp [sourceList, Args.topology, Args.nativeNodes, Args.sourceNodes, tcpSource, Function.comp_def]

private theorem start_iff {F : Type} (h : Host) (a : Args F) (s : Started) :
    start h a = .ok s ↔ ((senders a.topology).all h.channel = true ∧ initSinks h a = true) ∧
      (∃ w, wire a.topology = .ok w ∧ s = after h { wiring := w, dead := brokenScripts h a } (sourceList a) w) ∧
      (∀ x ∈ sourceList a, isKnown h x = true) ∧ BindFrom h.tcpBind [] ((sourceList a).flatMap (tcpOf h)) ∧
      BindFrom h.udpBind [] ((sourceList a).flatMap (udpOf h)) := by
  unfold start wire
  simp only
  by_cases h1 : (senders a.topology).all h.channel = true
  · rw [if_pos h1]
    by_cases h2 : validate a.topology = true
    · rw [if_pos h2, if_pos h2]
      by_cases h3 : initSinks h a = true
      · rw [if_pos h3]
        rcases hs : startSinks (matrix a.topology) {} a.topology.sinks with ⟨m, w⟩
        simp only
        cases hf : startFilters (senders a.topology) m w a.topology.filters with
        | error e => simp
        | ok mw =>
          obtain ⟨m1, w1⟩ := mw
          simp only [sources_iff, sourceList_map, h1, h3, true_and]
          refine and_congr_left fun _ => ?_
          cases hg : Topology.startSources (senders a.topology) m1 w1 (a.topology.natives ++ a.topology.sources) with
          | error e => simp
          | ok mw2 =>
            obtain ⟨m3, w3⟩ := mw2
            simp only [Except.ok.injEq, Prod.mk.injEq]
            constructor
            · rintro ⟨m', w', ⟨rfl, rfl⟩, e⟩
              exact ⟨_, rfl, e⟩
            · rintro ⟨w', rfl, e⟩
              exact ⟨_, _, ⟨rfl, rfl⟩, e⟩
      · rw [if_neg h3]; simp [h3]
    · rw [if_neg h2, if_neg h2]; simp
  · rw [if_neg h1]; simp [h1]

section
variable {F : Type}

private theorem flatMap_none {α β : Type} : ∀ l : List α, l.flatMap (fun _ => ([] : List β)) = []
  | [] => rfl
  | _ :: l => flatMap_none l

private theorem tcp_addrs (h : Host) (a : Args F) :
    (sourceList a).flatMap (tcpOf h) = (tcps a).flatMap fun t => addresses h t.host t.port := by
  simp only [sourceList, tcps, List.flatMap_append, List.flatMap_cons, List.flatMap_map, tcpSource, tcpOf]
  simp [flatMap_none]

private theorem udp_addrs (h : Host) (a : Args F) :
    (sourceList a).flatMap (udpOf h) = a.statsds.flatMap fun s => addresses h s.host s.port := by
  simp only [sourceList, List.flatMap_append, List.flatMap_cons, List.flatMap_map, tcpSource, udpOf]
  simp [flatMap_none]

private theorem all_known (h : Host) (a : Args F) :
    (∀ x ∈ sourceList a, isKnown h x = true) ↔ ∀ t ∈ tcps a, (h.resolve t.host t.port).isSome = true := by
  simp only [sourceList, tcps, List.mem_append, List.mem_cons, List.mem_map]
  constructor
  · rintro hk t ((ht | ht) | ht)
    · exact hk (tcpSource t) (.inl ⟨t, ht, rfl⟩)
    · exact hk (tcpSource t) (.inr (.inr (.inl (.inl (.inr ⟨t, ht, rfl⟩)))))
    · exact hk (tcpSource t) (.inr (.inr (.inl (.inr ⟨t, ht, rfl⟩))))
  · rintro hk x (⟨t, ht, rfl⟩ | rfl | ((⟨s, -, rfl⟩ | ⟨t, ht, rfl⟩) | ⟨t, ht, rfl⟩) | ⟨f, -, rfl⟩)
    · exact hk t (.inl (.inl ht))
    · rfl
    · rfl
    · exact hk t (.inl (.inr ht))
    · exact hk t (.inr ht)
    · rfl

private theorem dead_names (h : Host) (a : Args F) (n : Str) :
    n ∈ ((sourceList a).filter (isDead h)).map (·.path) ↔ ∃ f ∈ a.files, f.path = n ∧ h.pattern f.file = false := by
  simp only [sourceList, List.mem_append, List.mem_cons, List.mem_map, List.mem_filter]
  constructor
  · rintro ⟨x, ⟨⟨t, ht, rfl⟩ | rfl | ((⟨s, -, rfl⟩ | ⟨t, ht, rfl⟩) | ⟨t, ht, rfl⟩) | ⟨f, hf, rfl⟩, hd⟩, rfl⟩
    all_goals first | (simp [isDead, tcpSource] at hd; done) | skip
    exact ⟨f, hf, rfl, by simpa [isDead] using hd⟩
  · rintro ⟨f, hf, rfl, hp⟩
    exact ⟨_, ⟨.inr (.inr (.inr ⟨f, hf, rfl⟩)), by simp [isDead, hp]⟩, rfl⟩

private theorem deaf_names (h : Host) (a : Args F) (n : Str) :
    n ∈ ((sourceList a).filter (isDeaf h)).map (·.path) ↔ (∃ t ∈ tcps a, t.path = n ∧ addresses h t.host t.port = []) ∨
      ∃ s ∈ a.statsds, s.path = n ∧ addresses h s.host s.port = [] := by
  simp only [sourceList, tcps, List.mem_append, List.mem_cons, List.mem_map, List.mem_filter]
  constructor
  · rintro ⟨x, ⟨⟨t, ht, rfl⟩ | rfl | ((⟨s, hs, rfl⟩ | ⟨t, ht, rfl⟩) | ⟨t, ht, rfl⟩) | ⟨f, hf, rfl⟩, hd⟩, rfl⟩
    · exact .inl ⟨t, .inl (.inl ht), rfl, by simpa [isDeaf, tcpSource] using hd⟩
    · simp [isDeaf] at hd
    · exact .inr ⟨s, hs, rfl, by simpa [isDeaf] using hd⟩
    · exact .inl ⟨t, .inl (.inr ht), rfl, by simpa [isDeaf, tcpSource] using hd⟩
    · exact .inl ⟨t, .inr ht, rfl, by simpa [isDeaf, tcpSource] using hd⟩
    · simp [isDeaf] at hd
  · rintro (⟨t, ht, rfl, he⟩ | ⟨s, hs, rfl, he⟩)
    · refine ⟨tcpSource t, ⟨?_, by simp [isDeaf, tcpSource, he]⟩, rfl⟩
      rcases ht with (ht | ht) | ht
      · exact .inl ⟨t, ht, rfl⟩
      · exact .inr (.inr (.inl (.inl (.inr ⟨t, ht, rfl⟩))))
      · exact .inr (.inr (.inl (.inr ⟨t, ht, rfl⟩)))
    · exact ⟨_, ⟨.inr (.inr (.inl (.inl (.inl ⟨s, hs, rfl⟩)))), by simp [isDeaf, he]⟩, rfl⟩

private theorem bindFrom_start (bind : List Addr → Addr → Bool) (xs : List Addr) : BindFrom bind [] xs ↔ BindInTurn bind xs := by
  simp [BindFrom, BindInTurn]

private theorem canStart_iff (h : Host) (a : Args F) : CanStart h a ↔ ((senders a.topology).all h.channel = true ∧ initSinks h a = true) ∧
    (∃ w, wire a.topology = .ok w) ∧ (∀ x ∈ sourceList a, isKnown h x = true) ∧
    BindFrom h.tcpBind [] ((sourceList a).flatMap (tcpOf h)) ∧ BindFrom h.udpBind [] ((sourceList a).flatMap (udpOf h)) := by
  rw [all_known, tcp_addrs, udp_addrs, bindFrom_start, bindFrom_start]
  have hi : initSinks h a = true ↔ (∀ w, a.wavefront = some w → w.host ≠ []) ∧ (∀ i, a.influxdb = some i → h.influxUrl i = true) ∧
      ∀ k ∈ a.kafkas, h.producer k.brokers (k.rdkafka.getD []) = true := by
    simp only [initSinks, Bool.and_eq_true, List.all_eq_true, and_assoc]
    cases a.wavefront <;> cases a.influxdb <;> simp [initWavefront, initInflux, initKafka]
  have hc : (senders a.topology).all h.channel = true ↔ ∀ n ∈ a.sinkNames ++ a.filterNodes.map (·.1), h.channel n = true := by
    rw [List.all_eq_true]; rfl
  rw [hi, hc]
  exact ⟨fun ⟨h1, h2, h3, h4, h5, h6, h7, h8⟩ => ⟨⟨h1, h3, h4, h5⟩, h2, h6, h7, h8⟩,
    fun ⟨⟨h1, h3, h4, h5⟩, h2, h6, h7, h8⟩ => ⟨h1, h2, h3, h4, h5, h6, h7, h8⟩⟩

/-- **C121 (what is refused).**  The process comes up exactly if a queue can be made for every sink and filter, the nodes can be connected as
asked, Wavefront has a host, InfluxDB an address, librdkafka takes the settings of each Kafka sink, the hosts of the TCP sources are known,
and every address to listen on is free, also of the process's own other sources. -/
theorem C121_up_iff (h : Host) (a : Args F) : (∃ s, start h a = .ok s) ↔ CanStart h a := by
  rw [canStart_iff]
  constructor
  · rintro ⟨s, hs⟩
    obtain ⟨h1, ⟨w, hw, -⟩, h3⟩ := (start_iff h a s).1 hs
    exact ⟨h1, ⟨w, hw⟩, h3⟩
  · rintro ⟨h1, ⟨w, hw⟩, h3⟩
    exact ⟨_, (start_iff h a _).2 ⟨h1, ⟨w, hw, rfl⟩, h3⟩⟩

/-- **C121 (how a start-up that is refused ends).**  With an exit status only if the nodes cannot be connected, and then with the status C58
says; in that case the status is given whenever nothing else is wrong.  All else that keeps the process from coming up ends it by a panic. -/
theorem C121_ends (h : Host) (a : Args F) :
    (∀ n, start h a = .error (.exit n) → ∃ e, wire a.topology = .error e ∧ e.why = .exit n) ∧
    (∀ e, wire a.topology = .error e → Provided h a → start h a = .error e.why) ∧
    (∀ w, wire a.topology = .ok w → ¬ Provided h a → start h a = .error .panic) := by
  have hexit : ∀ n, start h a = .error (.exit n) → ∃ e, wire a.topology = .error e ∧ e.why = .exit n := by
    intro n hn
    unfold start at hn
    unfold wire
    simp only at hn ⊢
    by_cases h1 : (senders a.topology).all h.channel = true
    · rw [if_pos h1] at hn
      by_cases h2 : validate a.topology = true
      · rw [if_pos h2] at hn ⊢
        by_cases h3 : initSinks h a = true
        · rw [if_pos h3] at hn
          rcases hs : startSinks (matrix a.topology) {} a.topology.sinks with ⟨m, w⟩
          simp only [hs] at hn ⊢
          cases hf : startFilters (senders a.topology) m w a.topology.filters with
          | error e =>
            simp only [hf, Except.error.injEq] at hn ⊢
            exact ⟨_, rfl, hn⟩
          | ok mw =>
            obtain ⟨m1, w1⟩ := mw
            simp only [hf] at hn ⊢
            obtain ⟨e, he, hw⟩ := sources_exit h _ _ _ _ _ hn (by simp)
            rw [sourceList_map] at he
            simp only [he]
            exact ⟨_, rfl, hw⟩
        · rw [if_neg h3] at hn; simp at hn
      · rw [if_neg h2] at hn ⊢
        simp only [Except.error.injEq] at hn
        exact ⟨_, rfl, hn⟩
    · rw [if_neg h1] at hn; simp at hn
  refine ⟨hexit, fun e he hp => ?_, fun w hw hp => ?_⟩
  · have hc : (senders a.topology).all h.channel = true := by
      rw [List.all_eq_true]; exact hp.queues
    have hi : initSinks h a = true := by
      simp only [initSinks, Bool.and_eq_true, List.all_eq_true, and_assoc]
      refine ⟨?_, ?_, fun k hk => hp.kafka k hk⟩
      · cases hx : a.wavefront with
        | none => simp
        | some w => simpa [initWavefront] using hp.wavefront w hx
      · cases hx : a.influxdb with
        | none => simp
        | some i => simpa [initInflux] using hp.influxdb i hx
    unfold wire at he
    unfold start
    simp only at he ⊢
    rw [if_pos hc]
    by_cases h2 : validate a.topology = true
    · rw [if_pos h2] at he ⊢
      rw [if_pos hi]
      rcases hs : startSinks (matrix a.topology) {} a.topology.sinks with ⟨m, w⟩
      simp only [hs] at he ⊢
      cases hf : startFilters (senders a.topology) m w a.topology.filters with
      | error e' =>
        simp only [hf, Except.error.injEq] at he ⊢
        rw [he]
      | ok mw =>
        obtain ⟨m1, w1⟩ := mw
        simp only [hf] at he ⊢
        cases hg : Topology.startSources (senders a.topology) m1 w1 (a.topology.natives ++ a.topology.sources) with
        | ok mw2 => simp only [hg] at he; cases he
        | error e' =>
          simp only [hg, Except.error.injEq] at he
          subst he
          refine sources_stop h _ _ _ _ _ (by rw [sourceList_map]; exact hg) ((all_known h a).2 hp.known) ?_ ?_
          · rw [tcp_addrs]; exact (bindFrom_start _ _).2 hp.tcp
          · rw [udp_addrs]; exact (bindFrom_start _ _).2 hp.udp
    · rw [if_neg h2] at he ⊢
      simp only [Except.error.injEq] at he
      rw [← he]
  · cases hs : start h a with
    | ok s =>
      have hcs := (C121_up_iff h a).1 ⟨s, hs⟩
      exact absurd ⟨hcs.queues, hcs.wavefront, hcs.influxdb, hcs.kafka, hcs.known, hcs.tcp, hcs.udp⟩ hp
    | error x =>
      cases x with
      | panic => rfl
      | exit n =>
        obtain ⟨e, he, -⟩ := hexit n hs
        rw [hw] at he; cases he

/-- **C121 (what is not).**  A process that has come up is wired as C57 says and listens on all addresses of its sources.  The filters whose
scripts cannot be loaded and the file sources whose patterns are malformed, and no other filters and sources, are dead from the start; the
sources whose hosts have no address, and no others, listen on nothing. -/
theorem C121_started (h : Host) (a : Args F) (s : Started) (hs : start h a = .ok s) :
    wire a.topology = .ok s.wiring ∧
    s.tcp = (tcps a).flatMap (fun t => addresses h t.host t.port) ∧ s.udp = a.statsds.flatMap (fun s => addresses h s.host s.port) ∧
    (∀ n, n ∈ s.dead ↔ (∃ f ∈ a.programmables, f.path = n ∧ h.script f.scriptsDirectory f.script = false) ∨
      ∃ f ∈ a.files, f.path = n ∧ h.pattern f.file = false) ∧
    ∀ n, n ∈ s.deaf ↔ (∃ t ∈ tcps a, t.path = n ∧ addresses h t.host t.port = []) ∨
      ∃ s ∈ a.statsds, s.path = n ∧ addresses h s.host s.port = [] := by
  obtain ⟨-, ⟨w, hw, rfl⟩, -⟩ := (start_iff h a s).1 hs
  refine ⟨hw, ?_, ?_, fun n => ?_, fun n => ?_⟩
  · simp [after, tcp_addrs]
  · simp [after, udp_addrs]
  · simp only [after, List.mem_append, dead_names]
    refine or_congr_left ?_
    simp only [brokenScripts, List.mem_map, List.mem_filter, Bool.not_eq_true']
    exact ⟨fun ⟨f, ⟨h1, h2⟩, h3⟩ => ⟨f, h1, h3, h2⟩, fun ⟨f, h1, h3, h2⟩ => ⟨f, ⟨h1, h2⟩, h3⟩⟩
  · simp only [after, List.nil_append, deaf_names]

/-- **C121, partial.**  If everything works that a component needs at its start, the process comes up and every component with it.
Missing: the converse, see the theorems below. -/
theorem C121_all_up_partial (h : Host) (a : Args F) (hw : AllWell h a) :
    ∃ s, start h a = .ok s ∧ s.dead = [] ∧ s.deaf = [] ∧ scrapable h a = true := by
  obtain ⟨s, hs⟩ := (C121_up_iff h a).2 hw.main
  obtain ⟨-, -, -, h4, h5⟩ := C121_started h a s hs
  refine ⟨s, hs, List.eq_nil_iff_forall_not_mem.2 fun n hn => ?_, List.eq_nil_iff_forall_not_mem.2 fun n hn => ?_, ?_⟩
  · rcases (h4 n).1 hn with ⟨f, f1, -, f2⟩ | ⟨f, f1, -, f2⟩
    · rw [hw.scripts f f1] at f2; cases f2
    · rw [hw.patterns f f1] at f2; cases f2
  · rcases (h5 n).1 hn with ⟨t, t1, -, t2⟩ | ⟨t, t1, -, t2⟩
    · have hk := hw.main.known t t1
      obtain ⟨xs, hx⟩ := Option.isSome_iff_exists.1 hk
      simp only [addresses, hx, Option.getD_some] at t2
      exact hw.hosts t t1 (by rw [hx, t2])
    · obtain ⟨x, xs, hx⟩ := hw.statsd t t1
      simp [addresses, hx] at t2
  · unfold scrapable
    cases hp : a.prometheus with
    | none => rfl
    | some p => exact hw.http p hp

/-- The property in full: whoever comes up, comes up whole. -/
def C121Statement (F : Type) : Prop := ∀ (h : Host) (a : Args F) (s : Started), start h a = .ok s → AllWell h a

private def kind : Host :=
  { channel := fun _ => true, resolve := fun h p => some [⟨h, p⟩], tcpBind := fun bound x => !bound.contains x,
    udpBind := fun bound x => !bound.contains x, influxUrl := fun _ => true, producer := fun _ _ => true, http := fun _ _ => true,
    script := fun _ _ => true, pattern := fun _ => true }

private def demo : Args Int :=
  { console := some ⟨1, 60, []⟩
    prometheus := some ⟨none, 8086, ['h'], 60, []⟩
    programmables := [⟨['f'], ['d'], ['s'], [named "sinks.console" []], []⟩]
    statsds := [⟨['u'], 8125, ['l'], [['f']], [], 0⟩]
    graphites := [⟨['g'], 2003, ['l'], [['f']]⟩]
    natives := [⟨['n'], 1972, ['l'], [['f']]⟩]
    files := [⟨['t'], ['*'], [['f']], 2048⟩] }

/-- **C121 is false** of scripts: whatever the script is, if everything else works the process comes up with a filter that is dead. -/
theorem C121_script_false : ∃ s, start { kind with script := fun _ _ => false } demo = .ok s ∧ s.dead = [['f']] ∧ s.deaf = [] := by
  refine ⟨_, rfl, ?_, ?_⟩ <;> decide

/-- **C121 is false** of patterns: a file source with a malformed pattern is dead from the start. -/
theorem C121_pattern_false : ∃ s, start { kind with pattern := fun _ => false } demo = .ok s ∧ s.dead = [['t']] ∧ s.deaf = [] := by
  refine ⟨_, rfl, ?_, ?_⟩ <;> decide

/-- **C121 is false** of statsd: with a host that cannot be looked up the process comes up and the statsd source listens on nothing. -/
theorem C121_statsd_false : ∃ s, start { kind with resolve := fun h p => if p = 8125 then none else some [⟨h, p⟩] } demo = .ok s ∧
    s.dead = [] ∧ s.deaf = [['u']] ∧ s.udp = [] := by
  refine ⟨_, rfl, ?_, ?_, ?_⟩ <;> decide

/-- **C121 is false** of Prometheus: if its address is taken the process comes up, and cannot be scraped. -/
theorem C121_prometheus_false : (∃ s, start { kind with http := fun _ _ => false } demo = .ok s ∧ s.dead = [] ∧ s.deaf = []) ∧
    scrapable { kind with http := fun _ _ => false } demo = false := by
  refine ⟨⟨_, rfl, ?_, ?_⟩, ?_⟩ <;> decide

/-- **C121 is false** as stated in full. -/
theorem C121_false : ¬ C121Statement Int := by
  intro hall
  obtain ⟨s, hs, -⟩ := C121_script_false
  have := (hall _ _ s hs).scripts _ (List.mem_singleton_self _)
  simp at this

/-- The whole configuration comes up where all is well. -/
example : AllWell kind demo := by
  refine ⟨(C121_up_iff kind demo).1 ⟨_, rfl⟩, fun _ _ => rfl, fun _ _ => rfl, fun _ _ => by simp [kind], fun s _ => ⟨_, [], rfl⟩, fun _ _ => rfl⟩
/-- Two sources on one address are refused. -/
example : start kind { demo with avros := [⟨['a'], 2003, ['l'], [['f']]⟩] } = .error .panic := by rfl
/-- A native source that forwards to nowhere ends the process, when sinks and filters are running, with status 0. -/
example : start kind { demo with natives := [⟨['n'], 1972, ['l'], [['x']]⟩] } = .error (.exit 0) := by rfl
/-- A forward to nowhere is refused before anything is made. -/
example : start kind { demo with avros := [⟨['a'], 2004, ['l'], [['x']]⟩] } = .error (.exit 1) := by rfl

end
end Verif
