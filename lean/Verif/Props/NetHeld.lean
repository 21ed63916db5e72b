import Verif.Props.NetSeveral
/-!
# C126 — what a flush-boundary filter holds when the process ends
-/
namespace Verif
open Net Topology
open Pipeline (Through Proper notPulse)
variable {F : Type} [F64 F]

private theorem expectedSent_boundary {σ : Type} (p : Process F σ) (hok : ∀ now st e, (p now st e []).2.2 = .ok ()) (hclock : ∀ now st e, p now st e [] = p 0 st e []) :
    ∀ (es : List (Event F)) (clock : List Int) (st : σ), clock.length = es.length → (∀ e ∈ es, e.isShutdown = false) →
      expectedSent p st ((clock.zip es).map some) = (outputs p st (es.map (0, ·))).flatten
  | [], [], st, _, _ => rfl
  | [], _ :: _, _, h, _ => by simp at h
  | _ :: _, [], _, h, _ => by simp at h
  | e :: es, now :: clock, st, h, hs => by
    have he := hs e List.mem_cons_self
    have ih := expectedSent_boundary p hok hclock es clock (p 0 st e []).1 (by simpa using h) fun x hx => hs x (List.mem_cons_of_mem _ hx)
    have hk := hok now st e
    simp only [List.zip_cons_cons, List.map_cons, outputs, List.flatten_cons, ← ih]
    rw [hclock now st e] at hk
    have : expectedSent p st (some (now, e) :: (clock.zip es).map some) = match p now st e [] with
        | (st', out, .ok ()) => out ++ expectedSent p st' ((clock.zip es).map some)
        | (st', _, .error fe) => fe :: expectedSent p st' ((clock.zip es).map some) := by
      cases e <;> first | rfl | simp [Event.isShutdown] at he
    rw [this, hclock now st e]
    generalize p 0 st e [] = q at hk
    obtain ⟨a, b, c⟩ := q
    simp only at hk
    subst hk
    rfl

private theorem boundary_ok (now : Int) (st : FlushBoundary F) (e : Event F) :
    (flushBoundaryProcess now st e []).2.2 = .ok () ∧ flushBoundaryProcess now st e [] = flushBoundaryProcess 0 st e [] := by
  simp only [flushBoundaryProcess]
  refine ⟨?_, trivial⟩
  split
  · rfl
  · split
    · rfl
    · split <;> rfl

/-- **C126 (exact).**  Any number of sources feed a flush-boundary filter that forwards to a sink, and neither queue has been full.  When the process has exited,
the sink has been given, each once and those of one second in the order they came, the events with a timestamp that the filter received before the first
`Shutdown` — everything the sources sent before the signal is among what it received —, except for some that the filter was still holding: each of those came
with at most `tolerance` pulses of the timer after it. -/
theorem C126_exact (c : Config) (hd : Distinct c) (p : Setup F) (hp : SetUp c p) (ls : Nat → Label F) (T t : Nat)
    (hT : ∀ t' < T, ls t' ≠ .signal) (h : (run p ls t).main = .exited)
    (f n : Str) (hfun : Funnel c f [f] n) (hn : n ∈ c.sinks) (hf : (run p ls t).lost f = []) (hn0 : (run p ls t).lost n = [])
    (tolerance : Nat) (hfilter : p.filter f = ⟨_, flushBoundaryProcess, { tolerance := tolerance }⟩)
    (iv : Option Nat) (hiv : ∀ st, (p.sink n).impl.flushInterval st = iv) :
    ∃ nd received heldBack x late, (run p ls t).nodes n = some nd ∧ (run p ls t).log f = received ++ (x, .shutdown) :: late ∧
      FromSources c p ls f T t received ∧
      (nd.delivered ++ heldBack).Perm ((received.map (·.2)).filter fun e => e.timestamp.isSome) ∧
      (∀ s, nd.delivered.filter (hasTime s) <+: (received.map (·.2)).filter (hasTime s)) ∧
      ∀ e ∈ heldBack, ∃ before after, received.map (·.2) = before ++ e :: after ∧ flushesIn after ≤ tolerance := by
  obtain ⟨nd, received, out, a1, a2, a3, a4, x, late, a5⟩ := C93_before_signal c hd p hp ls T t hT h f [f] n hfun hn
    (fun m hm => by
      simp only [List.cons_append, List.nil_append, List.mem_cons, List.not_mem_nil, or_false] at hm
      rcases hm with rfl | rfl <;> assumption) iv hiv
  have hout : out = emitted tolerance (received.map (·.2)) := by
    rw [List.map_cons, List.map_nil, hfilter] at a2
    cases a2 with
    | filter _ _ _ clock _ hlen hth =>
      cases hth
      exact expectedSent_boundary _ (fun now st e => (boundary_ok now st e).1) (fun now st e => (boundary_ok now st e).2) _ clock _ hlen
        (fun e he => by obtain ⟨y, hy, rfl⟩ := List.mem_map.1 he; exact (a4.1 y hy).1)
  refine ⟨nd, received, (held tolerance (received.map (·.2))).filter Event.isPayload, x, late, a1, a5, a4, ?_, ?_, ?_⟩
  · rw [a3, hout, ← List.filter_append]
    refine ((C20_exact_partial tolerance _).filter _).trans ?_
    rw [List.filter_filter]
    refine .of_eq (List.filter_congr fun e _ => ?_)
    cases e <;> rfl
  · intro s
    rw [a3, hout]
    have : ((emitted tolerance (received.map (·.2))).filter Event.isPayload).filter (hasTime s) = (emitted tolerance (received.map (·.2))).filter (hasTime s) := by
      rw [List.filter_filter]
      refine List.filter_congr fun e _ => ?_
      cases e <;> simp [Event.isPayload, hasTime, Event.timestamp]
    rw [this, ← emitted_filter tolerance s (received.map (·.2))]
    exact List.prefix_append _ _
  · intro e he
    exact C20_held_young tolerance _ e (List.mem_filter.1 he).1

/-- **C126 (partial).**  If the timer has gone off more than `tolerance` times between the last event and the first `Shutdown`, the sink has been given everything
with a timestamp.  Missing: what came later, see `C126_false`. -/
theorem C126_partial (c : Config) (hd : Distinct c) (p : Setup F) (hp : SetUp c p) (ls : Nat → Label F) (T t : Nat)
    (hT : ∀ t' < T, ls t' ≠ .signal) (h : (run p ls t).main = .exited)
    (f n : Str) (hfun : Funnel c f [f] n) (hn : n ∈ c.sinks) (hf : (run p ls t).lost f = []) (hn0 : (run p ls t).lost n = [])
    (tolerance : Nat) (hfilter : p.filter f = ⟨_, flushBoundaryProcess, { tolerance := tolerance }⟩)
    (iv : Option Nat) (hiv : ∀ st, (p.sink n).impl.flushInterval st = iv)
    (before pulses late : List (Sender × Event F)) (x : Sender) (hlog : (run p ls t).log f = before ++ pulses ++ (x, .shutdown) :: late)
    (hb : ∀ y ∈ before ++ pulses, y.2.isShutdown = false) (hq : ∀ y ∈ pulses, y.2.timestamp = none) (hmany : tolerance < flushesIn (pulses.map (·.2))) :
    ∃ nd, (run p ls t).nodes n = some nd ∧ FromSources c p ls f T t (before ++ pulses) ∧
      nd.delivered.Perm ((before.map (·.2)).filter fun e => e.timestamp.isSome) ∧
      ∀ s, nd.delivered.filter (hasTime s) = (before.map (·.2)).filter (hasTime s) := by
  obtain ⟨nd, received, heldBack, x', late', b1, b2, b3, b4, b5, b6⟩ := C126_exact c hd p hp ls T t hT h f n hfun hn hf hn0 tolerance hfilter iv hiv
  have hrec : received = before ++ pulses := by
    rw [hlog] at b2
    have key : ∀ (a b : List (Sender × Event F)) (x y : Sender) (l l'), (∀ y ∈ a, y.2.isShutdown = false) → (∀ y ∈ b, y.2.isShutdown = false) →
        a ++ (x, .shutdown) :: l = b ++ (y, .shutdown) :: l' → a = b := by
      intro a
      induction a with
      | nil =>
        intro b x y l l' _ hb he
        cases b with
        | nil => rfl
        | cons z b =>
          simp only [List.nil_append, List.cons_append, List.cons.injEq] at he
          have := hb z List.mem_cons_self
          rw [← he.1] at this; cases this
      | cons w a ih =>
        intro b x y l l' ha hb he
        cases b with
        | nil =>
          simp only [List.nil_append, List.cons_append, List.cons.injEq] at he
          have := ha w List.mem_cons_self
          rw [he.1] at this; cases this
        | cons z b =>
          simp only [List.cons_append, List.cons.injEq] at he
          rw [he.1, ih b x y l l' (fun y hy => ha y (List.mem_cons_of_mem _ hy)) (fun y hy => hb y (List.mem_cons_of_mem _ hy)) he.2]
    exact (key _ _ _ _ _ _ hb (fun y hy => (b3.1 y hy).1) b2).symm
  subst hrec
  have hts : ∀ g : Event F → Bool, (∀ e, e.timestamp = none → g e = false) → ((before ++ pulses).map (·.2)).filter g = (before.map (·.2)).filter g := by
    intro g hg
    rw [List.map_append, List.filter_append, (List.filter_eq_nil_iff (l := pulses.map (·.2))).2, List.append_nil]
    intro e he
    obtain ⟨y, hy, rfl⟩ := List.mem_map.1 he
    simp [hg _ (hq y hy)]
  have hnil : heldBack = [] := by
    apply List.eq_nil_iff_forall_not_mem.2
    intro e he
    obtain ⟨a, b, g1, g2⟩ := b6 e he
    have hets : e.timestamp.isSome = true := by
      have := b4.subset (List.mem_append_right _ he)
      exact (List.mem_filter.1 this).2
    rw [List.map_append] at g1
    rcases List.append_eq_append_iff.1 g1 with ⟨as, q1, q2⟩ | ⟨bs, q1, q2⟩
    · -- the event would be among the pulses
      have : e ∈ pulses.map (·.2) := by rw [q2]; simp
      obtain ⟨y, hy, rfl⟩ := List.mem_map.1 this
      rw [hq y hy] at hets; cases hets
    · cases bs with
      | nil =>
        have : e ∈ pulses.map (·.2) := by simp only [List.nil_append] at q2; rw [← q2]; simp
        obtain ⟨y, hy, rfl⟩ := List.mem_map.1 this
        rw [hq y hy] at hets; cases hets
      | cons w bs =>
        simp only [List.cons_append, List.cons.injEq] at q2
        rw [q2.2] at g2
        simp only [flushesIn, List.countP_append] at g2 hmany
        omega
  subst hnil
  rw [List.append_nil] at b4
  have hsome := hts (fun e => e.timestamp.isSome) (fun e he => by simp [he])
  refine ⟨nd, b1, b3, by rw [← hsome]; exact b4, fun s => ?_⟩
  have hs := hts (hasTime s) (fun e he => by simp [hasTime, he])
  rw [← hs]
  refine (b5 s).eq_of_length ?_
  have := (b4.filter (hasTime s)).length_eq
  rw [this, List.filter_filter]
  congr 1
  refine List.filter_congr fun e _ => ?_
  simp only [hasTime]
  cases e.timestamp <;> simp

/-! ## A line that is lost -/

private def held1 : Config := ⟨[['k']], [(['f'], [['k']])], [], [(['a'], [['f']])]⟩

private def heldSetup : Setup Int where
  wiring := ⟨[(['k'], [['f']])], [(['f'], [['a']], [['k']])], [(['a'], [['f']])], [['f']]⟩
  filter _ := ⟨_, flushBoundaryProcess, { tolerance := 1 }⟩
  sink _ := ⟨Unit, nullImpl, ()⟩
  stopOrder := [0]
  joinOrder := [['k'], ['f']]

private theorem heldProper : SetUp held1 heldSetup :=
  ⟨rfl, by decide, by decide, fun n _ => (C63_filters_proper 10 1 ⟨fun _ => none, fun _ => [], fun _ => []⟩ ⟨false, [], id, 0⟩
      (L := Unit) (fun _ _ q => ((), .ok q)) (fun _ => .timerFlush 0) (fun _ => rfl) (fun _ q => ⟨q, rfl⟩) ⟨(), 0, []⟩).2.1⟩

private theorem heldFunnel : Funnel held1 ['f'] [['f']] ['k'] := by
  have hall : ∀ u n, Forwards held1 u n → u = ['f'] ∧ n = ['k'] ∨ u = ['a'] ∧ n = ['f'] := by
    rintro u n ⟨fs, h1, h2⟩
    simp only [held1, List.mem_append, List.mem_cons, Prod.mk.injEq, List.not_mem_nil, or_false, false_or] at h1
    rcases h1 with ⟨rfl, rfl⟩ | ⟨rfl, rfl⟩
    · exact .inl ⟨rfl, by simpa using h2⟩
    · exact .inr ⟨rfl, by simpa using h2⟩
  refine .via [] ['f'] ['k'] (.sources (.inr ⟨_, List.mem_singleton.2 rfl⟩) ?_) ⟨[['k']], by decide, by decide⟩ ?_
  · intro u hu; rcases hall u _ hu with ⟨-, h⟩ | ⟨h, -⟩
    · exact absurd h (by decide)
    · rw [h]; decide
  · intro u hu; rcases hall u _ hu with ⟨h, -⟩ | ⟨-, h⟩
    · exact h
    · exact absurd h (by decide)

/-- Two lines with two pulses of the timer after them, a third with one, then the signal. -/
private def heldRota : List (Label Int) := [.emit 0 (.log (.new 5 ['p'] ['v'])), .emit 0 (.log (.new 4 ['p'] ['u'])), .pulse 1,
  .emit 0 (.log (.new 6 ['p'] ['w'])), .pulse 2, .signal, .main, .main, .stop 0, .main, .main] ++
   List.replicate 14 (.act ['f'] 0) ++ List.replicate 14 (.act ['k'] 0)

private def heldLabels (t : Nat) : Label Int := heldRota[t]?.getD .main

/-- **C126 is false of the code** without its exception: a line sent before the signal, and before a pulse of the timer, is still held by the filter when
`Shutdown` comes through; the process exits, and the sink has never been given the line. -/
theorem C126_false : ∃ (c : Config) (p : Setup Int) (ls : Nat → Label Int) (T t : Nat) (l : LogLine),
    Distinct c ∧ SetUp c p ∧ (∀ t' < T, ls t' ≠ .signal) ∧ Funnel c ['f'] [['f']] ['k'] ∧ ['k'] ∈ c.sinks ∧
    p.filter ['f'] = ⟨_, flushBoundaryProcess, { tolerance := 1 }⟩ ∧ (run p ls t).main = .exited ∧
    (run p ls t).lost ['f'] = [] ∧ (run p ls t).lost ['k'] = [] ∧ .log l ∈ sourceSent p ls 0 T ∧
    ((run p ls t).nodes ['k']).map Node.delivered = some [.log (.new 4 ['p'] ['u']), .log (.new 5 ['p'] ['v'])] ∧
    l = .new 6 ['p'] ['w'] := by
  refine ⟨held1, heldSetup, heldLabels, 5, 60, _, by decide, heldProper, ?_, heldFunnel, by decide, rfl, by decide +kernel, by decide +kernel, by decide +kernel,
    by decide +kernel, by decide +kernel, rfl⟩
  intro t' ht' h
  have : t' = 0 ∨ t' = 1 ∨ t' = 2 ∨ t' = 3 ∨ t' = 4 := by omega
  rcases this with rfl | rfl | rfl | rfl | rfl <;> cases h

/-- The same with a third pulse before the signal. -/
private def freedRota : List (Label Int) := [.emit 0 (.log (.new 5 ['p'] ['v'])), .emit 0 (.log (.new 4 ['p'] ['u'])), .pulse 1,
  .emit 0 (.log (.new 6 ['p'] ['w'])), .pulse 2, .pulse 3, .signal, .main, .main, .stop 0, .main, .main] ++
   List.replicate 14 (.act ['f'] 0) ++ List.replicate 14 (.act ['k'] 0)

private def freedLabels (t : Nat) : Label Int := freedRota[t]?.getD .main

/-- The hypotheses of `C126_partial` are met there, and all three lines have been delivered. -/
example : (∀ t' < 6, freedLabels t' ≠ .signal) ∧ (run heldSetup freedLabels 60).main = .exited ∧ (run heldSetup freedLabels 60).lost ['f'] = [] ∧
    (run heldSetup freedLabels 60).lost ['k'] = [] ∧
    (run heldSetup freedLabels 60).log ['f'] = [(.source 0, .log (.new 5 ['p'] ['v'])), (.source 0, .log (.new 4 ['p'] ['u'])), (.timer, .timerFlush 1),
      (.source 0, .log (.new 6 ['p'] ['w']))] ++ [(.timer, .timerFlush 2), (.timer, .timerFlush 3)] ++ [(.source 0, .shutdown)] ∧
    ((run heldSetup freedLabels 60).nodes ['k']).map Node.delivered =
      some [.log (.new 4 ['p'] ['u']), .log (.new 5 ['p'] ['v']), .log (.new 6 ['p'] ['w'])] := by
  refine ⟨?_, by decide +kernel, by decide +kernel, by decide +kernel, by decide +kernel, by decide +kernel⟩
  intro t' ht' h
  have : t' = 0 ∨ t' = 1 ∨ t' = 2 ∨ t' = 3 ∨ t' = 4 ∨ t' = 5 := by omega
  rcases this with rfl | rfl | rfl | rfl | rfl | rfl <;> cases h

end Verif
