import Verif.Spec.Pipeline
import Verif.Lemmas.Filter
import Verif.Lemmas.Sink
namespace Verif
namespace Pipeline
variable {F : Type} [F64 F] {κ : Type}

/-! ## One filter -/

/-- The run-loop after these inputs. -/
def after {σ : Type} (p : Process F σ) (n : Nat) (r : FilterRun F σ) (ins : List (Int × Event F)) :
    FilterRun F σ := ins.foldl (fun r i => r.step p n (some i)) r

theorem after_sent {σ : Type} {p : Process F σ} (hp : Tidy p) (n : Nat) (ins : List (Int × Event F))
    (r : FilterRun F σ) (he : r.events = []) :
    (after p n r ins).sent = r.sent ++ expectedSent p r.state (ins.map some) := by
  induction ins generalizing r with
  | nil => simp [after, expectedSent]
  | cons i ins ih =>
    obtain ⟨now, e⟩ := i
    have : after p n r ((now, e) :: ins) = after p n (r.step p n (some (now, e))) ins := rfl
    rw [this]
    cases hs : e.isShutdown with
    | true =>
      obtain rfl := isShutdown_true hs
      rw [ih _ (by simpa [FilterRun.step] using he)]
      simp [FilterRun.step, expectedSent]
    | false =>
      rw [List.map_cons, expectedSent_event p _ _ _ hs, FilterRun.step_event p n r now e hs]
      have t := hp now r.state e r.events hs
      rw [he] at t
      rw [he]
      rcases hq : p now r.state e [] with ⟨st, evs, res⟩
      rw [hq] at t
      cases res with
      | ok u => cases u; simp only; rw [ih _ rfl]; simp
      | error fe => simp only; rw [ih _ (t.2 fe rfl)]; simp

theorem after_unfinished {σ : Type} (p : Process F σ) (n : Nat) (ins : List (Int × Event F))
    (r : FilterRun F σ) (hf : r.finished = false) (hn : ∀ i ∈ ins, i.2.isShutdown = false) :
    (after p n r ins).finished = false := by
  induction ins generalizing r with
  | nil => simpa [after] using hf
  | cons i ins ih =>
    obtain ⟨now, e⟩ := i
    have : after p n r ((now, e) :: ins) = after p n (r.step p n (some (now, e))) ins := rfl
    rw [this]
    refine ih _ ?_ (fun i hi => hn i (List.mem_cons_of_mem _ hi))
    have he := hn _ List.mem_cons_self
    rw [FilterRun.step_event p n r now e he]
    split <;> exact hf

theorem after_snoc {σ : Type} (p : Process F σ) (n : Nat) (r : FilterRun F σ) (ins : List (Int × Event F)) (i) :
    after p n r (ins ++ [i]) = (after p n r ins).step p n (some i) := by simp [after]

theorem step_sent {σ : Type} (p : Process F σ) (n : Nat) (r : FilterRun F σ) (i : Int × Event F) :
    ∃ more, (r.step p n (some i)).sent = r.sent ++ more := by
  obtain ⟨now, e⟩ := i
  cases hs : e.isShutdown with
  | true => obtain rfl := isShutdown_true hs; exact ⟨_, rfl⟩
  | false =>
    rw [FilterRun.step_event p n r now e hs]
    split <;> exact ⟨_, rfl⟩

/-- `expectedSent` splits at the first `Shutdown`. -/
theorem expectedSent_split {σ : Type} (p : Process F σ) (pre : List (Int × Event F)) (st : σ) (now : Int)
    (post : List (Int × Event F)) (hpre : ∀ i ∈ pre, i.2.isShutdown = false) :
    ∃ more, expectedSent p st ((pre ++ (now, .shutdown) :: post).map some) =
      expectedSent p st (pre.map some) ++ .shutdown :: more := by
  induction pre generalizing st with
  | nil => exact ⟨_, rfl⟩
  | cons i pre ih =>
    obtain ⟨nw, e⟩ := i
    have he := hpre _ List.mem_cons_self
    simp only [List.cons_append, List.map_cons]
    rw [expectedSent_event p _ _ _ he, expectedSent_event p _ _ _ he]
    rcases p nw st e [] with ⟨st', out, res⟩
    obtain ⟨more, hm⟩ := ih st' (fun i hi => hpre i (List.mem_cons_of_mem _ hi))
    cases res with
    | ok u => exact ⟨more, by simp only [hm]; simp⟩
    | error fe => exact ⟨more, by simp only [hm]; simp⟩

/-! ## The chain -/

/-- What is true of a chain of these filters that has been given `input` so far. -/
inductive Inv (k : SinkImpl F κ) (iv : Option Nat) :
    List (FilterCode F) → Pipe F κ → List (Event F) → Prop where
  | sink {r input} (c : List (Event F)) : SinkInv k iv input r c → Inv k iv [] (.sink r) input
  | filter {f fs n q r rest input} (ins : List (Int × Event F)) : input = ins.map Prod.snd ++ q →
      r = after f.process n { state := f.start } ins → Inv k iv fs rest r.sent →
      Inv k iv (f :: fs) (.filter f n q r rest) input

variable {k : SinkImpl F κ} {iv : Option Nat}

theorem Inv.init (st : κ) (n : Nat) (fs : List (FilterCode F)) :
    Inv k iv fs (Pipe.initial st n fs) [] := by
  induction fs generalizing n with
  | nil => exact .sink [] (SinkInv.init k iv st [])
  | cons f fs ih => exact .filter [] rfl rfl (ih 1)

theorem Inv.push {fs} {p : Pipe F κ} {input} (h : Inv k iv fs p input) (e : Event F) :
    Inv k iv fs (p.push e) (input ++ [e]) := by
  cases h with
  | sink c h =>
    refine .sink c ⟨?_, h.noShutdown, h.delivered, h.last, h.flushed, h.valve, h.shutdown, h.ret⟩
    rw [h.split]; simp [arrivals]
  | filter ins h1 h2 h3 => exact .filter ins (by rw [h1]; simp) h2 h3

theorem Inv.pushAll {fs} (es : List (Event F)) {p : Pipe F κ} {input} (h : Inv k iv fs p input) :
    Inv k iv fs (p.pushAll es) (input ++ es) := by
  induction es generalizing p input with
  | nil => simpa [Pipe.pushAll] using h
  | cons e es ih => simpa [Pipe.pushAll] using ih (h.push e)

theorem Inv.step {fs} {p p' : Pipe F κ} {input} (h : Inv k iv fs p input)
    (hiv : ∀ s, k.flushInterval s = iv) (up : Nat) (now : Int) (i : Nat)
    (hs : p.step k up now i = some p') : Inv k iv fs p' input := by
  induction h generalizing i p' with
  | sink c h =>
    cases i with
    | zero =>
      simp only [Pipe.step, Option.some.injEq] at hs
      subst hs
      obtain ⟨c', h', -⟩ := h.step hiv up
      exact .sink c' h'
    | succ i => simp [Pipe.step] at hs
  | @filter f fs n q r rest input ins h1 h2 h3 ih =>
    cases i with
    | succ i =>
      simp only [Pipe.step, Option.map_eq_some_iff] at hs
      obtain ⟨rest', h4, rfl⟩ := hs
      exact .filter ins h1 h2 (ih i h4)
    | zero =>
      cases q with
      | nil => simp [Pipe.step] at hs
      | cons e q =>
        simp only [Pipe.step] at hs
        split at hs
        · simp at hs
        · simp only [Option.some.injEq] at hs
          subst hs
          refine .filter (ins ++ [(now, e)]) (by rw [h1]; simp) (by rw [after_snoc, ← h2]) ?_
          obtain ⟨more, hm⟩ := step_sent f.process n r (now, e)
          have := h3.pushAll more
          rw [hm]
          simpa using this

/-- Splitting a list at its first `Shutdown`. -/
theorem first_shutdown (es : List (Event F)) (h : .shutdown ∈ es) :
    ∃ before after, es = before ++ .shutdown :: after ∧ ∀ e ∈ before, e.isShutdown = false := by
  induction es with
  | nil => simp at h
  | cons e es ih =>
    cases he : e.isShutdown with
    | true => obtain rfl := isShutdown_true he; exact ⟨[], es, rfl, by simp⟩
    | false =>
      have : .shutdown ∈ es := by
        rcases List.mem_cons.1 h with h | h
        · subst h; simp [Event.isShutdown] at he
        · exact h
      obtain ⟨b, a, h1, h2⟩ := ih this
      refine ⟨e :: b, a, by rw [h1]; rfl, ?_⟩
      intro x hx
      rcases List.mem_cons.1 hx with rfl | hx
      · exact he
      · exact h2 x hx

theorem first_shutdown_unique {a b c d : List (Event F)} (h : a ++ .shutdown :: c = b ++ .shutdown :: d)
    (ha : ∀ e ∈ a, e.isShutdown = false) (hb : ∀ e ∈ b, e.isShutdown = false) : a = b := by
  induction a generalizing b with
  | nil =>
    cases b with
    | nil => rfl
    | cons x b =>
      simp only [List.nil_append, List.cons_append, List.cons.injEq] at h
      have := hb x List.mem_cons_self
      rw [← h.1] at this
      simp [Event.isShutdown] at this
  | cons y a ih =>
    cases b with
    | nil =>
      simp only [List.nil_append, List.cons_append, List.cons.injEq] at h
      have := ha y List.mem_cons_self
      rw [h.1] at this
      simp [Event.isShutdown] at this
    | cons x b =>
      simp only [List.cons_append, List.cons.injEq] at h
      rw [h.1, ih h.2 (fun e he => ha e (List.mem_cons_of_mem _ he))
        (fun e he => hb e (List.mem_cons_of_mem _ he))]

theorem Inv.returned {fs} {p : Pipe F κ} {input} (h : Inv k iv fs p input)
    (hp : ∀ f ∈ fs, Proper f) (hr : p.theSink.returned = true) :
    ∃ before after out, input = before ++ .shutdown :: after ∧
      (∀ e ∈ before, e.isShutdown = false) ∧ Through fs before out ∧
      deliveredBy p.theSink.calls = out.filter Event.isPayload ∧
      shutdownsBy p.theSink.calls = 1 ∧ ∃ cs b, p.theSink.calls = cs ++ [.shutdown b] := by
  induction h with
  | @sink r input c h =>
    simp only [Pipe.theSink] at hr ⊢
    obtain ⟨hc, cs, b, hcs⟩ := h.ret hr
    refine ⟨c, arrivals r.queue, c, ?_, h.noShutdown, .done _, h.delivered, ?_, cs, b, hcs⟩
    · rw [h.split, hc]; simp only [Option.toList, List.append_assoc]; rfl
    · rw [h.shutdown, hr]; rfl
  | @filter f fs n q r rest input ins h1 h2 h3 ih =>
    have hf := hp f List.mem_cons_self
    simp only [Pipe.theSink] at hr ⊢
    obtain ⟨b', a', out, g1, g2, g3, g4⟩ := ih (fun f hf => hp f (List.mem_cons_of_mem _ hf)) hr
    have hsent : r.sent = expectedSent f.process f.start (ins.map some) := by
      rw [h2, after_sent hf.tidy n ins _ rfl]; simp
    have hmem : .shutdown ∈ ins.map Prod.snd := by
      apply Classical.byContradiction
      intro hc
      have hn : ∀ i ∈ ins, i.2.isShutdown = false := by
        intro i hi
        cases he : i.2.isShutdown with
        | false => rfl
        | true =>
          exact absurd (by rw [← isShutdown_true he]; exact List.mem_map_of_mem hi) hc
      have := hf.keeps ins hn .shutdown (by rw [← hsent, g1]; simp)
      simp [Event.isShutdown] at this
    obtain ⟨bs, as, e1, e2⟩ := first_shutdown _ hmem
    rw [List.map_eq_append_iff] at e1
    obtain ⟨pre, l2, rfl, e3, e4⟩ := e1
    rw [List.map_eq_cons_iff] at e4
    obtain ⟨⟨now, e⟩, post, rfl, e5, e6⟩ := e4
    simp only at e5
    subst e5
    have hpre : ∀ i ∈ pre, i.2.isShutdown = false := by
      intro i hi; exact e2 _ (by rw [← e3]; exact List.mem_map_of_mem hi)
    obtain ⟨more, hm⟩ := expectedSent_split f.process pre f.start now post hpre
    rw [hsent, hm] at g1
    have hb : expectedSent f.process f.start (pre.map some) = b' :=
      first_shutdown_unique g1 (hf.keeps pre hpre) g2
    refine ⟨bs, as ++ q, out, ?_, e2, ?_, g4⟩
    · rw [h1, ← e3, ← e6]; simp
    · refine .filter f fs bs (pre.map Prod.fst) out (by rw [← e3]; simp) ?_
      rw [← e3, List.zip_map', List.map_map]
      have : (some ∘ fun x : Int × Event F => (x.1, x.2)) = some := rfl
      rw [this, hb]
      exact g3

/-! ## Sources -/

theorem Interleaved.source {evs left : List (List (Event F))} {input} (h : Interleaved evs left input)
    {i : Nat} {e : Event F} {es} (hi : left[i]? = some (e :: es)) :
    Interleaved evs (left.set i es) (input ++ [e]) := by
  obtain ⟨tagged, h1, h2, h3, h4⟩ := h
  have hlt : i < left.length := by
    apply Classical.byContradiction
    intro hc
    rw [List.getElem?_eq_none (by omega)] at hi
    simp at hi
  refine ⟨tagged ++ [(some i, e)], by simp [h1], ?_, by simpa using h3, ?_⟩
  · intro t ht hn
    rcases List.mem_append.1 ht with ht | ht
    · exact h2 t ht hn
    · simp at ht; subst ht; simp at hn
  · intro j
    rw [h4 j]
    by_cases hj : j = i
    · subst hj
      rw [hi]
      simp [List.filter_append, hlt]
    · have hij : ¬ i = j := fun h => hj h.symm
      simp [List.getElem?_set_ne hij, List.filter_append, hij]

theorem Interleaved.pulse {evs left : List (List (Event F))} {input} (h : Interleaved evs left input)
    (idx : Nat) : Interleaved evs left (input ++ [.timerFlush idx]) := by
  obtain ⟨tagged, h1, h2, h3, h4⟩ := h
  refine ⟨tagged ++ [(none, .timerFlush idx)], by simp [h1], ?_, h3, ?_⟩
  · intro t ht hn
    rcases List.mem_append.1 ht with ht | ht
    · exact h2 t ht hn
    · simp at ht; subst ht; rfl
  · intro j
    rw [h4 j]
    simp [List.filter_append]

theorem inv_run (hiv : ∀ s, k.flushInterval s = iv) (up : Nat) (fs : List (FilterCode F))
    (evs : List (List (Event F))) (ls : List Label) (s s' : State F κ) (input)
    (h1 : Inv k iv fs s.pipe input) (h2 : Interleaved evs s.sources input)
    (hr : run k up s ls = some s') :
    ∃ more, Inv k iv fs s'.pipe (input ++ more) ∧ Interleaved evs s'.sources (input ++ more) := by
  induction ls generalizing s input with
  | nil =>
    simp only [run, Option.some.injEq] at hr
    subst hr
    exact ⟨[], by simpa using h1, by simpa using h2⟩
  | cons l ls ih =>
    simp only [run] at hr
    cases hs : step k up s l with
    | none => simp [hs] at hr
    | some s1 =>
      simp only [hs] at hr
      cases l with
      | source i =>
        simp only [step] at hs
        split at hs
        · rename_i e es he
          simp only [Option.some.injEq] at hs
          subst hs
          obtain ⟨more, g1, g2⟩ := ih _ (input ++ [e]) (h1.push e) (h2.source he) hr
          exact ⟨e :: more, by simpa using g1, by simpa using g2⟩
        · simp at hs
      | pulse idx =>
        simp only [step, Option.some.injEq] at hs
        subst hs
        obtain ⟨more, g1, g2⟩ := ih _ (input ++ [.timerFlush idx]) (h1.push _) (h2.pulse idx) hr
        exact ⟨.timerFlush idx :: more, by simpa using g1, by simpa using g2⟩
      | stage i now =>
        simp only [step, Option.map_eq_some_iff] at hs
        obtain ⟨p, hp, rfl⟩ := hs
        exact ih { s with pipe := p } input (h1.step hiv up now i hp) h2 hr

theorem inv_reachable (hiv : ∀ s, k.flushInterval s = iv) (up : Nat) (fs : List (FilterCode F))
    (evs : List (List (Event F))) (st : κ) (ls : List Label) (s : State F κ)
    (hr : run k up (initial st fs evs) ls = some s) :
    ∃ input, Inv k iv fs s.pipe input ∧ Interleaved evs s.sources input := by
  obtain ⟨more, h1, h2⟩ := inv_run hiv up fs evs ls _ s [] (Inv.init st _ fs)
    ⟨[], rfl, by simp, rfl, by simp [initial]⟩ hr
  exact ⟨_, h1, h2⟩

/-! ## Progress -/

/-- Some stages perform steps. -/
inductive Steps (k : SinkImpl F κ) (up : Nat) : Pipe F κ → Pipe F κ → Prop where
  | refl (p) : Steps k up p p
  | head {p p' p''} (i now) : p.step k up now i = some p' → Steps k up p' p'' → Steps k up p p''

theorem Steps.trans {up : Nat} {a b c : Pipe F κ} (h1 : Steps k up a b) (h2 : Steps k up b c) :
    Steps k up a c := by
  induction h1 with
  | refl => exact h2
  | head i now h _ ih => exact .head i now h (ih h2)

theorem Steps.rest {up : Nat} {f : FilterCode F} {n q r} {a b : Pipe F κ} (h : Steps k up a b) :
    Steps k up (.filter f n q r a) (.filter f n q r b) := by
  induction h with
  | refl => exact .refl _
  | head i now h _ ih => exact .head (i + 1) now (by simp [Pipe.step, h]) ih

theorem Steps.schedule {up : Nat} {a b : Pipe F κ} (h : Steps k up a b) (srcs) :
    ∃ ls, run k up { sources := srcs, pipe := a } ls = some { sources := srcs, pipe := b } := by
  induction h with
  | refl => exact ⟨[], rfl⟩
  | head i now h _ ih =>
    obtain ⟨ls, hl⟩ := ih
    exact ⟨.stage i now :: ls, by simp [run, step, h, hl]⟩

theorem Steps.inv {up : Nat} {a b : Pipe F κ} (h : Steps k up a b) {fs input}
    (hiv : ∀ s, k.flushInterval s = iv) (hi : Inv k iv fs a input) : Inv k iv fs b input := by
  induction h with
  | refl => exact hi
  | head i now h _ ih => exact ih (hi.step hiv up now i h)

theorem sink_step {up : Nat} (r : SinkRun F κ) {b : Pipe F κ} (h : Steps k up (.sink (r.step k up)) b) :
    Steps k up (.sink r) b := .head 0 0 rfl h

/-- A sink holding an event opens its valve. -/
theorem sink_opens (up : Nat) (n : Nat) : ∀ (r : SinkRun F κ), r.returned = false → r.current.isSome →
    k.valveOpen (flushes k n r.state) = true →
    ∃ r', Steps k up (.sink r) (.sink r') ∧ k.valveOpen r'.state = true ∧ r'.returned = false ∧ r'.current = r.current ∧
      r'.queue = r.queue ∧ r'.totalShutdowns = r.totalShutdowns := by
  induction n with
  | zero => intro r h1 _ h3; exact ⟨r, .refl _, h3, h1, rfl, rfl, rfl⟩
  | succ n ih =>
    intro r h1 h2 h3
    by_cases hv : k.valveOpen r.state = true
    · exact ⟨r, .refl _, hv, h1, rfl, rfl, rfl⟩
    · obtain ⟨ev, hev⟩ := Option.isSome_iff_exists.1 h2
      have e : r.step k up = { r with state := k.flush r.state, calls := r.calls ++ [.valveFlush r.state] } := by
        simp [SinkRun.step, h1, hev, hv]
      obtain ⟨r', g1, g2⟩ := ih { r with state := k.flush r.state, calls := r.calls ++ [.valveFlush r.state] } h1 h2 h3
      exact ⟨r', sink_step r (by rw [e]; exact g1), g2⟩

/-- A sink holding a `Shutdown` shuts down. -/
theorem sink_stops (hopen : ∀ s, ∃ n, k.valveOpen (flushes k n s) = true) (up : Nat) (r : SinkRun F κ)
    (hret : r.returned = false) (hc : r.current = some .shutdown) :
    ∃ r', Steps k up (.sink r) (.sink r') ∧ r'.returned = true := by
  have key : ∀ (m : Nat) (r : SinkRun F κ), r.returned = false → r.current = some .shutdown →
      k.valveOpen r.state = true → up ≤ r.totalShutdowns + 1 + m →
      ∃ r', Steps k up (.sink r) (.sink r') ∧ r'.returned = true := by
    intro m
    induction m with
    | zero =>
      intro r h1 h2 h3 h4
      have : r.totalShutdowns + 1 ≥ up := by omega
      refine ⟨r.step k up, sink_step r (.refl _), ?_⟩
      simp [SinkRun.step, h1, h2, h3, SinkRun.handle, this]
    | succ m ih =>
      intro r h1 h2 h3 h4
      by_cases h5 : r.totalShutdowns + 1 ≥ up
      · refine ⟨r.step k up, sink_step r (.refl _), ?_⟩
        simp [SinkRun.step, h1, h2, h3, SinkRun.handle, h5]
      · have e : r.step k up = { r with totalShutdowns := r.totalShutdowns + 1 } := by
          simp [SinkRun.step, h1, h2, h3, SinkRun.handle, h5]
        obtain ⟨r', g1, g2⟩ := ih { r with totalShutdowns := r.totalShutdowns + 1 } h1 h2 h3
          (by simp only; omega)
        exact ⟨r', sink_step r (by rw [e]; exact g1), g2⟩
  obtain ⟨n, hn⟩ := hopen r.state
  obtain ⟨r1, g1, g2, g3, g4, -, -⟩ := sink_opens up n r hret (by simp [hc]) hn
  obtain ⟨r', g5, g6⟩ := key up r1 g3 (g4.trans hc) g2 (by omega)
  exact ⟨r', g1.trans g5, g6⟩

/-- A sink holding anything else gets rid of it. -/
theorem sink_handles (hopen : ∀ s, ∃ n, k.valveOpen (flushes k n s) = true) (up : Nat) (r : SinkRun F κ)
    (hret : r.returned = false) (e : Event F) (hc : r.current = some e) (he : e.isShutdown = false) :
    ∃ r', Steps k up (.sink r) (.sink r') ∧ r'.returned = false ∧ r'.current = none ∧
      r'.queue = r.queue := by
  have key : ∀ (r : SinkRun F κ), r.returned = false → r.current = some e →
      k.valveOpen r.state = true →
      ∃ r', Steps k up (.sink r) (.sink r') ∧ r'.returned = false ∧ r'.current = none ∧
      r'.queue = r.queue := by
    intro r h1 h2 h3
    refine ⟨r.step k up, sink_step r (.refl _), ?_⟩
    have : r.step k up = r.handle k up e := by simp [SinkRun.step, h1, h2, h3]
    rw [this]
    cases e with
    | shutdown => simp [Event.isShutdown] at he
    | timerFlush idx => simp only [SinkRun.handle]; split <;> (try split) <;> (try split) <;> simp [h1]
    | telemetry t => simp [SinkRun.handle, h1]
    | log t => simp [SinkRun.handle, h1]
    | raw t => simp [SinkRun.handle, h1]
  obtain ⟨n, hn⟩ := hopen r.state
  obtain ⟨r1, g1, g2, g3, g4, g5, -⟩ := sink_opens up n r hret (by simp [hc]) hn
  obtain ⟨r', g6, g7, g8, g9⟩ := key r1 g3 (g4.trans hc) g2
  exact ⟨r', g1.trans g6, g7, g8, g9.trans g5⟩

theorem sink_completes (hopen : ∀ s, ∃ n, k.valveOpen (flushes k n s) = true) (up : Nat) (q : List (Option (Event F))) :
    ∀ (r : SinkRun F κ), r.queue = q → r.returned = false → r.current = none →
      .shutdown ∈ arrivals q → ∃ r', Steps k up (.sink r) (.sink r') ∧ r'.returned = true := by
  induction q with
  | nil => intro r _ _ _ h; simp [arrivals] at h
  | cons o q ih =>
    intro r hq hret hc hm
    cases o with
    | none =>
      have e : r.step k up = { r with queue := q } := by simp [SinkRun.step, hret, hc, hq]
      obtain ⟨r', g1, g2⟩ := ih { r with queue := q } rfl hret hc (by simpa [arrivals] using hm)
      exact ⟨r', sink_step r (by rw [e]; exact g1), g2⟩
    | some ev =>
      have e : r.step k up = { r with queue := q, current := some ev } := by
        simp [SinkRun.step, hret, hc, hq]
      cases he : ev.isShutdown with
      | true =>
        obtain rfl := isShutdown_true he
        obtain ⟨r', g1, g2⟩ := sink_stops hopen up { r with queue := q, current := some .shutdown } hret rfl
        exact ⟨r', sink_step r (by rw [e]; exact g1), g2⟩
      | false =>
        obtain ⟨r1, g1, g2, g3, g4⟩ :=
          sink_handles hopen up { r with queue := q, current := some ev } hret ev rfl he
        obtain ⟨r', g5, g6⟩ := ih r1 g4 g2 g3 (by
          simp only [arrivals, List.filterMap_cons, id] at hm
          rcases List.mem_cons.1 hm with h | h
          · subst h; simp [Event.isShutdown] at he
          · exact h)
        exact ⟨r', sink_step r (by rw [e]; exact g1.trans g5), g6⟩

theorem pipe_completes (hopen : ∀ s, ∃ n, k.valveOpen (flushes k n s) = true)
    (hiv : ∀ s, k.flushInterval s = iv) (up : Nat) (fs : List (FilterCode F))
    (hp : ∀ f ∈ fs, Tidy f.process) :
    ∀ (p : Pipe F κ) (input), Inv k iv fs p input → .shutdown ∈ input →
      ∃ p', Steps k up p p' ∧ p'.theSink.returned = true := by
  induction fs with
  | nil =>
    intro p input h hm
    cases h with
    | @sink r _ c h =>
      by_cases hret : r.returned = true
      · exact ⟨_, .refl _, hret⟩
      · simp only [Bool.not_eq_true] at hret
        have hm' : .shutdown ∈ r.current.toList ++ arrivals r.queue := by
          rw [h.split, List.append_assoc] at hm
          rcases List.mem_append.1 hm with h1 | h1
          · have := h.noShutdown _ h1; simp [Event.isShutdown] at this
          · exact h1
        cases hc : r.current with
        | none =>
          obtain ⟨r', g1, g2⟩ := sink_completes hopen up r.queue r rfl hret hc (by simpa [hc] using hm')
          exact ⟨_, g1, g2⟩
        | some ev =>
          cases he : ev.isShutdown with
          | true =>
            obtain rfl := isShutdown_true he
            obtain ⟨r', g1, g2⟩ := sink_stops hopen up r hret hc
            exact ⟨_, g1, g2⟩
          | false =>
            obtain ⟨r1, g1, g2, g3, g4⟩ := sink_handles hopen up r hret ev hc he
            obtain ⟨r', g5, g6⟩ := sink_completes hopen up r1.queue r1 rfl g2 g3 (by
              rw [g4]
              rw [hc] at hm'
              rcases List.mem_append.1 hm' with h | h
              · simp at h; subst h; simp [Event.isShutdown] at he
              · exact h)
            exact ⟨_, g1.trans g5, g6⟩
  | cons f fs ih =>
    have hf := hp f List.mem_cons_self
    -- first the filter gets as far as the first `Shutdown`
    have drain : ∀ (q : List (Event F)) (p : Pipe F κ) (input), Inv k iv (f :: fs) p input →
        (∃ n r rest, p = .filter f n q r rest) → .shutdown ∈ input →
        ∃ n q' r' rest' input' , Steps k up p (.filter f n q' r' rest') ∧
          Inv k iv fs rest' input' ∧ .shutdown ∈ input' := by
      intro q
      have emitted : ∀ (n : Nat) (ins : List (Int × Event F)), .shutdown ∈ ins.map Prod.snd →
          .shutdown ∈ (after f.process n { state := f.start } ins).sent := by
        intro n ins hm
        rw [after_sent hf n ins _ rfl]
        obtain ⟨bs, as, e1, e2⟩ := first_shutdown _ hm
        rw [List.map_eq_append_iff] at e1
        obtain ⟨pre, l2, rfl, e3, e4⟩ := e1
        rw [List.map_eq_cons_iff] at e4
        obtain ⟨⟨now, e⟩, post, rfl, e5, e6⟩ := e4
        simp only at e5
        subst e5
        obtain ⟨more, hm⟩ := expectedSent_split f.process pre f.start now post
          (by intro i hi; exact e2 _ (by rw [← e3]; exact List.mem_map_of_mem hi))
        rw [hm]; simp
      induction q with
      | nil =>
        intro p input h hpq hm
        obtain ⟨n, r, rest, rfl⟩ := hpq
        cases h with
        | filter ins h1 h2 h3 =>
          refine ⟨n, [], r, rest, _, .refl _, h3, ?_⟩
          rw [h1, List.append_nil] at hm
          rw [h2]
          exact emitted n ins hm
      | cons e q ihq =>
        intro p input h hpq hm
        obtain ⟨n, r, rest, rfl⟩ := hpq
        have h' := h
        cases h with
        | filter ins h1 h2 h3 =>
          by_cases hin : .shutdown ∈ ins.map Prod.snd
          · exact ⟨n, _, r, rest, _, .refl _, h3, by rw [h2]; exact emitted n ins hin⟩
          · have hfin : r.finished = false := by
              rw [h2]
              refine after_unfinished _ n ins _ rfl ?_
              intro i hi
              cases he : i.2.isShutdown with
              | false => rfl
              | true => exact absurd (by rw [← isShutdown_true he]; exact List.mem_map_of_mem hi) hin
            have hst : ∃ r' rest', (Pipe.filter f n (e :: q) r rest).step k up 0 0 =
                some (.filter f n q r' rest') := by
              simp only [Pipe.step, hfin]
              exact ⟨_, _, rfl⟩
            obtain ⟨r', rest', hst⟩ := hst
            have hi' := h'.step hiv up 0 0 hst
            obtain ⟨n2, q2, r2, rest2, input2, g1, g2⟩ := ihq _ input hi' ⟨n, r', rest', rfl⟩ hm
            exact ⟨n2, q2, r2, rest2, input2, .head 0 0 hst g1, g2⟩
    intro p input h hm
    have hpq : ∃ q n r rest, p = .filter f n q r rest := by
      cases h with
      | filter ins h1 h2 h3 => exact ⟨_, _, _, _, rfl⟩
    obtain ⟨q, n0, r0, rest0, hpe⟩ := hpq
    obtain ⟨n, q', r', rest', input', g1, g2, g3⟩ := drain q p input h ⟨n0, r0, rest0, hpe⟩ hm
    obtain ⟨p', g4, g5⟩ := ih (fun f hf => hp f (List.mem_cons_of_mem _ hf)) rest' input' g2 g3
    exact ⟨.filter f n q' r' p', g1.trans g4.rest, g5⟩

end Pipeline
end Verif
