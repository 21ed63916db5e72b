import Verif.Props.NetFlow
import Verif.Props.NetSinks
/-!
# C146: what is sent is written without the process having to stop
-/
namespace Verif
open Net Topology
open Pipeline (Through)
variable {F : Type} [F64 F]

private theorem split_holds (tol : Nat) (hs : List (Hold F)) (P : Event F → Prop) (h : ∀ x ∈ hs, ∀ e ∈ x.events, P e) :
    (∀ e ∈ (FlushBoundary.split tol hs).1, P e) ∧ ∀ x ∈ (FlushBoundary.split tol hs).2, ∀ e ∈ x.events, P e := by
  induction hs with
  | nil => simp [FlushBoundary.split]
  | cons a hs ih =>
    have ih := ih (fun x hx => h x (List.mem_cons_of_mem _ hx))
    have ha := h a List.mem_cons_self
    simp only [FlushBoundary.split]
    split
    · refine ⟨?_, ih.2⟩
      intro e he
      rcases List.mem_append.1 he with he | he
      · exact ha e he
      · exact ih.1 e he
    · refine ⟨ih.1, ?_⟩
      intro x hx
      rcases List.mem_cons.1 hx with rfl | hx
      · exact ha
      · exact ih.2 x hx

private theorem no_pulses {es : List (Event F)} (h : ∀ e ∈ es, e.flushIdx = none) : pulses es = [] := by
  simp only [pulses, List.filterMap_eq_nil_iff]
  exact h

private theorem boundary_passes (tol : Nat) : PassesPulses (F := F) ⟨_, flushBoundaryProcess, { tolerance := tol }⟩ := by
  refine passesOf (fun s _ => ∀ x ∈ s.holds, ∀ e ∈ x.events, e.flushIdx = none) (by simp) ?_
  intro now s last e hP he
  simp only [flushBoundaryProcess]
  split
  · have := split_holds s.tolerance (s.holds.map fun h => { h with age := h.age + 1 }) (fun e => e.flushIdx = none) (by
        intro x hx
        obtain ⟨y, hy, rfl⟩ := List.mem_map.1 hx
        exact hP y hy)
    refine ⟨this.2, fun _ => ?_, by simp⟩
    rw [List.nil_append, pulses_append, no_pulses this.1, List.nil_append]
  · rename_i hne
    have hidx : e.flushIdx = none := by cases e <;> simp_all [Event.isTimerFlush, Event.flushIdx]
    have hpe : pulses [e] = [] := no_pulses (by simpa using hidx)
    rw [hpe]
    split
    · exact ⟨hP, fun _ => rfl, by simp⟩
    · split
      · refine ⟨?_, fun _ => rfl, by simp⟩
        intro x hx
        rw [List.mem_iff_getElem?] at hx
        obtain ⟨i, hi⟩ := hx
        rw [List.getElem?_modify] at hi
        cases hy : s.holds[i]? with
        | none => simp [hy] at hi
        | some y =>
          have hy' := hP y (List.mem_of_getElem? hy)
          simp only [hy] at hi
          intro z hz
          split at hi <;> simp at hi <;> subst hi
          · rcases List.mem_append.1 hz with hz | hz
            · exact hy' z hz
            · simp at hz; subst hz; exact hidx
          · exact hy' z hz
      · refine ⟨?_, fun _ => rfl, by simp⟩
        rename_i idx _
        intro x hx
        by_cases hi : idx ≤ s.holds.length
        · rcases (List.mem_insertIdx hi).1 hx with rfl | hx
          · intro z hz; simp at hz; subst hz; exact hidx
          · exact hP x hx
        · rw [List.insertIdx_of_length_lt (by omega)] at hx
          exact hP x hx

/-- **C146 (the filters there are).**  The delay, flush-boundary and JSON filters pass the pulses on, whatever their configuration; so does the programmable filter
if its script's `tick` never fails. -/
theorem C146_filters_pass (tolerance : Int) (holdFor : Nat) (x : JsonExt) (json : JsonEncode) {L : Type}
    (script : Script F L) (fail : LuaFn → Event F) (hfail : ∀ fn, (fail fn).isTimerFlush = false)
    (htick : ∀ l p, ∃ q, (script l .tick p).2 = .ok q) (lua : L) :
    PassesPulses (F := F) ⟨_, delayProcess, tolerance⟩ ∧
      PassesPulses (F := F) ⟨_, flushBoundaryProcess, { tolerance := holdFor }⟩ ∧
      PassesPulses (F := F) ⟨_, jsonProcess x, json⟩ ∧
      PassesPulses (F := F) ⟨_, programmableProcess script fail, { lua := lua }⟩ := by
  refine ⟨?_, boundary_passes holdFor, ?_, ?_⟩
  · refine passesOf (fun _ _ => True) trivial (fun now st last e _ he => ⟨trivial, ?_, ?_⟩)
    · intro _
      cases e with
      | telemetry m => simp only [delayProcess]; split <;> rfl
      | log m => simp only [delayProcess]; split <;> rfl
      | shutdown => simp [Event.isShutdown] at he
      | _ => rfl
    · intro fe hfe
      cases e with
      | telemetry m => simp only [delayProcess] at hfe; split at hfe <;> simp at hfe
      | log m => simp only [delayProcess] at hfe; split at hfe <;> simp at hfe
      | _ => simp [delayProcess] at hfe
  · refine passesOf (fun _ _ => True) trivial (fun now st last e _ he => ⟨trivial, ?_, ?_⟩)
    · intro _
      cases e with
      | _ => rfl
    · intro fe hfe
      cases e <;> simp [jsonProcess] at hfe
  · have hpay : ∀ (logs : List LogLine) (ms : List (Telemetry F)), pulses ([] ++ logs.map Event.log ++ ms.map Event.telemetry) = [] := by
      intro logs ms
      apply no_pulses
      intro e he
      simp only [List.nil_append, List.mem_append, List.mem_map] at he
      rcases he with ⟨_, -, rfl⟩ | ⟨_, -, rfl⟩ <;> rfl
    have hf : ∀ fn, pulses [fail fn] = [] := by
      intro fn
      apply no_pulses
      intro e he
      simp only [List.mem_singleton] at he
      subst he
      have := hfail fn
      cases h : fail fn <;> simp_all [Event.isTimerFlush, Event.flushIdx]
    have hrun : ∀ l fn pyld, (∀ u, (runLua script fail l fn [] pyld).2.2 = .ok u → pulses (runLua script fail l fn [] pyld).2.1 = []) ∧
        ∀ fe, (runLua script fail l fn [] pyld).2.2 = .error fe → pulses [fe] = [] := by
      intro l fn pyld
      simp only [runLua]
      split
      · exact ⟨by simp, fun fe h => by simp at h; subst h; exact hf fn⟩
      · exact ⟨by simp, fun fe h => by simp at h; subst h; exact hf fn⟩
      · exact ⟨fun _ _ => hpay _ _, by simp⟩
    refine passesOf (fun s last => s.lastFlushIdx = last) rfl (fun now st last e hI he => ?_)
    cases e with
    | telemetry m =>
      have hp : pulses [(Event.telemetry m : Event F)] = [] := rfl
      rw [hp]
      exact ⟨hI, fun h => congrArg (records last) ((hrun st.lua .processMetric ⟨[m], []⟩).1 () h),
        fun fe h => congrArg (records last) ((hrun st.lua .processMetric ⟨[m], []⟩).2 fe h)⟩
    | log m =>
      have hp : pulses [(Event.log m : Event F)] = [] := rfl
      rw [hp]
      exact ⟨hI, fun h => congrArg (records last) ((hrun st.lua .processLog ⟨[], [m]⟩).1 () h),
        fun fe h => congrArg (records last) ((hrun st.lua .processLog ⟨[], [m]⟩).2 fe h)⟩
    | raw m => exact ⟨hI, fun _ => rfl, fun fe h => by simp [programmableProcess] at h⟩
    | shutdown => simp [Event.isShutdown] at he
    | timerFlush idx =>
      have hp : pulses [(Event.timerFlush idx : Event F)] = [idx] := rfl
      rw [hp]
      simp only [programmableProcess]
      split
      · rename_i hge
        refine ⟨?_, fun _ => ?_, by simp⟩
        · simp only [List.foldl_cons, List.foldl_nil]; omega
        · simp [pulses, records]; omega
      · rename_i hlt
        obtain ⟨q, hq⟩ := htick st.lua ⟨[], []⟩
        have hr : runLua script fail st.lua .tick [] ⟨[], []⟩ =
            ((script st.lua .tick ⟨[], []⟩).1, [] ++ q.logs.map .log ++ q.metrics.map .telemetry, .ok ()) := by
          simp only [runLua]
          rcases hs : script st.lua .tick ⟨[], []⟩ with ⟨l', res⟩
          rw [hs] at hq
          simp only at hq
          subst hq
          rfl
        rw [hr]
        refine ⟨?_, fun _ => ?_, by simp⟩
        · simp only [List.foldl_cons, List.foldl_nil]; omega
        · simp only
          rw [pulses_append, hpay, List.nil_append, hp]

/-! ## The sinks that write at a flush -/

theorem Net.reopens_on {c : Config} (hd : Distinct c) {p : Setup F} (hp : SetUp c p) (ls : Nat → Label F) {n : Str} (hn : n ∈ c.sinks)
    (hre : Reopens (p.sink n).impl (p.sink n).start) : ValveReopens p ls n := by
  obtain ⟨w1, -⟩ := C57_mutual c hd _ hp.wired
  obtain ⟨ups, hf⟩ := mem_fst (w1 ▸ hn)
  exact valve_of_reopens (linked hd hp.wired) hf hre

private theorem some_of_reopens {H : Type} {k : SinkImpl F (Option H)} {start : Option H} (hv : k.valveOpen none = false) (hf : k.flush none = none)
    (hre : Reopens k start) {s : Option H} (hs : Reaches k start s) : ∃ h, s = some h := by
  cases s with
  | some h => exact ⟨h, rfl⟩
  | none =>
    obtain ⟨n, hn⟩ := hre _ hs
    have : ∀ n, flushes k n none = none := by
      intro n
      induction n with
      | zero => rfl
      | succ n ih => simp only [flushes, hf]; exact ih
    rw [this, hv] at hn
    cases hn

private theorem linesIn_prefix {a b : List (Event F)} (h : a <+: b) : linesIn a <+: linesIn b := by
  obtain ⟨c, rfl⟩ := h
  simp only [linesIn, List.filterMap_append]
  exact List.prefix_append _ _

theorem Net.at_flush (c : Config) (hd : Distinct c) (p : Setup F) (hp : SetUp c p) (ls : Nat → Label F) (hs : ∀ t, ls t ≠ .signal)
    (number : Nat → Nat) (htk : Ticks ls number)
    (first : Str) (fs : List Str) (n : Str) (hfun : Funnel c first fs n) (hfed : ∃ u, Forwards c u first) (hn : n ∈ c.sinks)
    (hb : ∀ m ∈ fs ++ [n], Busy ls m) (hpass : ∀ m ∈ fs, PassesPulses (p.filter m)) (hroom : ∀ t, ∀ m ∈ fs ++ [n], (run p ls t).lost m = [])
    (hre : ValveReopens p ls n) (interval : Nat) (hiv : ∀ st, (p.sink n).impl.flushInterval st = some interval) (T : Nat) :
    ∃ t, T ≤ t ∧ ∃ received out, Through (fs.map p.filter) (received.map (·.2)) out ∧ FromSources c p ls first T t received ∧
      ∃ m r j recv, (run p ls t).nodes n = some (.sink (p.sink n) m r) ∧
        r = SinkRun.steps (p.sink n).impl m j { state := (p.sink n).start, queue := recv } ∧ Reaches (p.sink n).impl (p.sink n).start r.state ∧
        ∃ before s idx after, r.calls = before ++ .pulseFlush s idx :: after ∧ out.filter Event.isPayload <+: deliveredBy before := by
  obtain ⟨t, ht, nd, received, out, a1, a2, a3, a4⟩ := C146_flushed_partial c hd p hp ls hs number htk first fs n hfun hfed hn hb hpass hroom hre interval hiv T
  obtain ⟨m, r, j, b1, b2⟩ := C123_alone c hd p hp ls t n hn
  obtain ⟨w1, -⟩ := C57_mutual c hd _ hp.wired
  obtain ⟨ups, hf⟩ := mem_fst (w1 ▸ hn)
  obtain ⟨r', c1, c2⟩ := sink_at (linked hd hp.wired) ls hf t
  rw [b1] at c1 a1
  simp only [Option.some.injEq, Node.sink.injEq, heq_eq_eq, true_and] at c1 a1
  obtain ⟨-, rfl⟩ := c1
  subst a1
  exact ⟨t, ht, received, out, a2, a3, m, r, j, _, b1, b2, c2, a4⟩

theorem console_texts (ext : Console.Ext F) (interval : Nat) (clock : Nat → Int) (stamps : Nat → Str × Str) (w : Int) (tags : TagMap)
    {s} (hs : Reaches (consoleImpl ext interval clock stamps) (some { state := Console.init w tags }) s) : ∀ h, s = some h →
      h.state.tags = tags ∧ ∀ b ∈ h.log, ∃ parts : List Str, b.1.map (Console.printLine ext tags) = parts.map some ∧ parts.flatten <:+: b.2 := by
  have hf : ∀ (s : Option (Hosted (Console.State F) (List LogLine × Str))),
      (∀ h, s = some h → h.state.tags = tags ∧
        ∀ b ∈ h.log, ∃ parts : List Str, b.1.map (Console.printLine ext tags) = parts.map some ∧ parts.flatten <:+: b.2) →
      ∀ h, (consoleImpl ext interval clock stamps).flush s = some h → h.state.tags = tags ∧
        ∀ b ∈ h.log, ∃ parts : List Str, b.1.map (Console.printLine ext tags) = parts.map some ∧ parts.flatten <:+: b.2 := by
    intro s hP h he
    simp only [consoleImpl, Option.bind_eq_some_iff, Option.map_eq_some_iff] at he
    obtain ⟨g, rfl, ⟨s', text⟩, h1, rfl⟩ := he
    obtain ⟨p1, p3⟩ := hP g rfl
    simp only [Console.flush] at h1
    split at h1
    · rename_i lines pts hl hi
      simp only [Option.some.injEq, Prod.mk.injEq] at h1
      obtain ⟨rfl, h1⟩ := h1
      refine ⟨p1, ?_⟩
      intro b hb
      rcases List.mem_append.1 hb with hb | hb
      · exact p3 b hb
      · simp only [List.mem_singleton] at hb
        subst hb
        rw [p1] at hl
        obtain ⟨parts, q1, q2⟩ := printLines_each ext tags _ _ hl
        refine ⟨parts, q1, ?_⟩
        rw [← q2]
        simp only [← h1]
        refine ⟨"Flushing lines: ".toList ++ (stamps g.calls).1 ++ ['\n'], ?rest, ?eq⟩
        case eq => simp only [List.append_assoc]; rfl
    · simp at h1
  induction hs with
  | start => intro h he; simp only [Option.some.injEq] at he; subst he; simp [Console.init]
  | deliver s m _ ih =>
    intro h he
    simp only [consoleImpl, Option.bind_eq_some_iff, Option.map_eq_some_iff, Console.deliver] at he
    obtain ⟨g, rfl, s', ⟨a, -, rfl⟩, rfl⟩ := he
    exact ih g rfl
  | deliverLine s l _ ih =>
    intro h he
    simp only [consoleImpl, Option.map_eq_some_iff] at he
    obtain ⟨g, rfl, rfl⟩ := he
    exact ih g rfl
  | deliverRaw s m _ ih => intro h he; exact ih h he
  | flush s _ ih => exact hf s ih
  | shutdown s _ ih => exact hf s ih

/-- A sink that keeps what it is given until a flush, and at a flush writes all it has kept. -/
private theorem written {S B α : Type} (k : SinkImpl F (Option (Hosted S B))) (done buf : Hosted S B → List α) (sel : Event F → List α)
    (hd : ∀ s t h, k.deliver s t = some h → ∃ g, s = some g ∧ buf h = buf g ++ sel (.telemetry t) ∧ done h = done g)
    (hl : ∀ s t h, k.deliverLine s t = some h → ∃ g, s = some g ∧ buf h = buf g ++ sel (.log t) ∧ done h = done g)
    (hr : ∀ s t h, k.deliverRaw s t = some h → ∃ g, s = some g ∧ buf h = buf g ++ sel (.raw t) ∧ done h = done g)
    (hf : ∀ s h, k.flush s = some h → ∃ g, s = some g ∧ buf h = [] ∧ done h = done g ++ buf g) (hsd : k.shutdown = k.flush)
    (start : Hosted S B) (h1 : buf start = []) (h2 : done start = []) (sources j : Nat) (recv : List (Option (Event F))) :
    let r := SinkRun.steps k sources j { state := some start, queue := recv }
    ∀ before s idx after, r.calls = before ++ .pulseFlush s idx :: after → ∀ h, r.state = some h → (deliveredBy before).flatMap sel <+: done h := by
  refine flushed_induction k (fun s d => ∀ h, s = some h → done h ++ buf h = d.flatMap sel)
    (fun s d => ∀ h, s = some h → d.flatMap sel <+: done h) ?_ ?_ ?_ ?_ ?_ ?_ ?_ ?_ ?_ ?_ sources j _ ?_ recv
  · intro s d t hP _ h he
    obtain ⟨g, rfl, e1, e2⟩ := hd s t h he
    rw [e1, e2, ← List.append_assoc, hP g rfl]; simp
  · intro s d t hP _ h he
    obtain ⟨g, rfl, e1, e2⟩ := hl s t h he
    rw [e1, e2, ← List.append_assoc, hP g rfl]; simp
  · intro s d t hP _ h he
    obtain ⟨g, rfl, e1, e2⟩ := hr s t h he
    rw [e1, e2, ← List.append_assoc, hP g rfl]; simp
  · intro s d hP h he
    obtain ⟨g, rfl, e1, e2⟩ := hf s h he
    rw [e1, e2, List.append_nil, hP g rfl]
  · intro s d hP h he
    obtain ⟨g, rfl, e1, e2⟩ := hf s h he
    rw [e2, hP g rfl]; exact List.prefix_rfl
  · intro s d t hW h he
    obtain ⟨g, rfl, e1, e2⟩ := hd s t h he
    rw [e2]; exact hW g rfl
  · intro s d t hW h he
    obtain ⟨g, rfl, e1, e2⟩ := hl s t h he
    rw [e2]; exact hW g rfl
  · intro s d t hW h he
    obtain ⟨g, rfl, e1, e2⟩ := hr s t h he
    rw [e2]; exact hW g rfl
  · intro s d hW h he
    obtain ⟨g, rfl, e1, e2⟩ := hf s h he
    rw [e2]; exact (hW g rfl).trans (List.prefix_append _ _)
  · intro s d hW h he
    rw [hsd] at he
    obtain ⟨g, rfl, e1, e2⟩ := hf s h he
    rw [e2]; exact (hW g rfl).trans (List.prefix_append _ _)
  · intro h he; simp only [Option.some.injEq] at he; subst he; simp [h1, h2]

def selLine : Event F → List LogLine
  | .log l => [l]
  | _ => []

def selPoint : Event F → List (Telemetry F)
  | .telemetry t => [t]
  | _ => []

def selBoth : Event F → List (Event F)
  | .telemetry t => [.telemetry t]
  | .log l => [.log l]
  | _ => []

theorem lines_sel (d : List (Event F)) : linesIn d = d.flatMap selLine := by
  induction d with
  | nil => rfl
  | cons e d ih => cases e <;> simp_all [linesIn, selLine]

theorem points_sel (d : List (Event F)) : pointsIn d = d.flatMap selPoint := by
  induction d with
  | nil => rfl
  | cons e d ih => cases e <;> simp_all [pointsIn, selPoint]

theorem both_sel (d : List (Event F)) : d.filter Event.isPointOrLine = d.flatMap selBoth := by
  induction d with
  | nil => rfl
  | cons e d ih => cases e <;> simp_all [Event.isPointOrLine, selBoth, List.filter_cons]

private theorem console_written (ext : Console.Ext F) (interval : Nat) (clock : Nat → Int) (stamps : Nat → Str × Str) (w : Int) (tags : TagMap)
    (sources j : Nat) (recv : List (Option (Event F))) :
    let r := SinkRun.steps (consoleImpl ext interval clock stamps) sources j { state := some { state := Console.init w tags }, queue := recv }
    ∀ before s idx after, r.calls = before ++ .pulseFlush s idx :: after → ∀ h, r.state = some h → linesIn (deliveredBy before) <+: h.log.flatMap (·.1) := by
  simp only [lines_sel]
  refine written (consoleImpl ext interval clock stamps) (fun h => h.log.flatMap (·.1)) (fun h => h.state.buffer) selLine ?_ ?_ ?_ ?_ rfl { state := Console.init w tags } rfl rfl sources j recv
  · intro s t h he
    simp only [consoleImpl, Option.bind_eq_some_iff, Option.map_eq_some_iff, Console.deliver] at he
    obtain ⟨g, rfl, s', ⟨a, -, rfl⟩, rfl⟩ := he
    exact ⟨g, rfl, by simp [selLine], rfl⟩
  · intro s l h he
    simp only [consoleImpl, Option.map_eq_some_iff] at he
    obtain ⟨g, rfl, rfl⟩ := he
    exact ⟨g, rfl, rfl, rfl⟩
  · intro s l h he
    exact ⟨h, he, by simp [selLine], rfl⟩
  · intro s h he
    simp only [consoleImpl, Option.bind_eq_some_iff, Option.map_eq_some_iff] at he
    obtain ⟨g, rfl, ⟨s', text⟩, h1, rfl⟩ := he
    simp only [Console.flush] at h1
    split at h1
    · simp only [Option.some.injEq, Prod.mk.injEq] at h1
      obtain ⟨rfl, -⟩ := h1
      exact ⟨g, rfl, rfl, by simp⟩
    · simp at h1

private theorem native_written (bits : Native.Bits F) (interval : Nat) (os : Nat → List Bool) (connected : Bool) (tags : TagMap)
    (sources j : Nat) (recv : List (Option (Event F))) :
    let r := SinkRun.steps (nativeImpl bits interval os) sources j { state := some { state := { connected := connected, tags := tags } }, queue := recv }
    ∀ before s idx after, r.calls = before ++ .pulseFlush s idx :: after → ∀ h, r.state = some h →
      (deliveredBy before).filter Event.isPointOrLine <+: h.log.flatMap (·.1) := by
  simp only [both_sel]
  refine written (nativeImpl bits interval os) (fun h => h.log.flatMap (·.1)) (fun h => h.state.buffer) selBoth ?_ ?_ ?_ ?_ rfl { state := { connected := connected, tags := tags } } rfl rfl sources j recv
  · intro s t h he
    simp only [nativeImpl, Option.map_eq_some_iff] at he
    obtain ⟨g, rfl, rfl⟩ := he
    exact ⟨g, rfl, rfl, rfl⟩
  · intro s l h he
    simp only [nativeImpl, Option.map_eq_some_iff] at he
    obtain ⟨g, rfl, rfl⟩ := he
    exact ⟨g, rfl, rfl, rfl⟩
  · intro s l h he
    exact ⟨h, he, by simp [selBoth], rfl⟩
  · intro s h he
    simp only [nativeImpl, Option.bind_eq_some_iff] at he
    obtain ⟨g, rfl, he⟩ := he
    split at he
    · rename_i s' acts h1
      simp only [Option.some.injEq] at he
      subst he
      obtain ⟨s2, a2, d2, e1, e2, -⟩ := C80_flush bits g.state (os g.calls)
        (Native.wire (Native.payloadOf bits g.state.tags g.state.buffer))
        (by simp [Native.FlushWrites, Native.Sink.flush, Native.flushLoop])
      rw [h1] at e1
      simp only [Prod.mk.injEq] at e1
      obtain ⟨rfl, rfl, rfl⟩ := e1
      exact ⟨g, rfl, e2, by simp⟩
    · simp at he

theorem native_writes (bits : Native.Bits F) (interval : Nat) (os : Nat → List Bool) (connected : Bool) (tags : TagMap)
    {s} (hs : Reaches (nativeImpl bits interval os) (some { state := { connected := connected, tags := tags } }) s) : ∀ h, s = some h →
      h.state.tags = tags ∧ ∀ b ∈ h.log, ∃ bs, Native.FlushWrites bits tags b.1 bs ∧ b.2.getLast? = some (.write bs) := by
  have hf : ∀ (s : Option (Hosted (Native.Sink F) (List (Event F) × List Native.Act))),
      (∀ h, s = some h → h.state.tags = tags ∧ ∀ b ∈ h.log, ∃ bs, Native.FlushWrites bits tags b.1 bs ∧ b.2.getLast? = some (.write bs)) →
      ∀ h, (nativeImpl bits interval os).flush s = some h → h.state.tags = tags ∧
        ∀ b ∈ h.log, ∃ bs, Native.FlushWrites bits tags b.1 bs ∧ b.2.getLast? = some (.write bs) := by
    intro s hP h he
    simp only [nativeImpl, Option.bind_eq_some_iff] at he
    obtain ⟨g, rfl, he⟩ := he
    obtain ⟨p1, p3⟩ := hP g rfl
    split at he
    · rename_i s' acts h1
      simp only [Option.some.injEq] at he
      subst he
      obtain ⟨s2, a2, d2, e1, e2, e3, e4, e5⟩ := C80_flush bits g.state (os g.calls)
        (Native.wire (Native.payloadOf bits g.state.tags g.state.buffer))
        (by simp [Native.FlushWrites, Native.Sink.flush, Native.flushLoop])
      rw [h1] at e1
      simp only [Prod.mk.injEq] at e1
      obtain ⟨rfl, rfl, rfl⟩ := e1
      refine ⟨by rw [e3, p1], ?_⟩
      intro b hb
      rcases List.mem_append.1 hb with hb | hb
      · exact p3 b hb
      · simp only [List.mem_singleton] at hb
        subst hb
        refine ⟨_, ?_, (e5 rfl).1⟩
        rw [p1]
        simp [Native.FlushWrites, Native.Sink.flush, Native.flushLoop]
    · simp at he
  induction hs with
  | start => intro h he; simp only [Option.some.injEq] at he; subst he; simp
  | deliver s m _ ih =>
    intro h he
    simp only [nativeImpl, Option.map_eq_some_iff] at he
    obtain ⟨g, rfl, rfl⟩ := he
    exact ih g rfl
  | deliverLine s l _ ih =>
    intro h he
    simp only [nativeImpl, Option.map_eq_some_iff] at he
    obtain ⟨g, rfl, rfl⟩ := he
    exact ih g rfl
  | deliverRaw s m _ ih => intro h he; exact ih h he
  | flush s _ ih => exact hf s ih
  | shutdown s _ ih => exact hf s ih

private theorem influx_written (ext : Wavefront.Ext F) (interval : Nat) (os : Nat → List Influx.Outcome) (tags : TagMap)
    (sources j : Nat) (recv : List (Option (Event F))) :
    let r := SinkRun.steps (influxImpl ext interval os) sources j { state := some { state := Influx.init tags }, queue := recv }
    ∀ before s idx after, r.calls = before ++ .pulseFlush s idx :: after → ∀ h, r.state = some h → pointsIn (deliveredBy before) <+: h.log.flatMap (·.1) := by
  simp only [points_sel]
  refine written (influxImpl ext interval os) (fun h => h.log.flatMap (·.1)) (fun h => h.state.aggrs) selPoint ?_ ?_ ?_ ?_ rfl { state := Influx.init tags } rfl rfl sources j recv
  · intro s t h he
    simp only [influxImpl, Option.map_eq_some_iff] at he
    obtain ⟨g, rfl, rfl⟩ := he
    exact ⟨g, rfl, rfl, rfl⟩
  · intro s l h he
    exact ⟨h, he, by simp [selPoint], rfl⟩
  · intro s l h he
    exact ⟨h, he, by simp [selPoint], rfl⟩
  · intro s h he
    simp only [influxImpl, Option.bind_eq_some_iff] at he
    obtain ⟨g, rfl, he⟩ := he
    split at he
    · rename_i s' wire h1
      simp only [Option.some.injEq] at he
      subst he
      simp only [Influx.flush] at h1
      split at h1
      · simp at h1
      · simp only [Option.some.injEq, Prod.mk.injEq] at h1
        obtain ⟨rfl, -, h3⟩ := h1
        exact ⟨g, rfl, by simp [h3], by simp⟩
    · simp at he

private theorem influx_done (payload : Str) : ∀ (os : List Influx.Outcome) (a : Nat),
    (Influx.flushLoop payload a os).2.2 = true →
    (Influx.flushLoop payload a os).2.1.getLast? = some (.post payload) := by
  intro os
  induction os with
  | nil => intro a h; simp [Influx.flushLoop] at h
  | cons o os ih =>
    intro a h
    cases o <;> simp only [Influx.flushLoop] at h ⊢
    · have := ih _ h; simp [List.getLast?_cons, this]
    · simp
    · have := ih _ h; simp [List.getLast?_cons, this]
    · have := ih _ h; simp [List.getLast?_cons, this]
    · have := ih _ h; simp [List.getLast?_cons, this]

theorem influx_posts (ext : Wavefront.Ext F) (interval : Nat) (os : Nat → List Influx.Outcome) (tags : TagMap)
    {s} (hs : Reaches (influxImpl ext interval os) (some { state := Influx.init tags }) s) : ∀ h, s = some h →
      h.state.tags = tags ∧ ∀ b ∈ h.log, ∃ text, Influx.formatStats ext tags b.1 = some text ∧ b.2.getLast? = some (.post text) := by
  have hf : ∀ (s : Option (Hosted (Influx.State F) (List (Telemetry F) × List Influx.Wire))),
      (∀ h, s = some h → h.state.tags = tags ∧ ∀ b ∈ h.log, ∃ text, Influx.formatStats ext tags b.1 = some text ∧ b.2.getLast? = some (.post text)) →
      ∀ h, (influxImpl ext interval os).flush s = some h → h.state.tags = tags ∧
        ∀ b ∈ h.log, ∃ text, Influx.formatStats ext tags b.1 = some text ∧ b.2.getLast? = some (.post text) := by
    intro s hP h he
    simp only [influxImpl, Option.bind_eq_some_iff] at he
    obtain ⟨g, rfl, he⟩ := he
    obtain ⟨p1, p3⟩ := hP g rfl
    split at he
    · rename_i s' wire h1
      simp only [Option.some.injEq] at he
      subst he
      simp only [Influx.flush] at h1
      split at h1
      · simp at h1
      · rename_i payload hp
        rcases hl : Influx.flushLoop payload g.state.attempts (os g.calls) with ⟨a, w, d'⟩
        simp only [hl, Option.some.injEq, Prod.mk.injEq] at h1
        obtain ⟨rfl, rfl, rfl⟩ := h1
        have hlast := influx_done payload (os g.calls) g.state.attempts (by rw [hl])
        rw [hl] at hlast
        refine ⟨p1, ?_⟩
        intro b hb
        rcases List.mem_append.1 hb with hb | hb
        · exact p3 b hb
        · simp only [List.mem_singleton] at hb
          subst hb
          exact ⟨payload, by rw [← p1]; exact hp, hlast⟩
    · simp at he
  induction hs with
  | start => intro h he; simp only [Option.some.injEq] at he; subst he; simp [Influx.init]
  | deliver s m _ ih =>
    intro h he
    simp only [influxImpl, Option.map_eq_some_iff] at he
    obtain ⟨g, rfl, rfl⟩ := he
    exact ih g rfl
  | deliverLine s l _ ih => intro h he; exact ih h he
  | deliverRaw s m _ ih => intro h he; exact ih h he
  | flush s _ ih => exact hf s ih
  | shutdown s _ ih => exact hf s ih

/-- **C146 (console).**  Any number of sources feed a node from which a single chain of filters that pass the pulses on leads to a console sink.  No queue on the
way is ever full, every thread on the way gets its turn again and again, the timer does not stop, and the process is never told to.  Then for any time `T` there is
a time by which the console has printed, in order, the lines among what the filters make of everything those sources had sent by `T`. -/
theorem C146_console_partial (c : Config) (hd : Distinct c) (p : Setup F) (hp : SetUp c p) (ls : Nat → Label F) (hs : ∀ t, ls t ≠ .signal)
    (number : Nat → Nat) (htk : Ticks ls number)
    (first : Str) (fs : List Str) (n : Str) (hfun : Funnel c first fs n) (hfed : ∃ u, Forwards c u first) (hn : n ∈ c.sinks)
    (hb : ∀ m ∈ fs ++ [n], Busy ls m) (hpass : ∀ m ∈ fs, PassesPulses (p.filter m)) (hroom : ∀ t, ∀ m ∈ fs ++ [n], (run p ls t).lost m = [])
    (ext : Console.Ext F) (htime : ∀ t, (ext.time t).isSome) (interval : Nat) (clock : Nat → Int) (stamps : Nat → Str × Str) (binWidth : Int)
    (hbin : binWidth ≠ 0) (tags : TagMap)
    (hk : p.sink n = ⟨_, consoleImpl ext interval clock stamps, some { state := Console.init binWidth tags }⟩) (T : Nat) :
    ∃ t, T ≤ t ∧ ∃ received out m r h, Through (fs.map p.filter) (received.map (·.2)) out ∧ FromSources c p ls first T t received ∧
      (run p ls t).nodes n = some (.sink ⟨_, consoleImpl ext interval clock stamps, some { state := Console.init binWidth tags }⟩ m r) ∧
      r.state = some h ∧ linesIn out <+: h.log.flatMap (·.1) ∧
      ∀ b ∈ h.log, ∃ parts : List Str, b.1.map (Console.printLine ext tags) = parts.map some ∧ parts.flatten <:+: b.2 := by
  have hre := C92_console_reopens ext htime interval clock stamps binWidth hbin tags
  obtain ⟨t, ht, received, out, a1, a2, a3⟩ := at_flush c hd p hp ls hs number htk first fs n hfun hfed hn hb hpass hroom (reopens_on hd hp ls hn (by rw [hk]; exact hre)) interval
    (by rw [hk]; intro st; rfl) T
  rw [hk] at a3
  obtain ⟨m, r, j, recv, b1, b2, b3, before, s, idx, after, b4, b5⟩ := a3
  obtain ⟨h, hh⟩ := some_of_reopens rfl rfl hre b3
  refine ⟨t, ht, received, out, m, r, h, a1, a2, b1, hh, ?_, (console_texts ext interval clock stamps binWidth tags b3 h hh).2⟩
  subst b2
  have := console_written ext interval clock stamps binWidth tags m j recv before s idx after b4 h hh
  refine List.IsPrefix.trans ?_ this
  rw [← linesIn_payload out]
  exact linesIn_prefix b5

/-- **C146 (native).**  The same for a native sink whose flushes all succeed in the end: what it has written are the points and lines. -/
theorem C146_native_partial (c : Config) (hd : Distinct c) (p : Setup F) (hp : SetUp c p) (ls : Nat → Label F) (hs : ∀ t, ls t ≠ .signal)
    (number : Nat → Nat) (htk : Ticks ls number)
    (first : Str) (fs : List Str) (n : Str) (hfun : Funnel c first fs n) (hfed : ∃ u, Forwards c u first) (hn : n ∈ c.sinks)
    (hb : ∀ m ∈ fs ++ [n], Busy ls m) (hpass : ∀ m ∈ fs, PassesPulses (p.filter m)) (hroom : ∀ t, ∀ m ∈ fs ++ [n], (run p ls t).lost m = [])
    (bits : Native.Bits F) (interval : Nat) (os : Nat → List Bool) (connected : Bool) (tags : TagMap)
    (hk : p.sink n = ⟨_, nativeImpl bits interval os, some { state := { connected := connected, tags := tags } }⟩)
    (hre : Reopens (nativeImpl bits interval os) (some { state := { connected := connected, tags := tags } })) (T : Nat) :
    ∃ t, T ≤ t ∧ ∃ received out m r h, Through (fs.map p.filter) (received.map (·.2)) out ∧ FromSources c p ls first T t received ∧
      (run p ls t).nodes n = some (.sink ⟨_, nativeImpl bits interval os, some { state := { connected := connected, tags := tags } }⟩ m r) ∧
      r.state = some h ∧ out.filter Event.isPointOrLine <+: h.log.flatMap (·.1) ∧
      ∀ b ∈ h.log, ∃ bs, Native.FlushWrites bits tags b.1 bs ∧ b.2.getLast? = some (.write bs) := by
  obtain ⟨t, ht, received, out, a1, a2, a3⟩ := at_flush c hd p hp ls hs number htk first fs n hfun hfed hn hb hpass hroom (reopens_on hd hp ls hn (by rw [hk]; exact hre)) interval
    (by rw [hk]; intro st; rfl) T
  rw [hk] at a3
  obtain ⟨m, r, j, recv, b1, b2, b3, before, s, idx, after, b4, b5⟩ := a3
  obtain ⟨h, hh⟩ := some_of_reopens rfl rfl hre b3
  refine ⟨t, ht, received, out, m, r, h, a1, a2, b1, hh, ?_, (native_writes bits interval os connected tags b3 h hh).2⟩
  subst b2
  have := native_written bits interval os connected tags m j recv before s idx after b4 h hh
  refine List.IsPrefix.trans ?_ this
  have hsub : ∀ es : List (Event F), es.filter Event.isPointOrLine = (es.filter Event.isPayload).filter Event.isPointOrLine := by
    intro es
    rw [List.filter_filter]
    congr 1
    funext e
    cases e <;> rfl
  rw [hsub out]
  exact b5.filter _

/-- **C146 (InfluxDB).**  The same for an InfluxDB sink whose flushes all succeed in the end: what it has posted are the points. -/
theorem C146_influxdb_partial (c : Config) (hd : Distinct c) (p : Setup F) (hp : SetUp c p) (ls : Nat → Label F) (hs : ∀ t, ls t ≠ .signal)
    (number : Nat → Nat) (htk : Ticks ls number)
    (first : Str) (fs : List Str) (n : Str) (hfun : Funnel c first fs n) (hfed : ∃ u, Forwards c u first) (hn : n ∈ c.sinks)
    (hb : ∀ m ∈ fs ++ [n], Busy ls m) (hpass : ∀ m ∈ fs, PassesPulses (p.filter m)) (hroom : ∀ t, ∀ m ∈ fs ++ [n], (run p ls t).lost m = [])
    (ext : Wavefront.Ext F) (interval : Nat) (os : Nat → List Influx.Outcome) (tags : TagMap)
    (hk : p.sink n = ⟨_, influxImpl ext interval os, some { state := Influx.init tags }⟩)
    (hre : Reopens (influxImpl ext interval os) (some { state := Influx.init tags })) (T : Nat) :
    ∃ t, T ≤ t ∧ ∃ received out m r h, Through (fs.map p.filter) (received.map (·.2)) out ∧ FromSources c p ls first T t received ∧
      (run p ls t).nodes n = some (.sink ⟨_, influxImpl ext interval os, some { state := Influx.init tags }⟩ m r) ∧
      r.state = some h ∧ pointsIn out <+: h.log.flatMap (·.1) ∧
      ∀ b ∈ h.log, ∃ text, Influx.formatStats ext tags b.1 = some text ∧ b.2.getLast? = some (.post text) := by
  obtain ⟨t, ht, received, out, a1, a2, a3⟩ := at_flush c hd p hp ls hs number htk first fs n hfun hfed hn hb hpass hroom (reopens_on hd hp ls hn (by rw [hk]; exact hre)) interval
    (by rw [hk]; intro st; rfl) T
  rw [hk] at a3
  obtain ⟨m, r, j, recv, b1, b2, b3, before, s, idx, after, b4, b5⟩ := a3
  obtain ⟨h, hh⟩ := some_of_reopens rfl rfl hre b3
  refine ⟨t, ht, received, out, m, r, h, a1, a2, b1, hh, ?_, (influx_posts ext interval os tags b3 h hh).2⟩
  subst b2
  have := influx_written ext interval os tags m j recv before s idx after b4 h hh
  refine List.IsPrefix.trans ?_ this
  rw [← pointsIn_payload out]
  obtain ⟨x, hx⟩ := b5
  rw [← hx]
  simp only [pointsIn, List.filterMap_append]
  exact List.prefix_append _ _

/-- A native sink's flushes all succeed in the end if each gets a connection and a write through at last. -/
theorem C146_native_reopens (bits : Native.Bits F) (interval : Nat) (os : Nat → List Bool) (hos : ∀ i, ∃ xs, os i = xs ++ [true, true]) (connected : Bool)
    (tags : TagMap) : Reopens (nativeImpl bits interval os) (some { state := { connected := connected, tags := tags } }) := by
  have hf : ∀ h : Hosted (Native.Sink F) (List (Event F) × List Native.Act), ∃ h', (nativeImpl bits interval os).flush (some h) = some h' := by
    intro h
    obtain ⟨xs, hx⟩ := hos h.calls
    have := C80_recovers bits h.state xs
    rcases hm : h.state.flush bits (xs ++ [true, true]) with ⟨s', acts, b⟩
    rw [hm] at this
    simp only at this
    subst this
    exact ⟨_, by simp only [nativeImpl, Option.bind_some, hx, hm]; rfl⟩
  have key : ∀ s, Reaches (nativeImpl bits interval os) (some { state := { connected := connected, tags := tags } }) s → ∃ h, s = some h := by
    intro s hs
    induction hs with
    | start => exact ⟨_, rfl⟩
    | deliver s m _ ih => obtain ⟨h, rfl⟩ := ih; exact ⟨_, rfl⟩
    | deliverLine s l _ ih => obtain ⟨h, rfl⟩ := ih; exact ⟨_, rfl⟩
    | deliverRaw s m _ ih => obtain ⟨h, rfl⟩ := ih; exact ⟨_, rfl⟩
    | flush s _ ih => obtain ⟨h, rfl⟩ := ih; exact hf h
    | shutdown s _ ih => obtain ⟨h, rfl⟩ := ih; exact hf h
  intro s hs
  obtain ⟨h, rfl⟩ := key s hs
  exact ⟨0, rfl⟩

private theorem influx_ends (payload : Str) : ∀ (os : List Influx.Outcome) (a : Nat), Influx.Outcome.success ∈ os → (Influx.flushLoop payload a os).2.2 = true := by
  intro os
  induction os with
  | nil => intro a h; simp at h
  | cons o os ih =>
    intro a h
    cases o with
    | success => rfl
    | _ => exact ih _ (by simpa using h)

/-- An InfluxDB sink's flushes all succeed in the end if the server accepts each at last and every point can be written as a line. -/
theorem C146_influxdb_reopens (ext : Wavefront.Ext F) (interval : Nat) (os : Nat → List Influx.Outcome) (hos : ∀ i, .success ∈ os i) (tags : TagMap)
    (hfmt : ∀ pts, (Influx.formatStats ext tags pts).isSome) :
    Reopens (influxImpl ext interval os) (some { state := Influx.init tags }) := by
  have hf : ∀ h : Hosted (Influx.State F) (List (Telemetry F) × List Influx.Wire), h.state.tags = tags →
      ∃ h', (influxImpl ext interval os).flush (some h) = some h' ∧ h'.state.tags = tags ∧ h'.state.aggrs = [] := by
    intro h ht
    obtain ⟨payload, hp⟩ := Option.isSome_iff_exists.1 (hfmt h.state.aggrs)
    have := influx_ends payload (os h.calls) h.state.attempts (hos _)
    rcases hm : Influx.flushLoop payload h.state.attempts (os h.calls) with ⟨a, w, b⟩
    rw [hm] at this
    simp only at this
    subst this
    refine ⟨⟨{ h.state with attempts := a, aggrs := [] }, h.calls + 1, h.log ++ [(h.state.aggrs, w)]⟩, ?_, ht, rfl⟩
    simp only [influxImpl, Option.bind_some, Influx.flush, ht, hp, hm, if_true]
  have key : ∀ s, Reaches (influxImpl ext interval os) (some { state := Influx.init tags }) s → ∃ h, s = some h ∧ h.state.tags = tags := by
    intro s hs
    induction hs with
    | start => exact ⟨_, rfl, rfl⟩
    | deliver s m _ ih => obtain ⟨h, rfl, ht⟩ := ih; exact ⟨_, rfl, ht⟩
    | deliverLine s l _ ih => obtain ⟨h, rfl, ht⟩ := ih; exact ⟨h, rfl, ht⟩
    | deliverRaw s m _ ih => obtain ⟨h, rfl, ht⟩ := ih; exact ⟨h, rfl, ht⟩
    | flush s _ ih => obtain ⟨h, rfl, ht⟩ := ih; obtain ⟨h', e, t', -⟩ := hf h ht; exact ⟨h', e, t'⟩
    | shutdown s _ ih => obtain ⟨h, rfl, ht⟩ := ih; obtain ⟨h', e, t', -⟩ := hf h ht; exact ⟨h', e, t'⟩
  intro s hs
  obtain ⟨h, rfl, ht⟩ := key s hs
  obtain ⟨h', e, -, ha⟩ := hf h ht
  refine ⟨1, ?_⟩
  simp only [flushes, e]
  simp [influxImpl, Influx.valveOpen, ha]

/-! ## A filter that keeps the pulses -/

private theorem no_tick_runs (fail : Telemetry F) : ∀ (idxs : List Nat), (∀ i ∈ idxs, 0 < i) → ∀ r : FilterRun F (Programmable F Unit),
    r.finished = false → r.state.lastFlushIdx = 0 →
    (FilterRun.run (programmableProcess noTickScript (fun _ => .telemetry fail)) 1 r (idxs.map fun i => some (0, .timerFlush i))).1.sent =
      r.sent ++ idxs.map fun _ => .telemetry fail := by
  intro idxs
  induction idxs with
  | nil => intro _ r _ _; simp [FilterRun.run]
  | cons i idxs ih =>
    intro hi r h1 h2
    have h0 : 0 < i := hi i (by simp)
    simp only [List.map_cons, FilterRun.run, h1, Bool.false_eq_true, if_false]
    have hst : ∃ st evs, st.lastFlushIdx = 0 ∧ r.step (programmableProcess noTickScript (fun _ => .telemetry fail)) 1 (some (0, .timerFlush i)) =
        { r with state := st, events := evs, sent := r.sent ++ [.telemetry fail] } := by
      simp only [FilterRun.step, programmableProcess, h2, ge_iff_le, Nat.le_zero, show ¬ i = 0 by omega, if_false, noTickScript, runLua]
      exact ⟨_, _, by simp [h2], rfl⟩
    obtain ⟨st, evs, e1, e2⟩ := hst
    rw [e2, ih (fun j hj => hi j (by simp [hj])) _ (by exact h1) e1]
    simp

private theorem unflushed (ext : Console.Ext F) (interval : Nat) (clock : Nat → Int) (stamps : Nat → Str × Str) (sources : Nat) : ∀ (n : Nat)
    (r : SinkRun F (Option (Hosted (Console.State F) (List LogLine × Str)))),
    (∀ e, some e ∈ r.queue → e.isPayload = true) → (∀ e, r.current = some e → e.isPayload = true) → (∀ h, r.state = some h → h.log = []) →
    ∀ h, (r.steps (consoleImpl ext interval clock stamps) sources n).state = some h → h.log = [] := by
  intro n
  induction n with
  | zero => intro r _ _ h; exact h
  | succ n ih =>
    intro r hq hc hs
    refine ih _ ?_ ?_ ?_
    all_goals simp only [SinkRun.step]
    all_goals split
    · exact hq
    · split
      · split
        · exact hq
        · rename_i q hqq; intro e he; exact hq e (by rw [hqq]; simp [he])
        · rename_i x q hqq; intro e he; exact hq e (by rw [hqq]; simp [he])
      · rename_i x hx
        have hxp := hc x hx
        split
        · cases x <;> simp_all [SinkRun.handle, Event.isPayload]
        · exact hq
    · exact hc
    · split
      · split
        · exact hc
        · exact hc
        · rename_i x q hqq; intro e he; simp only [Option.some.injEq] at he; subst he; exact hq x (by rw [hqq]; simp)
      · rename_i x hx
        have hxp := hc x hx
        split
        · cases x <;> simp_all [SinkRun.handle, Event.isPayload]
        · exact hc
    · exact hs
    · split
      · split <;> exact hs
      · rename_i x hx
        have hxp := hc x hx
        split
        · cases x with
          | telemetry m =>
            intro h he
            simp only [SinkRun.handle, consoleImpl, Option.bind_eq_some_iff, Option.map_eq_some_iff] at he
            obtain ⟨g, hg, s', -, rfl⟩ := he
            exact hs g hg
          | log m =>
            intro h he
            simp only [SinkRun.handle, consoleImpl, Option.map_eq_some_iff] at he
            obtain ⟨g, hg, rfl⟩ := he
            exact hs g hg
          | raw m => exact hs
          | timerFlush i => simp [Event.isPayload] at hxp
          | shutdown => simp [Event.isPayload] at hxp
        · rename_i hv
          have : r.state = none := by
            cases hst : r.state with
            | none => rfl
            | some g => rw [hst] at hv; simp [consoleImpl] at hv
          intro h he
          rw [this] at he
          simp [consoleImpl] at he

/-- **C146 is false** of what is written if a filter on the way runs a script without `tick`.  The filter gets a line and then any number of pulses.  It passes the
line on, but no pulse; so a console behind it, however many turns it gets, has the line and does not print it. -/
theorem C146_no_tick_false (fail : Telemetry F) (l : LogLine) (idxs : List Nat) (hidx : ∀ i ∈ idxs, 0 < i) (ext : Console.Ext F) (interval : Nat)
    (clock : Nat → Int) (stamps : Nat → Str × Str) (w : Int) (tags : TagMap) :
    let out := (FilterRun.run (programmableProcess noTickScript (fun _ => .telemetry fail)) 1 { state := { lua := () } }
      (some (0, .log l) :: idxs.map fun i => some (0, .timerFlush i))).1.sent
    out = .log l :: idxs.map (fun _ => .telemetry fail) ∧
    ∀ sources n h, (SinkRun.steps (consoleImpl ext interval clock stamps) sources n
      { state := some { state := Console.init w tags }, queue := out.map some }).state = some h → h.log = [] := by
  intro out
  have hout : out = .log l :: idxs.map (fun _ => .telemetry fail) := by
    simp only [out, FilterRun.run, Bool.false_eq_true, if_false]
    rw [no_tick_runs fail idxs hidx _ (by simp [FilterRun.step, programmableProcess, noTickScript, runLua])
      (by simp [FilterRun.step, programmableProcess, noTickScript, runLua])]
    simp [FilterRun.step, programmableProcess, noTickScript, runLua]
  refine ⟨hout, fun sources n h hh => unflushed ext interval clock stamps sources n _ ?_ (by simp) ?_ h hh⟩
  · intro e he
    simp only [List.mem_map, Option.some.injEq, exists_eq_right, hout, List.mem_cons] at he
    rcases he with rfl | ⟨_, -, rfl⟩ <;> rfl
  · intro g hg; simp only [Option.some.injEq] at hg; subst hg; rfl

/-! ## An example: two sources, a filter and a console, and a timer that does not stop -/

private def ticking : Config := ⟨[['k']], [(['f'], [['k']])], [], [(['a'], [['f']]), (['b'], [['f']])]⟩

private def tickingExt : Console.Ext Int := { consoleExt with time := fun _ => some ['T'] }

private def tickingSetup : Setup Int where
  wiring := ⟨[(['k'], [['f']])], [(['f'], [['a'], ['b']], [['k']])], [(['a'], [['f']]), (['b'], [['f']])], [['f']]⟩
  filter _ := ⟨_, delayProcess, 10⟩
  sink _ := ⟨_, consoleImpl tickingExt 3 (fun _ => 0) (fun _ => (['1'], ['2'])), some { state := Console.init 1 [] }⟩
  stopOrder := [0, 1]
  joinOrder := [['k'], ['f']]

/-- Two lines, a pulse, and some turns for the filter and the console; and so on for ever. -/
private def tickingLabels (t : Nat) : Label Int :=
  if t % 8 = 0 then .emit 0 (.log (.new 5 ['p'] ['v'])) else if t % 8 = 1 then .emit 1 (.log (.new 6 ['q'] ['w']))
  else if t % 8 = 2 then .pulse (t / 8 + 1) else if t % 8 < 5 then .act ['f'] 0 else .act ['k'] 0

/-- All that `C146_end_to_end`, `C146_flushed_partial` and `C146_console_partial` ask for. -/
example : Distinct ticking ∧ SetUp ticking tickingSetup ∧ (∀ t, tickingLabels t ≠ .signal) ∧ Ticks tickingLabels (fun t => (t + 5) / 8) ∧
    Funnel ticking ['f'] [['f']] ['k'] ∧ (∃ u, Forwards ticking u ['f']) ∧ ['k'] ∈ ticking.sinks ∧ (∀ m ∈ [['f']] ++ [['k']], Busy tickingLabels m) ∧
    (∀ m ∈ [['f']], PassesPulses (tickingSetup.filter m)) ∧ (∀ t, ∀ m ∈ [['f']] ++ [['k']], (run tickingSetup tickingLabels t).lost m = []) ∧
    (∀ t, (tickingExt.time t).isSome) := by
  have hall : ∀ u n, Forwards ticking u n → u = ['f'] ∧ n = ['k'] ∨ (u = ['a'] ∨ u = ['b']) ∧ n = ['f'] := by
    rintro u n ⟨fs, h1, h2⟩
    simp only [ticking, List.mem_append, List.mem_cons, Prod.mk.injEq, List.not_mem_nil, or_false, false_or] at h1
    rcases h1 with ⟨rfl, rfl⟩ | ⟨rfl, rfl⟩ | ⟨rfl, rfl⟩
    · exact .inl ⟨rfl, by simpa using h2⟩
    · exact .inr ⟨.inl rfl, by simpa using h2⟩
    · exact .inr ⟨.inr rfl, by simpa using h2⟩
  refine ⟨by decide, ⟨rfl, by decide, by decide, ?_⟩, ?_, ⟨rfl, ?_, ?_, ?_⟩, ?_, ⟨['a'], [['f']], by decide, by decide⟩, by decide, ?_, ?_, ?_, fun _ => rfl⟩
  · intro n _; exact (C63_filters_proper 10 0 ⟨fun _ => none, fun _ => [], fun _ => []⟩ ⟨false, [], id, 0⟩
      (L := Unit) (fun _ _ q => ((), .ok q)) (fun _ => .timerFlush 0) (fun _ => rfl) (fun _ q => ⟨q, rfl⟩) ⟨(), 0, []⟩).1
  · intro t h; simp only [tickingLabels] at h; split at h
    · cases h
    split at h
    · cases h
    split at h
    · cases h
    split at h <;> cases h
  · intro t idx h
    simp only [tickingLabels] at h
    split at h
    · cases h
    split at h
    · cases h
    split at h
    · injection h with h; constructor <;> omega
    split at h <;> cases h
  · intro t h
    have : t % 8 ≠ 2 := by
      intro h2
      exact h (t / 8 + 1) (by simp [tickingLabels, h2])
    show (t + 1 + 5) / 8 = (t + 5) / 8
    omega
  · intro t; exact ⟨8 * t + 2, by omega, t + 1, by simp only [tickingLabels]; rw [if_neg (by omega), if_neg (by omega), if_pos (by omega)]; congr 1; omega⟩
  · refine .via [] ['f'] ['k'] (.sources (.inr ⟨_, List.mem_singleton.2 rfl⟩) ?_) ⟨[['k']], by decide, by decide⟩ ?_
    · intro u hu; rcases hall u _ hu with ⟨-, h⟩ | ⟨h | h, -⟩
      · exact absurd h (by decide)
      · rw [h]; decide
      · rw [h]; decide
    · intro u hu; rcases hall u _ hu with ⟨h, -⟩ | ⟨-, h⟩
      · exact h
      · exact absurd h (by decide)
  · intro m hm t
    have : m = ['f'] ∨ m = ['k'] := by simpa using hm
    rcases this with rfl | rfl
    · exact ⟨8 * t + 3, by omega, 0, by simp only [tickingLabels]; rw [if_neg (by omega), if_neg (by omega), if_neg (by omega), if_pos (by omega)]⟩
    · exact ⟨8 * t + 5, by omega, 0, by simp only [tickingLabels]; rw [if_neg (by omega), if_neg (by omega), if_neg (by omega), if_neg (by omega)]⟩
  · intro m _
    exact (C146_filters_pass (F := Int) 10 0 ⟨fun _ => none, fun _ => [], fun _ => []⟩ ⟨false, [], id, 0⟩
      (L := Unit) (fun _ _ q => ((), .ok q)) (fun _ => .shutdown) (fun _ => rfl) (fun _ q => ⟨q, rfl⟩) ()).1
  · intro t m _
    rw [lost_settled (Nat.zero_le t) fun k _ => rfl]; rfl

private def flushesOf : Node Int → List Nat
  | .sink _ _ r => flushedBy r.calls
  | _ => []

/-- After some rounds the console has been flushed at the third and the sixth pulse; nobody has told the process to stop. -/
example : ((run tickingSetup tickingLabels 100).nodes ['k']).map (fun nd => (nd.delivered.length, flushesOf nd)) = some (12, [3, 6]) := by decide +kernel

/-- A native sink and an InfluxDB sink whose flushes succeed. -/
example (bits : Native.Bits Int) : Reopens (nativeImpl bits 3 (fun i => List.replicate i false ++ [true, true])) (some { state := { connected := false, tags := [] } }) :=
  C146_native_reopens bits 3 _ (fun i => ⟨_, rfl⟩) false []

end Verif
