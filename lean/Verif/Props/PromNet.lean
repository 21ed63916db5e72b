import Verif.Props.NetSinks
import Verif.Props.Kill
import Verif.Props.ScrapeTotals
import Verif.Props.GraphiteClient
import Verif.Model.PromImpl
import Verif.Spec.PromImpl
/-!
# C156: what a scrape says of a Prometheus sink within the process
-/
namespace Verif
open Net Topology
variable {F : Type} [F64 F]

private theorem promHistory_snoc (age : Option Nat) (clock : Nat → Int) (asked : List (Option (Telemetry F))) (x : Option (Telemetry F)) :
    promHistory age clock (asked ++ [x]) = promHistory age clock asked ++ match x with
      | none => [.purge (clock asked.length)]
      | some t => if youngEnough age (clock asked.length, t) then [.insert t] else [] := by
  simp only [promHistory, List.zipIdx_append, List.flatMap_append, List.zipIdx_cons, List.zipIdx_nil, List.flatMap_cons, List.flatMap_nil, List.append_nil, Nat.zero_add]
  cases x <;> rfl

private def PromInv (p : Scrape.Setup F) (clock : Nat → Int) (s : Option (Hosted (Prometheus.Aggr F) Unit))
    (calls : List (SinkCall F (Option (Hosted (Prometheus.Aggr F) Unit)))) : Prop :=
  (∀ h, s = some h → h.calls = (askedBy calls).length ∧
    Prometheus.run p.ext (Prometheus.Aggr.new p.capacity) (promHistory p.ageThreshold clock (askedBy calls)) = some h.state) ∧
  (s = none → Prometheus.run p.ext (Prometheus.Aggr.new p.capacity) (promHistory p.ageThreshold clock (askedBy calls)) = none)

private theorem prom_flush {p : Scrape.Setup F} {clock : Nat → Int} {s} {calls} (hP : PromInv p clock s calls) {c} (hc : askedBy (F := F) [c] = [none]) :
    PromInv p clock ((prometheusImpl p clock).flush s) (calls ++ [c]) := by
  have ha : askedBy (calls ++ [c]) = askedBy calls ++ [none] := by rw [← hc]; simp [askedBy]
  refine ⟨fun h he => ?_, fun he => ?_⟩
  · simp only [prometheusImpl, Option.map_eq_some_iff] at he
    obtain ⟨g, rfl, rfl⟩ := he
    obtain ⟨h1, h2⟩ := hP.1 g rfl
    rw [ha, promHistory_snoc]
    refine ⟨by simp [h1], ?_⟩
    rw [Prometheus.run_append, h2]
    simp [Prometheus.run, h1]
  · have hn : s = none := by simpa [prometheusImpl] using he
    rw [ha, promHistory_snoc, Prometheus.run_append, hP.2 hn]
    rfl

private theorem prom_deliver {p : Scrape.Setup F} (hage : ∀ a, p.ageThreshold = some a → a < 2 ^ 63) {clock : Nat → Int} {s} {calls} (hP : PromInv p clock s calls)
    (t : Telemetry F) (b) : PromInv p clock ((prometheusImpl p clock).deliver s t) (calls ++ [.deliver b (.telemetry t)]) := by
  have ha : askedBy (calls ++ [.deliver b (.telemetry t)]) = askedBy calls ++ [some t] := by simp [askedBy]
  rw [PromInv, ha, promHistory_snoc, Prometheus.run_append]
  cases s with
  | none =>
    rw [hP.2 rfl]
    exact ⟨fun h he => by simp [prometheusImpl] at he, fun _ => rfl⟩
  | some g =>
  obtain ⟨h1, h2⟩ := hP.1 g rfl
  rw [h2]
  simp only [Option.bind_some, ← h1]
  have hy : Prometheus.deliver p.ext p.ageThreshold (clock g.calls) g.state t =
      if youngEnough p.ageThreshold (clock g.calls, t) = true then (g.state.insert p.ext t).map (·.1) else some g.state := by
    cases hq : p.ageThreshold with
    | none => rfl
    | some age =>
      have : age < 9223372036854775808 := hage age hq
      have hi : ((t.timestamp - clock g.calls).natAbs : Int) ≤ (age : Int) ↔ (t.timestamp - clock g.calls).natAbs ≤ age := by omega
      simp only [Prometheus.deliver, youngEnough, Wavefront.asI64, this, if_true, hi]
      by_cases hz : (t.timestamp - clock g.calls).natAbs ≤ age <;> simp [hz]
  simp only [prometheusImpl, Option.bind_some, hy]
  by_cases hb : youngEnough p.ageThreshold (clock g.calls, t) = true
  · rw [if_pos hb, if_pos hb]
    cases hi : g.state.insert p.ext t with
    | none => simp [Prometheus.run, hi]
    | some x => simp [Prometheus.run, hi, h1]
  · rw [if_neg hb, if_neg hb]
    simp [Prometheus.run, h1]

private theorem prom_other {p : Scrape.Setup F} {clock : Nat → Int} {s} {calls} (hP : PromInv p clock s calls) {c} (hc : askedBy (F := F) [c] = []) :
    PromInv p clock s (calls ++ [c]) := by
  have ha : askedBy (calls ++ [c]) = askedBy calls := by
    have : askedBy (calls ++ [c]) = askedBy calls ++ askedBy [c] := by simp [askedBy]
    rw [this, hc, List.append_nil]
  rw [PromInv, ha]
  exact hP

private theorem prom_steps (p : Scrape.Setup F) (hage : ∀ a, p.ageThreshold = some a → a < 2 ^ 63) (clock : Nat → Int) (sources : Nat) : ∀ (n : Nat)
    (r : SinkRun F (Option (Hosted (Prometheus.Aggr F) Unit))), PromInv p clock r.state r.calls →
    PromInv p clock (r.steps (prometheusImpl p clock) sources n).state (r.steps (prometheusImpl p clock) sources n).calls := by
  intro n
  induction n with
  | zero => intro r h; exact h
  | succ n ih =>
    intro r hP
    refine ih _ ?_
    simp only [SinkRun.step]
    split
    · exact hP
    · split
      · split <;> exact hP
      · rename_i e _
        split
        · cases e with
          | timerFlush idx =>
            simp only [SinkRun.handle]
            split
            · split
              · split
                · exact prom_flush hP rfl
                · exact hP
              · exact hP
            · exact hP
          | telemetry t => exact prom_deliver hage hP t _
          | log l => exact prom_other hP rfl
          | raw l => exact prom_other hP rfl
          | shutdown =>
            simp only [SinkRun.handle]
            split
            · exact prom_flush hP rfl
            · exact hP
        · exact prom_flush hP rfl

/-- As long as the sink has not panicked its valve has not been closed. -/
private theorem prom_open (p : Scrape.Setup F) (clock : Nat → Int) (sources : Nat) : ∀ (n : Nat)
    (r : SinkRun F (Option (Hosted (Prometheus.Aggr F) Unit))), (r.state.isSome = true → ∀ b, .valveFlush b ∉ r.calls) →
    (r.steps (prometheusImpl p clock) sources n).state.isSome = true → ∀ b, .valveFlush b ∉ (r.steps (prometheusImpl p clock) sources n).calls := by
  intro n
  induction n with
  | zero => intro r h; exact h
  | succ n ih =>
    intro r hP
    have hfl : ∀ {s}, ((prometheusImpl p clock).flush s).isSome = true → s.isSome = true := by intro s h; simpa [prometheusImpl] using h
    refine ih _ ?_
    simp only [SinkRun.step]
    split
    · exact hP
    · split
      · split <;> exact hP
      · rename_i e _
        split
        · cases e with
          | timerFlush idx =>
            simp only [SinkRun.handle]
            split
            · split
              · split
                · intro h b; simpa using hP (hfl h) b
                · exact hP
              · exact hP
            · exact hP
          | telemetry t =>
            intro h b
            have : r.state.isSome = true := by
              cases hr : r.state with
              | none => simp [SinkRun.handle, prometheusImpl, hr] at h
              | some _ => rfl
            simpa [SinkRun.handle] using hP this b
          | log l => intro h b; simpa [SinkRun.handle] using hP h b
          | raw l => intro h b; simpa [SinkRun.handle] using hP h b
          | shutdown =>
            simp only [SinkRun.handle]
            split
            · intro h b; simpa using hP (hfl h) b
            · exact hP
        · rename_i hv
          intro h
          exact absurd (hfl h) hv

private theorem points_asked {σ : Type} (calls : List (SinkCall F σ)) : (askedBy calls).filterMap id = pointsIn (deliveredBy calls) := by
  induction calls with
  | nil => rfl
  | cons c calls ih =>
    cases c with
    | deliver b e => cases e <;> simp_all [askedBy, deliveredBy, pointsIn]
    | _ => simp_all [askedBy, deliveredBy, pointsIn]

/-- **C156.**  Whatever the schedule of the process and at any time: the points that a Prometheus sink's queue has accepted are, in order and once each, those the sink has been given and those
that wait; it has been flushed at every tenth pulse among what it has dealt with; and its aggregation is what the history of these makes: each point inserted unless it was too old or too early
when it was given, a purge at each flush.  (Its valve never makes it flush otherwise.)  If the sink has panicked,
this history does make an aggregation panic.  Hence any scrape that is answered then tells this history. -/
theorem C156_history (c : Config) (hd : Distinct c) (p : Net.Setup F) (hp : SetUp c p) (ls : Nat → Label F) (t : Nat) (n : Str) (hn : n ∈ c.sinks)
    (q : Scrape.Setup F) (hage : ∀ a, q.ageThreshold = some a → a < 2 ^ 63) (clock : Nat → Int)
    (hk : p.sink n = ⟨_, prometheusImpl q clock, some { state := Prometheus.Aggr.new q.capacity }⟩) :
    ∃ m r, (run p ls t).nodes n = some (.sink ⟨_, prometheusImpl q clock, some { state := Prometheus.Aggr.new q.capacity }⟩ m r) ∧
      ∃ read, ((run p ls t).log n).map (·.2) = read ++ r.waiting ∧ (askedBy r.calls).filterMap id = pointsIn read ∧
        flushedBy r.calls = (records 0 (pulses read)).filter (dueAt (some 10)) ∧
        (r.state = none → Prometheus.run q.ext (Prometheus.Aggr.new q.capacity) (promHistory q.ageThreshold clock (askedBy r.calls)) = none) ∧
        ∀ h, r.state = some h → (∀ b, .valveFlush b ∉ r.calls) ∧
          Prometheus.run q.ext (Prometheus.Aggr.new q.capacity) (promHistory q.ageThreshold clock (askedBy r.calls)) = some h.state ∧
          ∀ now order text, order.Perm h.state.data → Prometheus.scrape q.ext q.tags q.gzip now false order = some (some text) →
            Scrape.Tells q (promHistory q.ageThreshold clock (askedBy r.calls)) text := by
  obtain ⟨m, r, j, h1, h2⟩ := C123_alone c hd p hp ls t n hn
  obtain ⟨cns, h⟩ := (SinkInv.init (p.sink n).impl (some 10) (p.sink n).start (((run p ls t).log n).map fun x => some x.2)).steps (by rw [hk]; intro s; rfl) m j
  rw [← h2] at h
  have key : ∃ m r, (run p ls t).nodes n = some (.sink (p.sink n) m r) ∧
      (∃ j recv, r = SinkRun.steps (p.sink n).impl m j { state := (p.sink n).start, queue := recv }) ∧
      ∃ read, ((run p ls t).log n).map (·.2) = read ++ r.waiting ∧ deliveredBy r.calls = read.filter Event.isPayload ∧
        flushedBy r.calls = (records 0 (pulses read)).filter (dueAt (some 10)) := by
    refine ⟨m, r, h1, ⟨j, _, h2⟩, cns, ?_, h.delivered, h.flushed⟩
    have hs := h.split
    rw [List.append_assoc] at hs
    rw [SinkRun.waiting, ← hs]
    simp [arrivals, List.filterMap_map, Function.comp_def]
  rw [hk] at key
  obtain ⟨m, r, g1, ⟨j, recv, g2⟩, read, g3, g4, g5⟩ := key
  have hi := prom_steps q hage clock m j { state := some { state := Prometheus.Aggr.new q.capacity }, queue := recv } (by
    refine ⟨fun h he => ?_, fun he => by cases he⟩
    simp only [Option.some.injEq] at he
    subst he
    exact ⟨rfl, rfl⟩)
  rw [← g2] at hi
  refine ⟨m, r, g1, read, g3, by rw [points_asked, g4, pointsIn_payload], g5, hi.2, fun h hh => ?_⟩
  have h2 := (hi.1 h hh).2
  refine ⟨?_, h2, fun now order text ho ht => ⟨h.state, now, order, h2, ho, ht⟩⟩
  rw [g2] at hh ⊢
  exact prom_open q clock m j _ (by simp) (by rw [hh]; rfl)

private theorem history_points (age : Option Nat) (clock : Nat → Int) (name : Str) (asked : List (Option (Telemetry F)))
    (hy : ∀ t ∈ asked.filterMap id, t.name = name → ∀ j, youngEnough age (clock j, t) = true) :
    Prometheus.pointsOf name (promHistory age clock asked) = (asked.filterMap id).filter (fun t => decide (t.name = name)) := by
  suffices H : ∀ (asked : List (Option (Telemetry F))) (i : Nat), (∀ t ∈ asked.filterMap id, t.name = name → ∀ j, youngEnough age (clock j, t) = true) →
      Prometheus.pointsOf name ((asked.zipIdx i).flatMap fun x => match x.1 with
        | none => [.purge (clock x.2)]
        | some t => if youngEnough age (clock x.2, t) then [.insert t] else []) = (asked.filterMap id).filter (fun t => decide (t.name = name)) from H asked 0 hy
  intro asked
  induction asked with
  | nil => intro i _; rfl
  | cons x asked ih =>
    intro i hy
    cases x with
    | none =>
      have := ih (i + 1) (by simpa using hy)
      simpa [List.zipIdx_cons, Prometheus.pointsOf] using this
    | some u =>
      have h1 := ih (i + 1) (fun t ht => hy t (by simp at ht ⊢; exact .inr ht))
      simp only [List.zipIdx_cons, List.flatMap_cons, List.filterMap_cons, id, List.filter_cons, decide_eq_true_eq]
      rw [← h1]
      by_cases hn : u.name = name
      · rw [if_pos (hy u (by simp) hn i)]
        simp [Prometheus.pointsOf, hn]
      · by_cases hb : youngEnough age (clock i, u) = true
        · rw [if_pos hb]
          simp [Prometheus.pointsOf, hn]
        · rw [if_neg hb]
          simp [hn]

private theorem history_inserts (age : Option Nat) (clock : Nat → Int) (asked : List (Option (Telemetry F))) :
    (promHistory age clock asked).length ≤ asked.length ∧ ∀ t, .insert t ∈ promHistory age clock asked → t ∈ asked.filterMap id := by
  suffices H : ∀ (asked : List (Option (Telemetry F))) (i : Nat),
      let ops : List (Prometheus.Op F) := (asked.zipIdx i).flatMap fun x => match x.1 with
        | none => [.purge (clock x.2)]
        | some t => if youngEnough age (clock x.2, t) then [.insert t] else []
      ops.length ≤ asked.length ∧ ∀ t, .insert t ∈ ops → t ∈ asked.filterMap id from H asked 0
  intro asked
  induction asked with
  | nil => intro i; exact ⟨by simp, by simp⟩
  | cons x asked ih =>
    intro i
    obtain ⟨h2, h3⟩ := ih (i + 1)
    cases x with
    | none =>
      refine ⟨by simpa [List.zipIdx_cons] using h2, fun t ht => ?_⟩
      simp only [List.zipIdx_cons, List.flatMap_cons, List.cons_append, List.nil_append, List.mem_cons, reduceCtorEq, false_or] at ht
      simpa using h3 t ht
    | some u =>
      simp only [List.zipIdx_cons, List.flatMap_cons, List.filterMap_cons, id, List.length_append, List.mem_append, List.length_cons, List.mem_cons]
      refine ⟨?_, fun t ht => ?_⟩
      · have : (if youngEnough age (clock i, u) = true then [Prometheus.Op.insert u] else []).length ≤ 1 := by split <;> simp
        have := h2
        omega
      · rcases ht with ht | ht
        · split at ht
          · exact .inl (by simpa using ht)
          · simp at ht
        · exact .inr (h3 t ht)

private theorem plain_run (ext : Prometheus.Ext F) : ∀ (ops : List (Prometheus.Op F)) (a : Prometheus.Aggr F), (∀ t, .insert t ∈ ops → t.kind ≠ .summarize) →
    Prometheus.run ext a ops ≠ none := by
  intro ops
  induction ops with
  | nil => intro a _ h; simp [Prometheus.run] at h
  | cons op ops ih =>
    intro a h
    have h' : ∀ t, .insert t ∈ ops → t.kind ≠ .summarize := fun t ht => h t (by simp [ht])
    cases op with
    | purge now => exact ih _ h'
    | insert t =>
      have hk := h t (by simp)
      have hi : a.insert ext t ≠ none := by
        simp only [Prometheus.Aggr.insert]
        cases hf : Prometheus.find a.data t.name with
        | none =>
          cases hkk : t.kind <;> simp_all [Prometheus.first]
        | some prev =>
          cases prev with
          | perpetual u => by_cases hu : u.kind = t.kind <;> simp [Prometheus.Acc.kind, hu, Prometheus.Acc.insert]
          | windowed cap sum count samples =>
            have : ¬ Kind.summarize = t.kind := fun e => hk e.symm
            simp [Prometheus.Acc.kind, this]
      simp only [Prometheus.run]
      cases hx : a.insert ext t with
      | none => exact absurd hx hi
      | some x => exact ih _ h'

/-- The windows hold no more samples than they may. -/
private def Sturdy (cap : Nat) (a : Prometheus.Aggr F) : Prop :=
  a.capacity = cap ∧ ∀ n c sum count samples, Prometheus.find a.data n = some (.windowed c sum count samples) → c = cap ∧ samples.length ≤ c

private theorem sturdy_insert (ext : Prometheus.Ext F) {cap : Nat} (hc : 1 ≤ cap) {a : Prometheus.Aggr F} (ha : Sturdy cap a) (t : Telemetry F)
    (ht : t.kind = .summarize → ∃ v, Prometheus.top t v) : ∃ a' b, a.insert ext t = some (a', b) ∧ Sturdy cap a' := by
  obtain ⟨hcap, hw⟩ := ha
  have put : ∀ acc, (∀ c sum count samples, acc = .windowed c sum count samples → c = cap ∧ samples.length ≤ c) →
      Sturdy cap { a with data := Prometheus.put a.data t.name acc } := by
    intro acc hacc
    refine ⟨hcap, fun n c sum count samples hf => ?_⟩
    simp only [Prometheus.find_put] at hf
    split at hf
    · exact hacc c sum count samples (Option.some.inj hf)
    · exact hw n c sum count samples hf
  simp only [Prometheus.Aggr.insert]
  cases hf : Prometheus.find a.data t.name with
  | none =>
    cases hk : t.kind with
    | summarize =>
      obtain ⟨v, hv⟩ := ht hk
      have hv : t.query (F64.ofNat 1) = some v := hv
      refine ⟨_, _, by simp only [Prometheus.first, hk, hv]; exact rfl, put _ ?_⟩
      rintro c sum count samples ⟨⟩
      exact ⟨hcap, by rw [hcap]; exact hc⟩
    | _ =>
      refine ⟨_, _, by simp only [Prometheus.first, hk]; exact rfl, put _ ?_⟩
      rintro c sum count samples ⟨⟩
  | some prev =>
    simp only
    by_cases hk : prev.kind = t.kind
    · rw [if_pos hk]
      cases prev with
      | perpetual u =>
        refine ⟨_, _, rfl, put _ ?_⟩
        rintro c sum count samples ⟨⟩
      | windowed c sum count samples =>
        obtain ⟨rfl, hlen⟩ := hw _ _ _ _ _ hf
        have hks : t.kind = .summarize := hk.symm
        obtain ⟨v, hv⟩ := ht hks
        have hv : t.query (F64.ofNat 1) = some v := hv
        have hb := bsearch_bounds (fun probe : Telemetry F => compare probe.timestamp t.timestamp) samples
        simp only [Prometheus.Acc.insert, hks, ne_eq, not_true_eq_false, if_false, hv]
        cases hs : bsearch (fun probe : Telemetry F => compare probe.timestamp t.timestamp) samples with
        | ok i =>
          rw [hs] at hb
          simp only [List.getElem?_eq_getElem hb, List.length_set, hlen, if_true]
          refine ⟨_, _, rfl, put _ ?_⟩
          rintro c' sum' count' samples' ⟨⟩
          exact ⟨rfl, by simpa using hlen⟩
        | err i =>
          have hl : (if (samples.insertIdx i t).length > c then (samples.insertIdx i t).drop ((samples.insertIdx i t).length - c) else samples.insertIdx i t).length ≤ c := by
            split
            · rw [List.length_drop]; omega
            · omega
          simp only [hl, if_true]
          refine ⟨_, _, rfl, put _ ?_⟩
          rintro c' sum' count' samples' ⟨⟩
          exact ⟨rfl, hl⟩
    · rw [if_neg hk]
      exact ⟨a, false, rfl, hcap, hw⟩

private theorem sturdy_run (ext : Prometheus.Ext F) {cap : Nat} (hc : 1 ≤ cap) : ∀ (ops : List (Prometheus.Op F)) (a : Prometheus.Aggr F), Sturdy cap a → GoodOps ops →
    Prometheus.run ext a ops ≠ none := by
  intro ops
  induction ops with
  | nil => intro a _ _ h; simp [Prometheus.run] at h
  | cons op ops ih =>
    intro a ha h
    have h' : GoodOps ops := fun t ht => h t (by simp [ht])
    cases op with
    | purge now =>
      refine ih _ ⟨ha.1, fun n c sum count samples hf => ?_⟩ h'
      simp only [Prometheus.Aggr.purge, Prometheus.find_map (fun x => (Prometheus.Acc.purge now x).1), Option.map_eq_some_iff] at hf
      obtain ⟨acc, h1, h2⟩ := hf
      cases acc with
      | perpetual u => simp [Prometheus.Acc.purge] at h2
      | windowed c' sum' count' samples' =>
        simp only [Prometheus.Acc.purge, Prometheus.Acc.windowed.injEq] at h2
        obtain ⟨rfl, rfl, rfl, rfl⟩ := h2
        obtain ⟨g1, g2⟩ := ha.2 _ _ _ _ _ h1
        exact ⟨g1, Nat.le_trans (List.length_filter_le _ _) g2⟩
    | insert t =>
      obtain ⟨a', b, h1, h2⟩ := sturdy_insert ext hc ha t (h t (by simp))
      simp only [Prometheus.run, h1]
      exact ih a' h2 h'

/-- **C156 (health).**  A Prometheus sink in the process has not panicked at a time by which its queue has accepted no summaries; nor if its window is at least a second and no summary among what it has
accepted is empty. -/
theorem C156_healthy (c : Config) (hd : Distinct c) (p : Net.Setup F) (hp : SetUp c p) (ls : Nat → Label F) (t : Nat) (n : Str) (hn : n ∈ c.sinks)
    (q : Scrape.Setup F) (hage : ∀ a, q.ageThreshold = some a → a < 2 ^ 63) (clock : Nat → Int)
    (hk : p.sink n = ⟨_, prometheusImpl q clock, some { state := Prometheus.Aggr.new q.capacity }⟩) :
    ∃ m r, (run p ls t).nodes n = some (.sink ⟨_, prometheusImpl q clock, some { state := Prometheus.Aggr.new q.capacity }⟩ m r) ∧
      ((∀ u ∈ pointsIn (((run p ls t).log n).map (·.2)), u.kind ≠ .summarize) → r.state.isSome = true) ∧
      (1 ≤ q.capacity → (∀ u ∈ pointsIn (((run p ls t).log n).map (·.2)), u.kind = .summarize → ∃ v, Prometheus.top u v) →
        r.state.isSome = true) := by
  obtain ⟨m, r, h1, read, h2, h3, -, h4, -⟩ := C156_history c hd p hp ls t n hn q hage clock hk
  obtain ⟨p2, p3⟩ := history_inserts q.ageThreshold clock (askedBy r.calls)
  have hin : ∀ u, .insert u ∈ promHistory q.ageThreshold clock (askedBy r.calls) → u ∈ pointsIn (((run p ls t).log n).map (·.2)) := by
    intro u hu
    have := p3 u hu
    rw [h3] at this
    rw [h2, pointsIn, List.filterMap_append]
    exact List.mem_append_left _ this
  have hdead : Prometheus.run q.ext (Prometheus.Aggr.new q.capacity) (promHistory q.ageThreshold clock (askedBy r.calls)) ≠ none → r.state.isSome = true := by
    intro h
    cases hr : r.state with
    | none => exact absurd (h4 hr) h
    | some _ => rfl
  refine ⟨m, r, h1, fun hu => hdead (plain_run _ _ _ fun u hi => hu u (hin u hi)), fun hcap hu => hdead (sturdy_run _ hcap _ _ ⟨rfl, ?_⟩ fun u hi => hu u (hin u hi))⟩
  intro n c sum count samples hf
  simp [Prometheus.Aggr.new, Prometheus.find] at hf

/-- **C156 (the valve).**  If the window is at least a second and no summary the sink's queue ever accepts is empty, the sink's valve is open whenever the sink looks: its thread never stops reading, and what is said of sinks
whose valve reopens (C92, C146) holds of it. -/
theorem C156_reopens (c : Config) (hd : Distinct c) (p : Net.Setup F) (hp : SetUp c p) (ls : Nat → Label F) (n : Str) (hn : n ∈ c.sinks)
    (q : Scrape.Setup F) (hage : ∀ a, q.ageThreshold = some a → a < 2 ^ 63) (hcap : 1 ≤ q.capacity) (clock : Nat → Int)
    (hk : p.sink n = ⟨_, prometheusImpl q clock, some { state := Prometheus.Aggr.new q.capacity }⟩)
    (hgood : ∀ t, ∀ u ∈ pointsIn (((run p ls t).log n).map (·.2)), u.kind = .summarize → ∃ v, Prometheus.top u v) :
    ValveReopens p ls n ∧ ∀ t m r, (run p ls t).nodes n = some (.sink ⟨_, prometheusImpl q clock, some { state := Prometheus.Aggr.new q.capacity }⟩ m r) → r.state.isSome = true := by
  have hok : ∀ t m r, (run p ls t).nodes n = some (.sink ⟨_, prometheusImpl q clock, some { state := Prometheus.Aggr.new q.capacity }⟩ m r) → r.state.isSome = true := by
    intro t m r hr
    obtain ⟨m', r', h1, -, h2⟩ := C156_healthy c hd p hp ls t n hn q hage clock hk
    rw [hr] at h1
    cases h1
    exact h2 hcap (hgood t)
  refine ⟨?_, hok⟩
  rw [ValveReopens, hk]
  exact fun t m r hr => ⟨0, hok t m r hr⟩

/-- **C156 (counters).**  A Prometheus sink in the process, at any time.  `dealt` are the points it has been
given: those its queue has accepted but for those that still wait.  If those of a name
are counters without tags, never further off the sink's clock than the sink allows, any scrape that is answered then has a sample of that name, with the sink's tags and their sum, declared as a counter; and no other line of that
name unless another name is cleaned up to it. -/
theorem C156_counter (c : Config) (hd : Distinct c) (p : Net.Setup F) (hp : SetUp c p) (ls : Nat → Label F) (t : Nat) (n : Str) (hn : n ∈ c.sinks)
    (q : Scrape.Setup F) (hage : ∀ a, q.ageThreshold = some a → a < 2 ^ 63) (hcap : 1 ≤ q.capacity) (clock : Nat → Int)
    (hk : p.sink n = ⟨_, prometheusImpl q clock, some { state := Prometheus.Aggr.new q.capacity }⟩) :
    ∃ m r, (run p ls t).nodes n = some (.sink ⟨_, prometheusImpl q clock, some { state := Prometheus.Aggr.new q.capacity }⟩ m r) ∧
      ∃ dealt, pointsIn (((run p ls t).log n).map (·.2)) = dealt ++ pointsIn r.waiting ∧ pointsIn (deliveredBy r.calls) = dealt ∧
        ∀ h, r.state = some h → r.calls.length < 2 ^ 64 - 1 → (∀ u ∈ dealt, u.kind = .summarize → ∃ v, Prometheus.top u v) →
          ∀ name x0 xs, (dealt.filter fun u => decide (u.name = name)).map (·.value) = (x0 :: xs).map .sum → (∀ u ∈ dealt, u.name = name → u.tags = none ∧ ∀ j, youngEnough q.ageThreshold (clock j, u) = true) →
          ∀ now order text, order.Perm h.state.data → Prometheus.scrape q.ext q.tags q.gzip now false order = some (some text) →
            .sample (Prometheus.sanitize name) q.tags (.real (xs.foldl F64.add x0)) ∈ text ∧
            "counter".toList ∈ Prometheus.typeLines (Prometheus.sanitize name) text ∧
            ((∀ u ∈ dealt, u.name ≠ name → ¬ Prometheus.Clash u.name name) → Prometheus.samplesNamed (Prometheus.sanitize name) text = [(q.tags, .real (xs.foldl F64.add x0))]) := by
  obtain ⟨m, r, h1, read, h2, h3, -, -, h4⟩ := C156_history c hd p hp ls t n hn q hage clock hk
  refine ⟨m, r, h1, pointsIn read, ?_, by rw [← points_asked, h3], ?_⟩
  · rw [h2]; simp [pointsIn, List.filterMap_append]
  · intro h hh hlen hgood name x0 xs hx htags now order text ho ht
    have htell := (h4 h hh).2.2 now order text ho ht
    have p1 := history_points q.ageThreshold clock name (askedBy r.calls) (by rw [h3]; exact fun u hu he => (htags u hu he).2)
    obtain ⟨p2, p3⟩ := history_inserts q.ageThreshold clock (askedBy r.calls)
    rw [h3] at p1
    have hle : (askedBy r.calls).length ≤ r.calls.length := List.length_filterMap_le _ _
    have := C113_sink q hcap _ (fun u hu hku => hgood u (by rw [← h3]; exact p3 u hu) hku) (by omega) name x0 xs (by rw [p1]; exact hx) (by
        intro u hu
        rw [p1] at hu
        obtain ⟨m1, m2⟩ := List.mem_filter.1 hu
        exact (htags u m1 (by simpa using m2)).1) text htell
    exact ⟨this.1, this.2.1, fun hcl => this.2.2 fun u hu => hcl u (by rw [← h3]; exact p3 u hu)⟩

/-- **C156 (gauges).**  The same if the points of a name are absolute gauges without tags: the sample is the last of them. -/
theorem C156_gauge (c : Config) (hd : Distinct c) (p : Net.Setup F) (hp : SetUp c p) (ls : Nat → Label F) (t : Nat) (n : Str) (hn : n ∈ c.sinks)
    (q : Scrape.Setup F) (hage : ∀ a, q.ageThreshold = some a → a < 2 ^ 63) (hcap : 1 ≤ q.capacity) (clock : Nat → Int)
    (hk : p.sink n = ⟨_, prometheusImpl q clock, some { state := Prometheus.Aggr.new q.capacity }⟩) :
    ∃ m r, (run p ls t).nodes n = some (.sink ⟨_, prometheusImpl q clock, some { state := Prometheus.Aggr.new q.capacity }⟩ m r) ∧
      ∃ dealt, pointsIn (((run p ls t).log n).map (·.2)) = dealt ++ pointsIn r.waiting ∧ pointsIn (deliveredBy r.calls) = dealt ∧
        ∀ h, r.state = some h → r.calls.length < 2 ^ 64 - 1 → (∀ u ∈ dealt, u.kind = .summarize → ∃ v, Prometheus.top u v) →
          ∀ name xs x, (dealt.filter fun u => decide (u.name = name)).map (·.value) = (xs ++ [x]).map .set → (∀ u ∈ dealt, u.name = name → u.tags = none ∧ ∀ j, youngEnough q.ageThreshold (clock j, u) = true) →
          ∀ now order text, order.Perm h.state.data → Prometheus.scrape q.ext q.tags q.gzip now false order = some (some text) →
            .sample (Prometheus.sanitize name) q.tags (.real x) ∈ text ∧
            "gauge".toList ∈ Prometheus.typeLines (Prometheus.sanitize name) text ∧
            ((∀ u ∈ dealt, u.name ≠ name → ¬ Prometheus.Clash u.name name) → Prometheus.samplesNamed (Prometheus.sanitize name) text = [(q.tags, .real x)]) := by
  obtain ⟨m, r, h1, read, h2, h3, -, -, h4⟩ := C156_history c hd p hp ls t n hn q hage clock hk
  refine ⟨m, r, h1, pointsIn read, ?_, by rw [← points_asked, h3], ?_⟩
  · rw [h2]; simp [pointsIn, List.filterMap_append]
  · intro h hh hlen hgood name xs x hx htags now order text ho ht
    have htell := (h4 h hh).2.2 now order text ho ht
    have p1' := history_points q.ageThreshold clock name (askedBy r.calls) (by rw [h3]; exact fun u hu he => (htags u hu he).2)
    obtain ⟨p2, p3⟩ := history_inserts q.ageThreshold clock (askedBy r.calls)
    rw [h3] at p1'
    have hle : (askedBy r.calls).length ≤ r.calls.length := List.length_filterMap_le _ _
    cases hl : (pointsIn read).filter (fun u => decide (u.name = name)) with
    | nil => rw [hl] at hx; simp at hx
    | cons t0 us =>
      rw [hl] at hx p1'
      have hset : ∀ u ∈ t0 :: us, ∃ v, u.value = .set v := by
        intro u hu
        have := List.mem_map_of_mem (f := (·.value)) hu
        rw [hx] at this
        obtain ⟨v, -, hv⟩ := List.mem_map.1 this
        exact ⟨v, hv.symm⟩
      have hkind : ∀ u ∈ t0 :: us, u.kind = .set := by
        intro u hu
        obtain ⟨v, hv⟩ := hset u hu
        simp [Telemetry.kind, hv, Value.kind]
      have hk0 := hkind t0 (by simp)
      have hus : us.filter (fun u => decide (u.kind = t0.kind)) = us :=
        List.filter_eq_self.2 fun u hu => by simp [hkind u (by simp [hu]), hk0]
      have hval : (us.foldl Telemetry.addAssign t0).value = .set x := by
        obtain ⟨x0, hx0⟩ := hset t0 (by simp)
        cases xs with
        | nil =>
          simp only [List.map_cons, List.nil_append, List.map_nil, List.cons.injEq, List.map_eq_nil_iff] at hx
          obtain ⟨e1, rfl⟩ := hx
          exact e1
        | cons y ys =>
          simp only [List.map_cons, List.cons_append, List.cons.injEq] at hx
          have := (C75_totals t0 us).2 y (ys ++ [x]) hx.1 hx.2
          have e : (y :: (ys ++ [x])).getLast (List.cons_ne_nil _ _) = x := Option.some.inj (by rw [← List.getLast?_eq_some_getLast, ← List.cons_append, List.getLast?_concat])
          rw [e] at this
          cases hv : (us.foldl Telemetry.addAssign t0).value <;> simp_all [Telemetry.set]
      have h0 : t0.name = name ∧ t0 ∈ pointsIn read := by
        have : t0 ∈ (pointsIn read).filter fun u => decide (u.name = name) := by rw [hl]; simp
        obtain ⟨m1, m2⟩ := List.mem_filter.1 this
        exact ⟨by simpa using m2, m1⟩
      have := scrape_shows q hcap _ (fun u hu hku => hgood u (by rw [← h3]; exact p3 u hu) hku) (by omega) name t0 us p1' (htags t0 h0.2 h0.1).1 x
        (.inl (by rw [hus]; exact hval)) (.inl hk0) text htell
      rw [hk0] at this
      exact ⟨this.1, this.2.1, fun hcl => this.2.2 fun u hu => hcl u (by rw [← h3]; exact p3 u hu)⟩

/-- **C156 (from a source).**  A source alone feeds a Prometheus sink directly.  At any time, if the points of a name the source has sent are counters without tags, then what
a scrape shows of it is the sum, in order and once each, of what the source has sent but for what the sink's queue was too full for and what is still waiting there. -/
theorem C156_source (c : Config) (hd : Distinct c) (p : Net.Setup F) (hp : SetUp c p) (ls : Nat → Label F) (t : Nat) (s : Str) (i : Nat) (chans : List Str)
    (hs : p.wiring.sources[i]? = some (s, chans)) (n : Str) (hn : n ∈ c.sinks) (honly : Only c s [] n)
    (q : Scrape.Setup F) (hage : ∀ a, q.ageThreshold = some a → a < 2 ^ 63) (hcap : 1 ≤ q.capacity) (clock : Nat → Int)
    (hk : p.sink n = ⟨_, prometheusImpl q clock, some { state := Prometheus.Aggr.new q.capacity }⟩) :
    ∃ kept dropped, Parted kept dropped (sourceSent p ls i t) ∧ dropped.Sublist (((run p ls t).lost n).map (·.2)) ∧
      ∃ m r, (run p ls t).nodes n = some (.sink ⟨_, prometheusImpl q clock, some { state := Prometheus.Aggr.new q.capacity }⟩ m r) ∧
        ∃ dealt, pointsIn kept = dealt ++ pointsIn r.waiting ∧
          ∀ h, r.state = some h → r.calls.length < 2 ^ 64 - 1 → (∀ u ∈ dealt, u.kind = .summarize → ∃ v, Prometheus.top u v) →
            ∀ name x0 xs, (dealt.filter fun u => decide (u.name = name)).map (·.value) = (x0 :: xs).map .sum → (∀ u ∈ dealt, u.name = name → u.tags = none ∧ ∀ j, youngEnough q.ageThreshold (clock j, u) = true) →
            ∀ now order text, order.Perm h.state.data → Prometheus.scrape q.ext q.tags q.gzip now false order = some (some text) →
              .sample (Prometheus.sanitize name) q.tags (.real (xs.foldl F64.add x0)) ∈ text ∧
              "counter".toList ∈ Prometheus.typeLines (Prometheus.sanitize name) text ∧
              ((∀ u ∈ dealt, u.name ≠ name → ¬ Prometheus.Clash u.name name) → Prometheus.samplesNamed (Prometheus.sanitize name) text = [(q.tags, .real (xs.foldl F64.add x0))]) := by
  obtain ⟨kept, dropped, h1, h2, h3⟩ := direct_source c hd p hp ls t s i chans hs n hn honly selPoint (by intro e he; cases e <;> simp_all [Pipeline.notPulse, Event.isTimerFlush, selPoint])
  obtain ⟨m, r, g1, dealt, g2, -, g3⟩ := C156_counter c hd p hp ls t n hn q hage hcap clock hk
  refine ⟨kept, dropped, h1, h2, m, r, g1, dealt, ?_, g3⟩
  rw [← g2, points_sel kept, ← h3, points_sel]

/-- **C156 (statsd clients).**  A statsd source alone feeds a Prometheus sink directly, and the sink's queue has never been full.  At any time, if the clients have reported
a name as a counter, a scrape shows it as the sum of the numbers reported, in order and once each, but for the last ones: exactly as many as are waiting in the sink's queue. -/
theorem C156_statsd (c : Config) (hd : Distinct c) (p : Net.Setup F) (hp : SetUp c p) (ls : Nat → Label F) (t : Nat) (s : Str) (i : Nat) (chans : List Str)
    (hs : p.wiring.sources[i]? = some (s, chans)) (n : Str) (hn : n ∈ c.sinks) (honly : Only c s [] n) (hroom : (run p ls t).lost n = [])
    (cfg : Statsd.Config F) (hu : cfg.Usable) (ha : cfg.AsciiNumbers) (name : Str) (packets : List (Statsd.Datagram × List Statsd.Reading))
    (hcar : ∀ p ∈ packets, Statsd.Carries cfg p.1 p.2) (hc : ∀ p ∈ packets, ∀ r ∈ p.2, r.name = name → r.ty = .counter)
    (hsrc : pointsIn (sourceSent p ls i t) = (Statsd.handleDatagrams cfg (packets.map Prod.fst) []).1)
    (hgood : ∀ u ∈ pointsIn (sourceSent p ls i t), u.kind = .summarize → ∃ v, Prometheus.top u v)
    (q : Scrape.Setup F) (hage : ∀ a, q.ageThreshold = some a → a < 2 ^ 63) (hcap : 1 ≤ q.capacity) (clock : Nat → Int)
    (hyoung : ∀ u ∈ pointsIn (sourceSent p ls i t), u.name = name → ∀ j, youngEnough q.ageThreshold (clock j, u) = true)
    (hk : p.sink n = ⟨_, prometheusImpl q clock, some { state := Prometheus.Aggr.new q.capacity }⟩) :
    ∃ m r, (run p ls t).nodes n = some (.sink ⟨_, prometheusImpl q clock, some { state := Prometheus.Aggr.new q.capacity }⟩ m r) ∧
      ∃ k, k + ((pointsIn r.waiting).filter fun u => decide (u.name = name)).length = (Statsd.numbersOf cfg name (packets.flatMap Prod.snd)).length ∧
        ∀ h, r.state = some h → r.calls.length < 2 ^ 64 - 1 →
          ∀ x0 xs, (Statsd.numbersOf cfg name (packets.flatMap Prod.snd)).take k = x0 :: xs →
          ∀ now order text, order.Perm h.state.data → Prometheus.scrape q.ext q.tags q.gzip now false order = some (some text) →
            .sample (Prometheus.sanitize name) q.tags (.real (xs.foldl F64.add x0)) ∈ text ∧
            "counter".toList ∈ Prometheus.typeLines (Prometheus.sanitize name) text ∧
            ((∀ u ∈ pointsIn (sourceSent p ls i t), u.name ≠ name → ¬ Prometheus.Clash u.name name) →
              Prometheus.samplesNamed (Prometheus.sanitize name) text = [(q.tags, .real (xs.foldl F64.add x0))]) := by
  obtain ⟨kept, dropped, h1, h2, m, r, g1, dealt, g2, g3⟩ := C156_source c hd p hp ls t s i chans hs n hn honly q hage hcap clock hk
  rw [hroom] at h2
  obtain rfl : dropped = [] := List.sublist_nil.1 h2
  obtain rfl := h1.none_dropped
  obtain ⟨sent, s1, s2, s3⟩ := C113_source cfg hu ha name packets hcar hc
  have hsent : pointsIn (sourceSent p ls i t) = sent := by rw [hsrc, s1]
  rw [hsent] at g2 hgood hyoung
  have hsub : ∀ u ∈ dealt, u ∈ sent := fun u hu => by rw [g2]; exact List.mem_append_left _ hu
  rw [g2, List.filter_append, List.map_append] at s2
  have hlen : ((dealt.filter fun u => decide (u.name = name)).map (·.value)).length + ((pointsIn r.waiting).filter fun u => decide (u.name = name)).length =
      (Statsd.numbersOf cfg name (packets.flatMap Prod.snd)).length := by
    have := congrArg List.length s2
    simpa using this
  refine ⟨m, r, g1, _, hlen, fun h hh hcalls x0 xs hx now order text ho ht => ?_⟩
  have := g3 h hh hcalls (fun u hu => hgood u (hsub u hu)) name x0 xs (by
    rw [← hx, List.map_take, ← s2, List.take_left]) (fun u hu he => ⟨s3 u (hsub u hu), hyoung u (hsub u hu) he⟩) now order text ho ht
  exact ⟨this.1, this.2.1, fun hcl => this.2.2 fun u hu => hcl u (by rw [hsent]; exact hsub u hu)⟩

/-- **C156 (a graphite client).**  A graphite source with one client alone feeds a Prometheus sink directly, and the sink's queue has never been full.  The client writes lines of readings; however
its bytes are cut and whatever the schedules of the connection and the process, the sink has not panicked, and a scrape shows a name as the number last written for it on the lines the source has
taken but for the last readings of that name: exactly as many as are waiting in the sink's queue. -/
theorem C156_graphite (c : Config) (hd : Distinct c) (p : Net.Setup F) (hp : SetUp c p) (ls : Nat → Label F) (t : Nat) (s : Str) (i : Nat) (chans : List Str)
    (hs : p.wiring.sources[i]? = some (s, chans)) (n : Str) (hn : n ∈ c.sinks) (honly : Only c s [] n) (hroom : (run p ls t).lost n = [])
    (ext : Graphite.Ext F) (time : Int) (lines : List (Str × List Graphite.Triple)) (hl : ∀ l ∈ lines, Graphite.AsciiLine l.1 ∧ Graphite.Says ext l.1 l.2)
    (wakes : List Stream.Label) (conn : Stream.State (Bytes × Bytes)) (hr : Stream.run Stream.graphite (Stream.init Stream.graphite {}) wakes = some conn)
    (hsend : Graphite.Sending (lines.map Prod.fst) wakes conn.sock) (taken : List Str) (pts : List (Telemetry F)) (hc : conn.taken = taken.map Graphite.utf8)
    (hpts : Graphite.handleLines ext time taken [] = some (pts, [])) (hsrc : pointsIn (sourceSent p ls i t) = pts) (name : Str)
    (q : Scrape.Setup F) (hage : ∀ a, q.ageThreshold = some a → a < 2 ^ 63) (hcap : 1 ≤ q.capacity) (clock : Nat → Int)
    (hyoung : ∀ u ∈ pts, u.name = name → ∀ j, youngEnough q.ageThreshold (clock j, u) = true)
    (hk : p.sink n = ⟨_, prometheusImpl q clock, some { state := Prometheus.Aggr.new q.capacity }⟩) :
    ∃ m r h, (run p ls t).nodes n = some (.sink ⟨_, prometheusImpl q clock, some { state := Prometheus.Aggr.new q.capacity }⟩ m r) ∧ r.state = some h ∧
      taken = (lines.map Prod.fst).take taken.length ∧
      ∃ k, k + ((pointsIn r.waiting).filter fun u => decide (u.name = name)).length = (Graphite.numbersOf ext name ((lines.take taken.length).flatMap Prod.snd)).length ∧
        (r.calls.length < 2 ^ 64 - 1 →
          ∀ x, ((Graphite.numbersOf ext name (lines.flatMap Prod.snd)).take k).getLast? = some x →
          ∀ now order text, order.Perm h.state.data → Prometheus.scrape q.ext q.tags q.gzip now false order = some (some text) →
            .sample (Prometheus.sanitize name) q.tags (.real x) ∈ text ∧
            "gauge".toList ∈ Prometheus.typeLines (Prometheus.sanitize name) text ∧
            ((∀ u ∈ pts, u.name ≠ name → ¬ Prometheus.Clash u.name name) →
              Prometheus.samplesNamed (Prometheus.sanitize name) text = [(q.tags, .real x)])) := by
  obtain ⟨kept, dropped, h1, h2, h3⟩ := direct_source c hd p hp ls t s i chans hs n hn honly selPoint (by intro e he; cases e <;> simp_all [Pipeline.notPulse, Event.isTimerFlush, selPoint])
  rw [hroom] at h2
  obtain rfl : dropped = [] := List.sublist_nil.1 h2
  obtain rfl := h1.none_dropped
  rw [← points_sel, ← points_sel, hsrc] at h3
  -- what the source took and sent
  obtain ⟨w, hw, hlines, -, -⟩ := C136_lines (lines.map Prod.fst) (fun l h => by obtain ⟨x, hx, rfl⟩ := List.mem_map.1 h; exact (hl x hx).1) wakes conn hr hsend
  have htaken : taken = (lines.map Prod.fst).take w := Graphite.map_utf8_inj (hc.symm.trans hlines)
  rw [List.length_map] at hw
  have hwl : taken.length = w := by rw [htaken]; simp; omega
  obtain ⟨pts', t2, t3⟩ := Graphite.points_of ext time (lines.take w) (fun l h => (hl l (List.mem_of_mem_take h)).2)
  rw [List.map_take, ← htaken, hpts, Option.some.injEq, Prod.mk.injEq] at t2
  obtain ⟨rfl, -⟩ := t2
  obtain ⟨v1, v2⟩ := Graphite.numbers_of_points ext name _ pts t3
  have hset : ∀ u ∈ pts, u.kind = .set := by
    intro u hu
    have := List.mem_map_of_mem (f := (·.value)) (List.mem_filter.2 ⟨hu, by simp⟩ : u ∈ pts.filter fun t => t.name = u.name)
    rw [(Graphite.numbers_of_points ext u.name _ pts t3).1] at this
    obtain ⟨v, -, hv⟩ := List.mem_map.1 this
    simp [Telemetry.kind, ← hv, Value.kind]
  obtain ⟨m, r, g1, dealt, g2, -, g3⟩ := C156_gauge c hd p hp ls t n hn q hage hcap clock hk
  obtain ⟨m', r', f1, f2, -⟩ := C156_healthy c hd p hp ls t n hn q hage clock hk
  rw [g1] at f1
  cases f1
  obtain ⟨h, hh⟩ := Option.isSome_iff_exists.1 (f2 (by rw [h3]; intro u hu; rw [hset u hu]; simp))
  rw [h3] at g2
  have hsub : ∀ u ∈ dealt, u ∈ pts := fun u hu => by rw [g2]; exact List.mem_append_left _ hu
  rw [g2, List.filter_append, List.map_append] at v1
  have hlen : ((dealt.filter fun u => decide (u.name = name)).map (·.value)).length + ((pointsIn r.waiting).filter fun u => decide (u.name = name)).length =
      (Graphite.numbersOf ext name ((lines.take w).flatMap Prod.snd)).length := by
    have := congrArg List.length v1
    simpa using this
  refine ⟨m, r, h, g1, hh, by rw [hwl]; exact htaken, _, by rw [hwl]; exact hlen, fun hcalls x hx now order text ho ht => ?_⟩
  have hpre : (Graphite.numbersOf ext name (lines.flatMap Prod.snd)).take ((dealt.filter fun u => decide (u.name = name)).map (·.value)).length =
      (Graphite.numbersOf ext name ((lines.take w).flatMap Prod.snd)).take ((dealt.filter fun u => decide (u.name = name)).map (·.value)).length := by
    have : Graphite.numbersOf ext name (lines.flatMap Prod.snd) =
        Graphite.numbersOf ext name ((lines.take w).flatMap Prod.snd) ++ Graphite.numbersOf ext name ((lines.drop w).flatMap Prod.snd) := by
      simp only [Graphite.numbersOf, ← List.filterMap_append, ← List.flatMap_append, List.take_append_drop]
    rw [this, List.take_append_of_le_length (by omega)]
  have hvals : (dealt.filter fun u => decide (u.name = name)).map (·.value) =
      ((Graphite.numbersOf ext name (lines.flatMap Prod.snd)).take ((dealt.filter fun u => decide (u.name = name)).map (·.value)).length).map .set := by
    rw [hpre, List.map_take, ← v1, List.take_left]
  obtain ⟨xs, hxs⟩ := List.getLast?_eq_some_iff.1 hx
  rw [hxs] at hvals
  have := g3 h hh hcalls (fun u hu hku => by rw [hset u (hsub u hu)] at hku; cases hku) name xs x hvals
    (fun u hu he => ⟨v2 u (hsub u hu), hyoung u (hsub u hu) he⟩) now order text ho ht
  exact ⟨this.1, this.2.1, fun hcl => this.2.2 fun u hu => hcl u (hsub u hu)⟩

/-- **C156 (in the end).**  The process is never told to stop, the sink's thread gets its turn again and again, its window is at least a second and no summary its queue accepts is empty.  Whatever points the sink's queue has accepted by time `T`, there is a
later time when a scrape shows every counter without tags as the sum of a beginning of what the queue has accepted that has all of these, and every absolute gauge without tags as the last in it. -/
theorem C156_in_the_end (c : Config) (hd : Distinct c) (p : Net.Setup F) (hp : SetUp c p) (ls : Nat → Label F) (hs : ∀ t, ls t ≠ .signal) (n : Str) (hn : n ∈ c.sinks) (hb : Busy ls n)
    (q : Scrape.Setup F) (hage : ∀ a, q.ageThreshold = some a → a < 2 ^ 63) (hcap : 1 ≤ q.capacity) (clock : Nat → Int)
    (hk : p.sink n = ⟨_, prometheusImpl q clock, some { state := Prometheus.Aggr.new q.capacity }⟩)
    (hgood : ∀ t, ∀ u ∈ pointsIn (((run p ls t).log n).map (·.2)), u.kind = .summarize → ∃ v, Prometheus.top u v) (T : Nat) :
    ∃ t, T ≤ t ∧ ∃ m r h, (run p ls t).nodes n = some (.sink ⟨_, prometheusImpl q clock, some { state := Prometheus.Aggr.new q.capacity }⟩ m r) ∧ r.state = some h ∧
      ∃ dealt, pointsIn (((run p ls T).log n).map (·.2)) <+: dealt ∧ dealt <+: pointsIn (((run p ls t).log n).map (·.2)) ∧
        (r.calls.length < 2 ^ 64 - 1 →
          ∀ name x0 xs, (dealt.filter fun u => decide (u.name = name)).map (·.value) = (x0 :: xs).map .sum → (∀ u ∈ dealt, u.name = name → u.tags = none ∧ ∀ j, youngEnough q.ageThreshold (clock j, u) = true) →
          ∀ now order text, order.Perm h.state.data → Prometheus.scrape q.ext q.tags q.gzip now false order = some (some text) →
            .sample (Prometheus.sanitize name) q.tags (.real (xs.foldl F64.add x0)) ∈ text ∧
            "counter".toList ∈ Prometheus.typeLines (Prometheus.sanitize name) text ∧
            ((∀ u ∈ dealt, u.name ≠ name → ¬ Prometheus.Clash u.name name) → Prometheus.samplesNamed (Prometheus.sanitize name) text = [(q.tags, .real (xs.foldl F64.add x0))])) ∧
        (r.calls.length < 2 ^ 64 - 1 →
          ∀ name xs x, (dealt.filter fun u => decide (u.name = name)).map (·.value) = (xs ++ [x]).map .set → (∀ u ∈ dealt, u.name = name → u.tags = none ∧ ∀ j, youngEnough q.ageThreshold (clock j, u) = true) →
          ∀ now order text, order.Perm h.state.data → Prometheus.scrape q.ext q.tags q.gzip now false order = some (some text) →
            .sample (Prometheus.sanitize name) q.tags (.real x) ∈ text ∧
            "gauge".toList ∈ Prometheus.typeLines (Prometheus.sanitize name) text ∧
            ((∀ u ∈ dealt, u.name ≠ name → ¬ Prometheus.Clash u.name name) → Prometheus.samplesNamed (Prometheus.sanitize name) text = [(q.tags, .real x)])) := by
  obtain ⟨hv, hok⟩ := C156_reopens c hd p hp ls n hn q hage hcap clock hk hgood
  obtain ⟨t, ht, nd, h1, h2, -⟩ := C146_sinks c hd p hp ls hs n hn hb hv (some 10) (by rw [hk]; intro st; rfl) T
  obtain ⟨m, r, g1, dealt, g2, g3, g4⟩ := C156_counter c hd p hp ls t n hn q hage hcap clock hk
  obtain ⟨m', r', f1, dealt', -, f3, f4⟩ := C156_gauge c hd p hp ls t n hn q hage hcap clock hk
  rw [g1] at f1
  cases f1
  obtain rfl : dealt = dealt' := g3.symm.trans f3
  have hsome := hok t m r g1
  obtain ⟨h, hh⟩ := Option.isSome_iff_exists.1 hsome
  have hall : ∀ u ∈ dealt, u.kind = .summarize → ∃ v, Prometheus.top u v := fun u hu => hgood t u (by rw [g2]; exact List.mem_append_left _ hu)
  refine ⟨t, ht, m, r, h, g1, hh, dealt, ?_, by rw [g2]; exact List.prefix_append _ _, fun hc => g4 h hh hc hall, fun hc => f4 h hh hc hall⟩
  rw [g1] at h1
  obtain rfl := Option.some.inj h1
  obtain ⟨more, h5⟩ := h2
  rw [← g3, ← pointsIn_payload]
  refine ⟨pointsIn more, ?_⟩
  have h6 := congrArg pointsIn h5
  rwa [show ∀ a b : List (Event F), pointsIn (a ++ b) = pointsIn a ++ pointsIn b from fun a b => by simp [pointsIn, List.filterMap_append]] at h6

private def scraped : Config := ⟨[['k']], [], [], [(['a'], [['k']])]⟩

private def scrapedSink : Scrape.Setup Int := { ext := promExt, tags := [(['h'], ['1'])], ageThreshold := some 60, capacity := 5 }

private def scrapedClock (i : Nat) : Int := 5 + i % 3

private def scrapedSetup : Net.Setup Int where
  wiring := ⟨[(['k'], [['a']])], [], [(['a'], [['k']])], [['k']]⟩
  filter _ := ⟨_, delayProcess, 10⟩
  sink _ := ⟨_, prometheusImpl scrapedSink scrapedClock, some { state := Prometheus.Aggr.new scrapedSink.capacity }⟩
  stopOrder := [0]
  joinOrder := [['k']]

/-- Two counts, ten pulses, which the sink takes, and so a flush; a third count that it takes and adds, a fourth that it only takes from its queue and a fifth it does not. -/
private def scrapedLabels (t : Nat) : Net.Label Int :=
  let count (n : Int) : Event Int := .telemetry (promPoint "c" none n)
  ([.emit 0 (count 1), .emit 0 (count 2)] ++ (List.range 10).map (fun i => .pulse (i + 1)) ++ List.replicate 24 (.act ['k'] 0) ++
    [.emit 0 (count 3), .act ['k'] 0, .act ['k'] 0, .emit 0 (count 4), .act ['k'] 0, .emit 0 (count 5)])[t]?.getD (.act ['a'] 0)

private theorem scraped_hyps : Distinct scraped ∧ SetUp scraped scrapedSetup ∧ ['k'] ∈ scraped.sinks ∧ (∀ a, scrapedSink.ageThreshold = some a → a < 2 ^ 63) ∧ 1 ≤ scrapedSink.capacity ∧
    Only scraped ['a'] [] ['k'] ∧ scrapedSetup.wiring.sources[0]? = some (['a'], [['k']]) := by
  refine ⟨by decide, ⟨rfl, by decide, by decide, fun n hn => by simp [scraped] at hn⟩, by decide, by simp [scrapedSink], by decide, .direct _ (by decide) ⟨[['k']], by decide, by decide⟩ ?_, rfl⟩
  rintro u ⟨fs, h1, h2⟩
  simp only [scraped, List.mem_append, List.mem_cons, Prod.mk.injEq, List.not_mem_nil, or_false, false_or] at h1
  exact h1.1

/-- What the sink has been asked (a count, or `none` for a flush), and how many events wait for it. -/
private def scrapedStanding : Net.Node Int → List (Option (Value Int)) × Nat
  | .sink _ _ r => ((askedBy r.calls).map (·.map (·.value)), r.waiting.length)
  | _ => ([], 0)

example : ((Net.run scrapedSetup scrapedLabels 42).nodes ['k']).map scrapedStanding = some ([some (.sum 1), some (.sum 2), none, some (.sum 3)], 2) := by decide +kernel

/-- What a scrape says at that time. -/
example : ((Prometheus.run promExt (Prometheus.Aggr.new 5) (promHistory (some 60) scrapedClock [some (promPoint "c" none 1), some (promPoint "c" none 2), none, some (promPoint "c" none 3)])).bind
    fun a => Prometheus.scrape promExt scrapedSink.tags false 9 false a.data).map (·.map (·.getLast?)) =
      some (some (some (.sample ['c'] [(['h'], ['1'])] (.real 6)))) := by decide +kernel

/-- two packets: a counter beside a gauge, then the counter again, twice -/
private def scrapedPackets : List (Statsd.Datagram × List Statsd.Reading) :=
  [(⟨some "a:2|c\nx:5|g\n".toList, 7⟩, [⟨['a'], ['2'], .counter, none⟩, ⟨['x'], ['5'], .gauge, none⟩]),
   (⟨some "a:3|c\na:4|c".toList, 8⟩, [⟨['a'], ['3'], .counter, none⟩, ⟨['a'], ['4'], .counter, none⟩])]

/-- All points are sent, and the sink takes the first three. -/
private def scrapedClients (t : Nat) : Net.Label Int :=
  ((Statsd.handleDatagrams demo (scrapedPackets.map Prod.fst) []).1.map (fun v => .emit 0 (.telemetry v)) ++ List.replicate 6 (.act ['k'] 0))[t]?.getD (.act ['a'] 0)

private def scrapedWaiting : Net.Node Int → List Str
  | .sink _ _ r => (pointsIn r.waiting).map (·.name)
  | _ => []

/-- The other hypotheses of `C156_statsd` are met: of the three numbers reported, one waits. -/
example : (Net.run scrapedSetup scrapedClients 10).lost ['k'] = [] ∧ demo.Usable ∧ demo.AsciiNumbers ∧
    (∀ p ∈ scrapedPackets, Statsd.Carries demo p.1 p.2) ∧ (∀ p ∈ scrapedPackets, ∀ r ∈ p.2, r.name = ['a'] → r.ty = .counter) ∧
    pointsIn (sourceSent scrapedSetup scrapedClients 0 10) = (Statsd.handleDatagrams demo (scrapedPackets.map Prod.fst) []).1 ∧
    (∀ u ∈ pointsIn (sourceSent scrapedSetup scrapedClients 0 10), u.kind ≠ .summarize) ∧
    (∀ u ∈ pointsIn (sourceSent scrapedSetup scrapedClients 0 10), ∀ j, youngEnough scrapedSink.ageThreshold (scrapedClock j, u) = true) ∧
    Statsd.numbersOf demo ['a'] (scrapedPackets.flatMap Prod.snd) = [2, 3, 4] ∧
    ((Net.run scrapedSetup scrapedClients 10).nodes ['k']).map scrapedWaiting = some [['a']] := by
  refine ⟨by decide +kernel, ⟨by decide, by decide⟩, demo_ascii, ?_, by decide, by decide +kernel, by decide +kernel, fun u hu j => ?_, by decide, by decide +kernel⟩
  case refine_2 =>
    have : ∀ u ∈ pointsIn (sourceSent scrapedSetup scrapedClients 0 10), u.timestamp = 7 ∨ u.timestamp = 8 := by decide +kernel
    simp only [youngEnough, scrapedSink, scrapedClock, decide_eq_true_eq]
    have ht := this u hu
    refine decide_eq_true (p := (u.timestamp - (5 + (j : Int) % 3)).natAbs ≤ 60) ?_
    generalize u.timestamp = x at ht ⊢
    omega
  intro p hp
  simp only [scrapedPackets, List.mem_cons, List.not_mem_nil, or_false] at hp
  rcases hp with rfl | rfl
  · refine ⟨by simp, ?_, _, rfl, by decide⟩
    intro r hr
    simp only [List.mem_cons, List.not_mem_nil, or_false] at hr
    rcases hr with rfl | rfl <;> exact ⟨by decide, by decide, by decide, by decide, by simp⟩
  · refine ⟨by simp, ?_, _, rfl, by decide⟩
    intro r hr
    simp only [List.mem_cons, List.not_mem_nil, or_false] at hr
    rcases hr with rfl | rfl <;> exact ⟨by decide, by decide, by decide, by decide, by simp⟩

private def scrapedExt : Graphite.Ext Int :=
  { parseF := fun s => match s with | [c] => if c.isDigit then some ((c.toNat : Int) - 48) else none | _ => none
    parseI := fun s => match s with | [c] => if c.isDigit then some ((c.toNat : Int) - 48) else none | _ => none
    isSpace := fun c => c = ' ' ∨ c = '\n' }

private def scrapedWritten : List (Str × List Graphite.Triple) :=
  [("a 1 2  b 3 4\n".toList, [⟨['a'], ['1'], ['2']⟩, ⟨['b'], ['3'], ['4']⟩]), ("a 5 6\n".toList, [⟨['a'], ['5'], ['6']⟩])]

/-- the text in three pieces, cut in the middle of words, the first read before the second arrives; then the client closes -/
private def scrapedPieces : List Stream.Label :=
  [.arrive (Graphite.utf8 "a 1 2  b".toList), .poll false, .read, .arrive (Graphite.utf8 " 3 4\na".toList), .poll false, .read, .read,
   .arrive (Graphite.utf8 " 5 6\n".toList), .close, .poll true, .read, .read]

private def scrapedPoints : List (Telemetry Int) := ((Graphite.handleLines scrapedExt 0 (scrapedWritten.map Prod.fst) []).getD ([], [])).1

/-- All points are sent, and the sink takes the first two. -/
private def scrapedClient (t : Nat) : Net.Label Int :=
  (scrapedPoints.map (fun v => .emit 0 (.telemetry v)) ++ List.replicate 4 (.act ['k'] 0))[t]?.getD (.act ['a'] 0)

/-- The other hypotheses of `C156_graphite` are met: of the two numbers written for a name, one waits. -/
example : (Net.run scrapedSetup scrapedClient 7).lost ['k'] = [] ∧
    (∀ l ∈ scrapedWritten, Graphite.AsciiLine l.1 ∧ Graphite.Says scrapedExt l.1 l.2) ∧
    (∃ s, Stream.run Stream.graphite (Stream.init Stream.graphite {}) scrapedPieces = some s ∧ Graphite.Sending (scrapedWritten.map Prod.fst) scrapedPieces s.sock ∧
      s.taken = (scrapedWritten.map Prod.fst).map Graphite.utf8) ∧
    (Graphite.handleLines scrapedExt 0 (scrapedWritten.map Prod.fst) [] = some (scrapedPoints, [])) ∧
    pointsIn (sourceSent scrapedSetup scrapedClient 0 7) = scrapedPoints ∧
    (∀ u ∈ scrapedPoints, ∀ j, youngEnough scrapedSink.ageThreshold (scrapedClock j, u) = true) ∧
    Graphite.numbersOf scrapedExt ['a'] (scrapedWritten.flatMap Prod.snd) = [1, 5] ∧
    ((Net.run scrapedSetup scrapedClient 7).nodes ['k']).map scrapedWaiting = some [['a']] := by
  refine ⟨by decide +kernel, ?_, ⟨_, rfl, ⟨⟨[], by decide +kernel⟩, fun _ => by decide +kernel⟩, by decide +kernel⟩, by decide +kernel, by decide +kernel, fun u hu j => ?_,
    by decide +kernel, by decide +kernel⟩
  case refine_2 =>
    have : ∀ u ∈ scrapedPoints, 0 ≤ u.timestamp ∧ u.timestamp ≤ 8 := by decide +kernel
    have ht := this u hu
    refine decide_eq_true (p := (u.timestamp - (5 + (j : Int) % 3)).natAbs ≤ 60) ?_
    generalize u.timestamp = x at ht ⊢
    omega
  intro l hl
  simp only [scrapedWritten, List.mem_cons, List.not_mem_nil, or_false] at hl
  rcases hl with rfl | rfl
  · refine ⟨⟨by decide, "a 1 2  b 3 4".toList, by decide, by decide⟩, by simp, ?_, by decide⟩
    intro t ht
    simp only [List.mem_cons, List.not_mem_nil, or_false] at ht
    rcases ht with rfl | rfl <;> exact ⟨by decide, by decide⟩
  · refine ⟨⟨by decide, "a 5 6".toList, by decide, by decide⟩, by simp, ?_, by decide⟩
    intro t ht
    simp only [List.mem_cons, List.not_mem_nil, or_false] at ht
    subst ht
    exact ⟨by decide, by decide⟩

/-- The same with a gauge that is first 5 and then 3. -/
example : ((Prometheus.run promExt (Prometheus.Aggr.new 5) (promHistory (some 60) scrapedClock [some { promPoint "g" none 5 with value := .set 5 }, none, some { promPoint "g" none 3 with value := .set 3 }])).bind
    fun a => Prometheus.scrape promExt scrapedSink.tags false 9 false a.data).map (·.map (·.getLast?)) =
      some (some (some (.sample ['g'] [(['h'], ['1'])] (.real 3)))) := by decide +kernel

/-- The source sends a count again and again, and the sink's thread gets its turn in between. -/
private def onAndOn (t : Nat) : Net.Label Int := if t % 2 = 0 then .emit 0 (.telemetry (promPoint "c" none t)) else .act ['k'] 0

/-- The hypotheses of `C156_in_the_end` (and those of `C156_reopens`) are met. -/
example : (∀ t, onAndOn t ≠ .signal) ∧ Busy onAndOn ['k'] ∧
    ∀ t, ∀ u ∈ pointsIn (((Net.run scrapedSetup onAndOn t).log ['k']).map (·.2)), u.kind = .summarize → ∃ v, Prometheus.top u v := by
  obtain ⟨g1, g2, g3, -, -, g4, g5⟩ := scraped_hyps
  refine ⟨fun t => by unfold onAndOn; split <;> simp, fun t => ⟨2 * t + 1, by omega, 0, by simp [onAndOn, Nat.add_mod]⟩, fun t u hu => ?_⟩
  obtain ⟨kept, dropped, d1, -, d2⟩ := direct_source scraped g1 scrapedSetup g2 onAndOn t ['a'] 0 _ g5 ['k'] g3 g4 selPoint
    (by intro e he; cases e <;> simp_all [Pipeline.notPulse, Event.isTimerFlush, selPoint])
  rw [points_sel, d2, List.mem_flatMap] at hu
  obtain ⟨e, he, hu⟩ := hu
  have hsent : ∀ t, ∀ e ∈ sourceSent scrapedSetup onAndOn 0 t, ∃ v, e = .telemetry (promPoint "c" none v) := by
    intro t
    induction t with
    | zero => intro e he; simp [sourceSent] at he
    | succ t ih =>
      intro e he
      simp only [sourceSent, List.mem_append] at he
      rcases he with he | he
      · exact ih e he
      · by_cases h2 : t % 2 = 0
        · simp only [onAndOn, h2, if_true] at he
          split at he
          · exact ⟨_, by simpa using he⟩
          · simp at he
        · simp [onAndOn, h2] at he
  obtain ⟨v, rfl⟩ := hsent t e (d1.sublist.1.subset he)
  obtain rfl : u = promPoint "c" none v := by simpa [selPoint] using hu
  exact fun h => by cases h

end Verif
