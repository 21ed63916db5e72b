import Verif.Lemmas.SinkWavefront
import Verif.Props.SinkImpls
/-!
# C86: what arrives at the Wavefront sink is delivered
-/
namespace Verif
open Wavefront
variable {F : Type} [F64 F]

/-- The flushes of the sink so far, as they should be. -/
def WfFlushed (ext : Ext F) (w : Int) (ps : List (Str × F)) (age : Option Nat) (pc : PadControl)
    (tags : TagMap) (bs : List (WfFlush F)) (log : List (List Wire)) : Prop :=
  log.length = bs.length ∧
  ∀ A b B, bs = A ++ b :: B → ∃ store pts shown text W,
    runBucket ext.nameTagHash (Buckets.new w) (wfHistory age A ++ b.adds age) = some store ∧
    store.iter = some pts ∧ Padded pts pts shown ∧ ((∀ k, pads pc k = false) → shown = pts) ∧
    (HashOk ext pts → ∀ k, pads pc k = false → (shown.filter fun t => t.kind = k) = pts.filter fun t => t.kind = k) ∧
    log[A.length]? = some (W ++ [.complete text]) ∧
    (∀ e ∈ W, ∃ n, e = .part (text.take n) ∨ e = .delay n) ∧
    ∀ vals, Ordered ext vals → (∀ t ∈ shown, ∀ x, printed ps t x → vals x) →
      text = (shown.map (pointText ext ps tags)).flatten

/-- The sink between calls: `cur` has the points since the last flush. -/
structure WfBetween (ext : Ext F) (clock : Nat → Int) (w : Int) (ps : List (Str × F))
    (age : Option Nat) (pc : PadControl) (tags : TagMap) (bs : List (WfFlush F))
    (cur : List (Int × Telemetry F)) (h : Hosted (State F) (List Wire)) (d : List (Event F)) : Prop where
  stats : h.state.stats = []
  ps_eq : h.state.percentiles = ps
  tags_eq : h.state.tags = tags
  pc_eq : h.state.padControl = pc
  age_eq : h.state.ageThreshold = age
  flushed : WfFlushed ext w ps age pc tags bs h.log
  points : (bs.flatMap fun b => b.points.map (·.2)) ++ cur.map (·.2) = pointsIn d
  times : (bs.flatMap fun b => b.points.map (·.1) ++ [b.time]) ++ cur.map (·.1) =
    (List.range h.calls).map clock
  store : runBucket ext.nameTagHash (Buckets.new w)
    (wfHistory age bs ++ (cur.filter (youngEnough age)).map fun p => .add p.1 p.2) = some h.state.aggrs

private theorem flushLoop_keeps (now : Int) : ∀ (script : List Io) (s : State F) (wire : List Wire),
    let r := (s.flushLoop now script wire).1
    r.percentiles = s.percentiles ∧ r.tags = s.tags ∧ r.padControl = s.padControl ∧
      r.ageThreshold = s.ageThreshold := by
  intro script
  induction script with
  | nil => intro s wire; exact ⟨rfl, rfl, rfl, rfl⟩
  | cons io script ih =>
    intro s wire
    simp only [State.flushLoop]
    split
    · split
      · exact ⟨rfl, rfl, rfl, rfl⟩
      · exact ih _ _
    · exact ih _ _

theorem wf_flush_between (ext : Ext F) (interval : Nat) (clock : Nat → Int) (os : Nat → List Io)
    (w : Int) (ps : List (Str × F)) (age : Option Nat) (pc : PadControl) (tags : TagMap)
    (bs : List (WfFlush F)) (cur : List (Int × Telemetry F)) (g h : Hosted (State F) (List Wire))
    (d : List (Event F)) (hb : WfBetween ext clock w ps age pc tags bs cur g d)
    (he : (wavefrontImpl ext interval clock os).flush (some g) = some h) :
    WfBetween ext clock w ps age pc tags (bs ++ [⟨cur, clock g.calls⟩]) [] h d := by
  simp only [wavefrontImpl, Option.bind_some] at he
  split at he
  · rename_i s' wire h1
    simp only [Option.some.injEq] at he
    subst he
    simp only [State.flush, Option.map_eq_some_iff] at h1
    obtain ⟨s1, h2, h3⟩ := h1
    obtain ⟨e1, pts, shown, e2, e3, e4, e4k, e5⟩ := formatStats_text ext _ _ _ h2 hb.stats
    have hk : s1.percentiles = ps ∧ s1.tags = tags ∧ s1.padControl = pc ∧ s1.ageThreshold = age := by
      simp only [State.formatStats] at h2
      split at h2
      · simp at h2
      · split at h2
        · simp at h2
        · simp only [Option.some.injEq] at h2
          subst h2
          exact ⟨hb.ps_eq, hb.tags_eq, hb.pc_eq, hb.age_eq⟩
    obtain ⟨k1, k2, k3, k4⟩ := flushLoop_keeps (clock g.calls) (os g.calls) s1 []
    obtain ⟨W, hW, hc, _⟩ := flushLoop_spec (clock g.calls) s1.stats (os g.calls) s1 [] rfl
    rw [h3] at hc k1 k2 k3 k4
    simp only [List.nil_append, Bool.true_eq_false, false_and, or_false, true_and] at hc
    obtain ⟨c1, c2, c3⟩ := hc
    subst c1
    have hadds : WfFlush.adds age (⟨cur, clock g.calls⟩ : WfFlush F) =
      (cur.filter (youngEnough age)).map fun p => BucketOp.add p.1 p.2 := rfl
    refine ⟨c2, k1.trans hk.1, k2.trans hk.2.1, k3.trans hk.2.2.1, k4.trans hk.2.2.2, ?_, ?_, ?_, ?_⟩
    · obtain ⟨f1, f2⟩ := hb.flushed
      refine ⟨by simp [f1], ?_⟩
      intro A b B hA
      rcases List.eq_nil_or_concat B with rfl | ⟨B', b', rfl⟩
      · have hAb := List.append_inj' hA rfl
        obtain ⟨rfl, hb2⟩ := hAb
        simp only [List.cons.injEq, and_true] at hb2
        subst hb2
        refine ⟨g.state.aggrs, pts, shown, s1.stats, W, hb.store, e2, e3, ?_, ?_, ?_, hW, ?_⟩
        · intro off; exact e4 (by rw [hb.pc_eq]; exact off)
        · intro hh k off; exact e4k hh k (by rw [hb.pc_eq]; exact off)
        · simp [← f1]
        · intro vals ho hv
          rw [e5 vals ho (by rw [hb.ps_eq]; exact hv), hb.ps_eq, hb.tags_eq]
      · rw [List.concat_eq_append, ← List.cons_append, ← List.append_assoc] at hA
        obtain ⟨hA', _⟩ := List.append_inj' hA rfl
        obtain ⟨store, pts', shown', text, W', q1, q2, q3, q4, q4k, q5, q6⟩ := f2 A b B' hA'
        refine ⟨store, pts', shown', text, W', q1, q2, q3, q4, q4k, ?_, q6⟩
        have hlt : A.length < g.log.length := by rw [f1, hA']; simp
        rw [List.getElem?_append_left hlt]
        exact q5
    · have := hb.points
      simp only [List.flatMap_append, List.flatMap_cons, List.flatMap_nil, List.append_nil, List.map_nil]
      exact this
    · have := hb.times
      simp only [List.flatMap_append, List.flatMap_cons, List.flatMap_nil, List.append_nil, List.map_nil,
        List.range_succ, List.map_append, List.map_cons, ← List.append_assoc]
      rw [this]
    · have := hb.store
      simp only [wfHistory, List.flatMap_append, List.flatMap_cons, List.flatMap_nil, List.append_nil,
        List.filter_nil, List.map_nil] at this ⊢
      rw [← List.append_assoc, hadds, runBucket_append', this]
      simp only [Option.bind_some, runBucket]
      rw [c3, e1]
  · simp at he

theorem wf_deliver_between (ext : Ext F) (interval : Nat) (clock : Nat → Int) (os : Nat → List Io)
    (w : Int) (ps : List (Str × F)) (age : Option Nat) (pc : PadControl) (tags : TagMap) (hage : ∀ a, age = some a → a < 2 ^ 63)
    (bs : List (WfFlush F)) (cur : List (Int × Telemetry F)) (g h : Hosted (State F) (List Wire))
    (d : List (Event F)) (t : Telemetry F) (hb : WfBetween ext clock w ps age pc tags bs cur g d)
    (he : (wavefrontImpl ext interval clock os).deliver (some g) t = some h) :
    WfBetween ext clock w ps age pc tags bs (cur ++ [(clock g.calls, t)]) h (d ++ [.telemetry t]) := by
  simp only [wavefrontImpl, Option.bind_eq_some_iff, Option.map_eq_some_iff] at he
  obtain ⟨g', hg, s', h1, rfl⟩ := he
  obtain rfl := Option.some.inj hg
  have hpts : (bs.flatMap fun b => b.points.map (·.2)) ++ (cur ++ [(clock g.calls, t)]).map (·.2) =
      pointsIn (d ++ [.telemetry t]) := by
    have := hb.points
    simp only [pointsIn] at this ⊢
    rw [List.filterMap_append, ← this]
    simp
  have htimes : (bs.flatMap fun b => b.points.map (·.1) ++ [b.time]) ++
      (cur ++ [(clock g.calls, t)]).map (·.1) = (List.range (g.calls + 1)).map clock := by
    rw [List.range_succ, List.map_append, List.map_append, ← List.append_assoc, hb.times]
    simp
  have hacc : (match g.state.ageThreshold with
      | some age => decide (((t.timestamp - clock g.calls).natAbs : Int) ≤ asI64 age)
      | none => true) = youngEnough age (clock g.calls, t) := by
    rw [hb.age_eq]
    cases age with
    | none => rfl
    | some a =>
      have := hage a rfl
      simp only [youngEnough, asI64, if_pos this]
      congr 1
      exact propext Int.ofNat_le
  unfold State.deliver at h1
  extract_lets acc at h1
  have hacc' : acc = youngEnough age (clock g.calls, t) := hacc
  rw [hacc'] at h1
  clear hacc' acc
  by_cases hy : youngEnough age (clock g.calls, t) = true
  · rw [if_pos hy, Option.map_eq_some_iff] at h1
    obtain ⟨a, h1, rfl⟩ := h1
    refine ⟨hb.stats, hb.ps_eq, hb.tags_eq, hb.pc_eq, hb.age_eq, hb.flushed, hpts,
      htimes, ?_⟩
    rw [List.filter_append, List.map_append, ← List.append_assoc, runBucket_append', hb.store]
    simp [hy, runBucket, h1]
  · rw [if_neg hy] at h1
    simp only [Option.some.injEq] at h1
    subst h1
    refine ⟨hb.stats, hb.ps_eq, hb.tags_eq, hb.pc_eq, hb.age_eq, hb.flushed, hpts,
      htimes, ?_⟩
    rw [List.filter_append, List.map_append, ← List.append_assoc, runBucket_append', hb.store]
    simp [hy, runBucket]

/-- **C86, Wavefront.**  When the sink has returned, the points given to its flushes are, in order, exactly
the points that arrived before the first `Shutdown`, each taken and each flush made at the next reading of
the clock.  Every flush ended with one complete write, preceded only by failed writes of the same text
and by pauses.  The text is the lines of everything the store held (with zeros of stored series between, if
padding is on), where the store is the result of adding the points of this and all earlier flushes, less
those too far off the clock, and of the resets in between.  Points of a kind for which padding is off are written as stored, if the hash
tells the stored points apart. -/
theorem C86_wavefront (ext : Ext F) (interval : Nat) (clock : Nat → Int) (os : Nat → List Io)
    (w : Int) (ps : List (Str × F)) (age : Option Nat) (connected : Bool) (pc : PadControl) (tags : TagMap)
    (hage : ∀ a, age = some a → a < 2 ^ 63) (sources n : Nat) (recv : List (Option (Event F))) (h)
    (hret : (SinkRun.steps (wavefrontImpl ext interval clock os) sources n
      { state := some { state := State.init w ps age connected pc tags }, queue := recv }).returned = true)
    (hs : (SinkRun.steps (wavefrontImpl ext interval clock os) sources n
      { state := some { state := State.init w ps age connected pc tags }, queue := recv }).state = some h) :
    ∃ bs : List (WfFlush F),
      (bs.flatMap fun b => b.points.map (·.2)) = pointsIn (untilShutdown (arrivals recv)) ∧
      (bs.flatMap fun b => b.points.map (·.1) ++ [b.time]) = (List.range h.calls).map clock ∧
      h.log.length = bs.length ∧
      ∀ A b B, bs = A ++ b :: B → ∃ store pts shown text W,
        runBucket ext.nameTagHash (Buckets.new w) (wfHistory age A ++ b.adds age) = some store ∧
        store.iter = some pts ∧ Padded pts pts shown ∧ ((∀ k, pads pc k = false) → shown = pts) ∧
        (HashOk ext pts → ∀ k, pads pc k = false → (shown.filter fun t => t.kind = k) = pts.filter fun t => t.kind = k) ∧
        h.log[A.length]? = some (W ++ [.complete text]) ∧
        (∀ e ∈ W, ∃ n, e = .part (text.take n) ∨ e = .delay n) ∧
        ∀ vals, Ordered ext vals → (∀ t ∈ shown, ∀ x, printed ps t x → vals x) →
          text = (shown.map (pointText ext ps tags)).flatten := by
  have hind := SinkRun.induction (wavefrontImpl ext interval clock os)
    (fun s d => ∀ h, s = some h → ∃ bs cur, WfBetween ext clock w ps age pc tags bs cur h d)
    (fun s d => ∀ h, s = some h → ∃ bs, WfBetween ext clock w ps age pc tags bs [] h d)
    ?_ ?_ ?_ ?_ ?_ sources n (some { state := State.init w ps age connected pc tags }) ?_ recv
  · obtain ⟨bs, hb⟩ := hind.2 hret h hs
    refine ⟨bs, ?_, ?_, hb.flushed.1, hb.flushed.2⟩
    · have := hb.points
      rw [delivered_at_return (wavefrontImpl ext interval clock os) (some interval) (fun _ => rfl) sources n
        _ recv hret, pointsIn_payload] at this
      simpa using this
    · simpa using hb.times
  · intro s d t hP _ h he
    cases s with
    | none => simp [wavefrontImpl] at he
    | some g =>
      obtain ⟨bs, cur, hb⟩ := hP g rfl
      exact ⟨_, _, wf_deliver_between ext interval clock os w ps age pc tags hage bs cur g h d t hb he⟩
  · intro s d t hP _ h he
    obtain ⟨bs, cur, hb⟩ := hP h he
    exact ⟨bs, cur, { hb with points := by have := hb.points; simp only [pointsIn] at this ⊢; rw [List.filterMap_append, this]; simp }⟩
  · intro s d t hP _ h he
    obtain ⟨bs, cur, hb⟩ := hP h he
    exact ⟨bs, cur, { hb with points := by have := hb.points; simp only [pointsIn] at this ⊢; rw [List.filterMap_append, this]; simp }⟩
  · intro s d hP h he
    cases s with
    | none => simp [wavefrontImpl] at he
    | some g =>
      obtain ⟨bs, cur, hb⟩ := hP g rfl
      exact ⟨_, [], wf_flush_between ext interval clock os w ps age pc tags bs cur g h d hb he⟩
  · intro s d hP _ h he
    cases s with
    | none => simp [wavefrontImpl] at he
    | some g =>
      obtain ⟨bs, cur, hb⟩ := hP g rfl
      exact ⟨_, wf_flush_between ext interval clock os w ps age pc tags bs cur g h d hb he⟩
  · intro h he
    simp only [Option.some.injEq] at he
    subst he
    refine ⟨[], [], rfl, rfl, rfl, rfl, rfl, ⟨rfl, ?_⟩, rfl, rfl, rfl⟩
    intro A b B hA
    simp at hA

/-- Two points of which one is late, a flush after the first write failed, then another point. -/
example :
    let r := SinkRun.steps (wavefrontImpl wfExt 1 (fun _ => 5) (fun _ => [.fail 3, .ok, .ok])) 1 30
      { state := some { state := State.init 1 [] (some 3) true ⟨false, false, false, false⟩ [] },
        queue := [some (.telemetry (wfGauge "a" 1 4)), some (.telemetry (wfGauge "b" 1 1)),
          some (.timerFlush 1), some (.telemetry (wfGauge "bb" 2 6)), some .shutdown] }
    r.returned = true ∧ (r.state.map fun h => h.log) =
      some [[.part "a v".toList, .delay (delayMs 1), .complete "a v tttt \n".toList],
        [.part "bb ".toList, .delay (delayMs 1), .complete "bb v tttttt \n".toList]] := by
  decide +kernel

end Verif
