import Verif.Lemmas.Totals
import Verif.Spec.Gauges
import Verif.Props.Buckets
import Verif.Props.ScrapeTotals
/-!
# C114: gauges from statsd packets to the store of a sink and to a scrape
-/
namespace Verif
open Buckets
section
variable {F : Type} [F64 F]

private def num : Value F → Option F
  | .set v | .sum v => some v
  | _ => none

private theorem num_add (a b : Value F) (ha : ∃ x, num a = some x) (hb : b.kind = .set ∨ b.kind = .sum) :
    num (a.add b) = gaugeStep (num a) b := by
  obtain ⟨x, hx⟩ := ha
  cases a <;> simp only [num, Option.some.injEq, reduceCtorEq] at hx <;>
    cases b <;> simp [Value.kind] at hb <;> simp [Value.add, num, gaugeStep]

private theorem gaugeStep_some (o : Option F) (b : Value F) (hb : b.kind = .set ∨ b.kind = .sum) : ∃ x, gaugeStep o b = some x := by
  cases b <;> simp [Value.kind] at hb
  · exact ⟨_, rfl⟩
  · cases o <;> exact ⟨_, rfl⟩

/-- what is known of a series between operations -/
private def Stands (n : Str) (tags : TagMap) (w : Int) (pts : List (Telemetry F)) (vs : List (Value F)) (bins : List Int) : Prop :=
  (vs = [] ∧ ∀ p ∈ pts, ¬ OfSeries n tags p) ∨
  ∃ q ∈ pts, OfSeries n tags q ∧ (∀ r ∈ pts, OfSeries n tags r → r.timestamp.tdiv w ≤ q.timestamp.tdiv w) ∧ q.persist = true ∧
    (∃ x, num q.value = some x) ∧ num q.value = gaugeLevel vs ∧ q.timestamp.tdiv w ∈ bins

private theorem ofSeries_iff {n : Str} {tags : TagMap} {t : Telemetry F} : OfSeries n tags t ↔ t.hashInput = (n, tags) := by
  simp [OfSeries, Telemetry.hashInput]

private theorem addedPoints_snoc (a b : List (BucketOp F)) : addedPoints (a ++ b) = addedPoints a ++ addedPoints b :=
  addedPoints_append a b

private theorem seriesBins_append (n : Str) (tags : TagMap) (w : Int) (a b : List (BucketOp F)) :
    seriesBins n tags w (a ++ b) = seriesBins n tags w a ++ seriesBins n tags w b := by
  induction a with
  | nil => rfl
  | cons o a ih =>
    cases o with
    | add now v => simp only [List.cons_append, seriesBins, ih]; split <;> simp
    | reset now => simp [seriesBins, ih]

private theorem run_snoc (hash : Str × TagMap → Nat) (a c : List (BucketOp F)) : ∀ b : Buckets F,
    runBucket hash b (a ++ c) = (runBucket hash b a).bind fun b' => runBucket hash b' c := by
  induction a with
  | nil => intro b; rfl
  | cons o a ih =>
    intro b
    cases o with
    | add now v => simp only [List.cons_append, runBucket]; cases b.add hash now v <;> simp [ih]
    | reset now => simp only [List.cons_append, runBucket]; exact ih _

private theorem stands (hash : Str × TagMap → Nat) (w : Int) (hw : w ≠ 0) (n : Str) (tags : TagMap) (all : List (Telemetry F))
    (hsep : Separates hash all) : ∀ (rev : List (BucketOp F)), (∀ v ∈ addedPoints rev.reverse, v ∈ all) →
    (∀ v ∈ addedPoints rev.reverse, OfSeries n tags v → v.persist = true ∧ (v.kind = .set ∨ v.kind = .sum)) →
    (seriesBins n tags w rev.reverse).Pairwise (· ≤ ·) →
    ∃ b, runBucket hash (Buckets.new w) rev.reverse = some b ∧ Buckets.Inv hash (seriesOf all) w b ∧
      Stands n tags w b.values.flatten (((addedPoints rev.reverse).filter fun v => OfSeries n tags v).map (·.value))
        (seriesBins n tags w rev.reverse) := by
  intro rev
  induction rev with
  | nil =>
    intro _ _ _
    exact ⟨_, rfl, Inv.new .., .inl ⟨rfl, by simp [Buckets.new]⟩⟩
  | cons o rev ih =>
    intro hall hg hord
    rw [List.reverse_cons] at hall hg hord ⊢
    rw [addedPoints_snoc] at hall hg
    rw [seriesBins_append] at hord
    obtain ⟨b, e, hi, hst⟩ := ih (fun v hv => hall v (by simp [hv])) (fun v hv => hg v (by simp [hv])) (List.pairwise_append.1 hord).1
    have hle := (List.pairwise_append.1 hord).2.2
    rw [run_snoc, e, seriesBins_append, addedPoints_snoc]
    cases o with
    | add now v =>
      have hS : seriesOf all v.hashInput := ⟨v, hall v (by simp [addedPoints]), rfl⟩
      obtain ⟨b1, kp, kq, vp, vq, row, row', ins, e1, hi1, st, hrow, rs⟩ := hi.add hw (separates_inj hsep) now v hS
      have fs := st.flatStep (separates_inj hsep) hS hrow rs hi1
      refine ⟨b1, by simp [runBucket, e1], hi1, ?_⟩
      simp only [addedPoints, seriesBins, List.filter_append, List.map_append, List.append_nil] at hle ⊢
      have hpw := hi.pairwise
      have hpw1 := hi1.pairwise
      by_cases hv : OfSeries n tags v
      · -- a point of the series
        obtain ⟨hper, hkind⟩ := hg v (by simp [addedPoints]) hv
        have hkv : v.value.kind = .set ∨ v.value.kind = .sum := hkind
        rw [if_pos hv] at hle ⊢
        have hfil : ([v].filter fun v => decide (OfSeries n tags v)) = [v] := by simp [hv]
        rw [hfil]
        simp only [List.map_cons, List.map_nil]
        have hvh := ofSeries_iff.1 hv
        right
        rcases hst with ⟨hnil, hnone⟩ | ⟨q, hq, hqs, hnew, hqp, ⟨x, hx⟩, hlev, hbin⟩
        · rw [hnil]
          have hno : ∀ p ∈ b.values.flatten, p.hashInput ≠ v.hashInput := fun p hp h =>
            hnone p hp (ofSeries_iff.2 (by rw [h, hvh]))
          cases fs with
          | merge A B cur hser hb h h' => exact absurd hser (hno cur (by rw [h]; simp))
          | carry A B q hp hser hb h h' => exact absurd hser (hno q (by rw [h]; simp))
          | fresh A B hp h h' =>
            refine ⟨v, by rw [h']; simp, hv, ?_, hper, ?_, ?_, by simp⟩
            · intro r hr hrs
              rw [h'] at hr
              simp only [List.mem_append, List.mem_cons] at hr
              rcases hr with hr | rfl | hr
              · exact absurd hrs (hnone r (by rw [h]; simp [hr]))
              · exact Int.le_refl _
              · exact absurd hrs (hnone r (by rw [h]; simp [hr]))
            · cases hvv : v.value <;> rw [hvv] at hkv <;> simp [Value.kind] at hkv <;> exact ⟨_, rfl⟩
            · cases hvv : v.value <;> rw [hvv] at hkv <;> simp [Value.kind] at hkv <;> rfl
        · have hqh := ofSeries_iff.1 hqs
          have hqv : q.timestamp.tdiv w ≤ v.timestamp.tdiv w := hle _ hbin _ (by simp)
          have hlevel : gaugeLevel (((addedPoints rev.reverse).filter fun v => decide (OfSeries n tags v)).map (·.value) ++ [v.value]) =
              num (q.value.add v.value) := by
            rw [num_add _ _ ⟨x, hx⟩ hkv, hlev]
            simp [gaugeLevel, List.foldl_append]
          rw [hlevel]
          have hsome : ∃ y, num (q.value.add v.value) = some y := by
            rw [num_add _ _ ⟨x, hx⟩ hkv]; exact gaugeStep_some _ _ hkv
          cases fs with
          | merge A B cur hser hb h h' =>
            have hcs : OfSeries n tags cur := ofSeries_iff.2 (by rw [hser, hvh])
            have hcq : cur.timestamp.tdiv w ≤ q.timestamp.tdiv w := hnew cur (by rw [h]; simp) hcs
            have hcb : cur.timestamp.tdiv w = v.timestamp.tdiv w := hb
            have hcur : cur = q := by
              rw [h] at hq hpw
              simp only [List.mem_append, List.mem_cons] at hq
              rw [List.pairwise_append, List.pairwise_cons] at hpw
              rcases hq with hq | rfl | hq
              · have : q.timestamp.tdiv w < cur.timestamp.tdiv w := hpw.2.2 q hq cur (by simp) (by rw [hqh, hser, hvh])
                omega
              · rfl
              · have : cur.timestamp.tdiv w < q.timestamp.tdiv w := hpw.2.1.1 q hq (by rw [hqh, hser, hvh])
                omega
            subst hcur
            refine ⟨cur.addAssign v, by rw [h']; simp, hcs, ?_, hper, hsome, rfl, ?_⟩
            · intro r hr hrs
              rw [h'] at hr
              simp only [List.mem_append, List.mem_cons] at hr
              rcases hr with hr | rfl | hr
              · exact hnew r (by rw [h]; simp [hr]) hrs
              · exact Int.le_refl _
              · exact hnew r (by rw [h]; simp [hr]) hrs
            · exact List.mem_append_left _ hbin
          | fresh A B hp h h' =>
            have := (hp.resolve_left (by rw [hper]; simp)) q (by rw [← h]; exact hq) (by rw [hqh, hvh])
            have : v.timestamp.tdiv w < q.timestamp.tdiv w := this
            omega
          | carry A B q' hp hser hb h h' =>
            have hqs' : OfSeries n tags q' := ofSeries_iff.2 (by rw [hser, hvh])
            have hcur : q' = q := by
              rw [h] at hq hpw
              rw [h'] at hpw1
              simp only [List.mem_append, List.mem_cons] at hq
              rw [List.pairwise_append, List.pairwise_cons] at hpw
              rw [List.pairwise_append, List.pairwise_cons, List.pairwise_cons] at hpw1
              rcases hq with hq | rfl | hq
              · have h1 : q.timestamp.tdiv w < q'.timestamp.tdiv w := hpw.2.2 q hq q' (by simp) (by rw [hqh, hser, hvh])
                have h2 := hnew q' (by rw [h]; simp) hqs'
                omega
              · rfl
              · have : v.timestamp.tdiv w < q.timestamp.tdiv w :=
                  hpw1.2.1.2.1 q hq (by rw [carried_hashInput, hqh, hser, hvh])
                omega
            subst hcur
            have hcarr : (carried q' v).timestamp.tdiv w = v.timestamp.tdiv w := rfl
            refine ⟨carried q' v, by rw [h']; simp, ofSeries_iff.2 (by rw [carried_hashInput, hqh]), ?_, ?_, ?_, ?_, ?_⟩
            · intro r hr hrs
              rw [hcarr]
              rw [h'] at hr
              simp only [List.mem_append, List.mem_cons] at hr
              have old : r ∈ b.values.flatten → r.timestamp.tdiv w ≤ v.timestamp.tdiv w := fun hm =>
                Int.le_trans (hnew r hm hrs) hqv
              rcases hr with hr | rfl | rfl | hr
              · exact old (by rw [h]; simp [hr])
              · exact old (by rw [h]; simp)
              · exact Int.le_refl _
              · exact old (by rw [h]; simp [hr])
            · simp only [carried, Telemetry.addAssign]; exact hper
            · exact hsome
            · rfl
            · rw [hcarr]; simp
      · -- a point of another series
        rw [if_neg hv]
        have hfil : ([v].filter fun v => decide (OfSeries n tags v)) = [] := by simp [hv]
        rw [hfil]
        simp only [List.map_nil, List.append_nil]
        have hsame : ∀ r, OfSeries n tags r → (r ∈ b1.values.flatten ↔ r ∈ b.values.flatten) := by
          intro r hr
          have hne : ∀ t : Telemetry F, t.hashInput = v.hashInput → r ≠ t := fun t ht e => by
            subst e; exact hv (ofSeries_iff.2 (by rw [← ht]; exact ofSeries_iff.1 hr))
          cases fs with
          | merge A B cur hser hb h h' =>
            rw [h, h']
            have h1 := hne cur hser
            have h2 := hne (cur.addAssign v) (by rw [addAssign_hashInput, hser])
            simp [h1, h2]
          | fresh A B hp h h' => rw [h, h']; have := hne v rfl; simp [this]
          | carry A B q' hp hser hb h h' =>
            rw [h, h']
            have h2 := hne (carried q' v) (by rw [carried_hashInput, hser])
            simp [h2]
        rcases hst with ⟨hnil, hnone⟩ | ⟨q, hq, hqs, hnew, hrest⟩
        · exact .inl ⟨hnil, fun p hp hs => hnone p ((hsame p hs).1 hp) hs⟩
        · exact .inr ⟨q, (hsame q hqs).2 hq, hqs, fun r hr hs => hnew r ((hsame r hs).1 hr) hs, hrest⟩
    | reset now =>
      refine ⟨b.reset now, rfl, hi.reset now, ?_⟩
      simp only [addedPoints, seriesBins, List.append_nil] at hle ⊢
      obtain ⟨b', before, after, c1, c2, c3, -, c4, -⟩ := C12_reset_keeps_persistent hash w hw rev.reverse
        (fun a ha c hc => hsep a (hall a (by simp [ha])) c (hall c (by simp [hc]))) now
      rw [e, Option.some.injEq] at c1
      subst c1
      rw [iter_eq b hi.wf.len, Option.some.injEq] at c2
      rw [iter_eq _ (hi.reset now).wf.len, Option.some.injEq] at c3
      subst c2 c3
      rcases hst with ⟨hnil, hnone⟩ | ⟨q, hq, hqs, hnew, hqp, hx, hlev, hbin⟩
      · refine .inl ⟨hnil, fun p hp hs => ?_⟩
        obtain ⟨q, hq, -, -, rfl⟩ := (c4 p).1 hp
        exact hnone q hq hs
      · refine .inr ⟨{ q with timestamp := now }, (c4 _).2 ⟨q, hq, hqp, fun r hr hs => hnew r hr ?_, rfl⟩, hqs, ?_, hqp, hx, hlev, by simp⟩
        · exact ⟨hs.1.trans hqs.1, hs.2.trans hqs.2⟩
        · intro r hr _
          obtain ⟨q', -, -, -, rfl⟩ := (c4 r).1 hr
          exact Int.le_refl _

/-- **C114** Partial: if the reports of a gauge reach the store in the order of their times, none with a time before a flush that has
happened (up to the width of a bin), then at every moment the newest point stored under the gauge's name and tags has the value that the
reports have made of the gauge, in all bins and over all flushes.  Missing: reports that arrive later than that (`C114_late_false`). -/
theorem C114_store_partial (hash : Str × TagMap → Nat) (w : Int) (hw : w ≠ 0) (ops : List (BucketOp F))
    (hsep : Separates hash (addedPoints ops)) (n : Str) (tags : TagMap)
    (hg : ∀ v ∈ addedPoints ops, OfSeries n tags v → v.persist = true ∧ (v.kind = .set ∨ v.kind = .sum))
    (hord : (seriesBins n tags w ops).Pairwise (· ≤ ·))
    (hsome : ∃ v ∈ addedPoints ops, OfSeries n tags v) :
    ∃ b pts q v, runBucket hash (Buckets.new w) ops = some b ∧ b.iter = some pts ∧ q ∈ pts ∧ OfSeries n tags q ∧
      (∀ r ∈ pts, OfSeries n tags r → r = q ∨ r.timestamp.tdiv w < q.timestamp.tdiv w) ∧
      (q.value = .set v ∨ q.value = .sum v) ∧
      gaugeLevel (((addedPoints ops).filter fun v => OfSeries n tags v).map (·.value)) = some v := by
  obtain ⟨b, e, hi, hst⟩ := stands hash w hw n tags (addedPoints ops) hsep ops.reverse (by simp) (by simpa using hg) (by simpa using hord)
  rw [List.reverse_reverse] at e hst
  rcases hst with ⟨hnil, -⟩ | ⟨q, hq, hqs, hnew, -, ⟨x, hx⟩, hlev, -⟩
  · obtain ⟨v, hv, hs⟩ := hsome
    have hm : v ∈ (addedPoints ops).filter fun v => OfSeries n tags v := by simp [hv, hs]
    rw [List.map_eq_nil_iff] at hnil
    rw [hnil] at hm
    simp at hm
  · refine ⟨b, _, q, x, e, iter_eq b hi.wf.len, hq, hqs, ?_, ?_, by rw [← hlev, hx]⟩
    · intro r hr hrs
      have hle := hnew r hr hrs
      have hpw := hi.pairwise
      obtain ⟨A, B, hAB⟩ := List.append_of_mem hq
      rw [hAB] at hr hpw
      rw [List.pairwise_append, List.pairwise_cons] at hpw
      have heq : r.hashInput = q.hashInput := by rw [ofSeries_iff.1 hrs, ofSeries_iff.1 hqs]
      simp only [List.mem_append, List.mem_cons] at hr
      rcases hr with hr | rfl | hr
      · exact .inr (hpw.2.2 r hr q (by simp) heq)
      · exact .inl rfl
      · have : q.timestamp.tdiv w < r.timestamp.tdiv w := hpw.2.1.1 r hr heq.symm
        omega
    · cases hqv : q.value <;> rw [hqv] at hx <;> simp [num] at hx <;> simp [hx]

/-- Non-vacuity of `C114_store_partial`: absolute and relative reports over two bins and a flush, beside another name. -/
example :
    let p (n : Str) (ts : Int) (v : Value Int) : Telemetry Int := ⟨n, v, true, none, ts, none, none⟩
    let hash : Str × TagMap → Nat := fun x => x.1.length
    let ops : List (BucketOp Int) := [.add 0 (p ['g'] 11 (.set 5)), .add 0 (p ['g'] 12 (.sum 2)), .add 0 (p ['x', 'x'] 9 (.set 1)),
      .add 0 (p ['g'] 25 (.sum (-4))), .reset 27, .add 0 (p ['g'] 28 (.sum 1))]
    (∀ v ∈ addedPoints ops, OfSeries ['g'] [] v → v.persist = true ∧ (v.kind = .set ∨ v.kind = .sum)) ∧
    (seriesBins ['g'] [] 10 ops).Pairwise (· ≤ ·) ∧ (∃ v ∈ addedPoints ops, OfSeries ['g'] [] v) ∧
    gaugeLevel (((addedPoints ops).filter fun v => OfSeries ['g'] [] v).map (·.value)) = some 4 ∧
    ((runBucket hash (Buckets.new 10) ops).bind Buckets.iter) = some [p ['g'] 27 (.sum 4), p ['x', 'x'] 27 (.set 1)] := by
  refine ⟨by decide, by decide, by decide, by decide, by decide⟩

/-- Disagreement: a gauge is set to 5 at second 10; the sink flushes at second 12; a relative report of second 11 arrives after the flush.
The gauge should stand at 6, but the newest point stays at 5, also after the next flush; the report is shown as a gauge of 1, once. -/
theorem C114_late_false :
    let p (ts : Int) (v : Value Int) : Telemetry Int := ⟨['g'], v, true, none, ts, none, none⟩
    let ops : List (BucketOp Int) := [.add 10 (p 10 (.set 5)), .reset 12, .add 12 (p 11 (.sum 1))]
    gaugeLevel ((addedPoints ops).map (·.value)) = some 6 ∧
    ((runBucket (fun _ => 0) (Buckets.new 1) ops).bind Buckets.iter) = some [p 11 (.sum 1), p 12 (.set 5)] ∧
    ((runBucket (fun _ => 0) (Buckets.new 1) (ops ++ [.reset 13])).bind Buckets.iter) = some [p 13 (.set 5)] := by
  refine ⟨by decide, by decide, by decide⟩

open Prometheus Scrape

private theorem level_kept (t : Telemetry F) (ht : t.kind = .set ∨ t.kind = .sum) : ∀ (us : List (Telemetry F)),
    (∀ u ∈ us, u.kind = .set ∨ u.kind = .sum) →
    (∃ x, num (us.foldl Telemetry.addAssign t).value = some x) ∧
    num (us.foldl Telemetry.addAssign t).value = (us.map (·.value)).foldl gaugeStep (num t.value) := by
  intro us
  induction us generalizing t with
  | nil =>
    intro _
    refine ⟨?_, rfl⟩
    cases hv : t.value <;> simp [Telemetry.kind, hv, Value.kind] at ht <;> simp [num, hv]
  | cons u us ih =>
    intro h
    have hu := h u (by simp)
    have hsome : ∃ x, num t.value = some x := by
      cases hv : t.value <;> simp [Telemetry.kind, hv, Value.kind] at ht <;> simp [num]
    obtain ⟨i1, i2⟩ := ih (t.addAssign u) (by rw [addAssign_kind]; exact hu) (fun w hw => h w (by simp [hw]))
    rw [List.foldl_cons]
    refine ⟨i1, ?_⟩
    rw [i2, List.map_cons, List.foldl_cons, ← num_add _ _ hsome hu]
    rfl

/-- **C114** Partial: what a scrape shows of a gauge, whatever is reported of it, is what those of the reports would have made of it that
are of the kind of the first, absolute or relative: the others are ignored.  So it is right if all reports are absolute or all are
relative.  Missing: both (`C114_prometheus_false`). -/
theorem C114_scrape_exact_partial (p : Setup F) (hcap : 1 ≤ p.capacity) (ops : List (Op F)) (hg : GoodOps ops)
    (hlen : ops.length < 2 ^ 64 - 1) (n : Str) (v0 : Value F) (vs : List (Value F)) (hx : (pointsOf n ops).map (·.value) = v0 :: vs)
    (hk : ∀ v ∈ v0 :: vs, v.kind = .set ∨ v.kind = .sum)
    (htags : ∀ t ∈ pointsOf n ops, t.tags = none) (text : List (Line F)) (ht : Tells p ops text) :
    ∃ x, gaugeLevel (v0 :: vs.filter fun v => v.kind = v0.kind) = some x ∧
      ((∀ v ∈ vs, v.kind = v0.kind) → gaugeLevel (v0 :: vs) = some x) ∧
      .sample (sanitize n) p.tags (.real x) ∈ text ∧ typeName v0.kind ∈ typeLines (sanitize n) text ∧
      ((∀ t, .insert t ∈ ops → t.name ≠ n → ¬ Clash t.name n) → samplesNamed (sanitize n) text = [(p.tags, .real x)]) := by
  cases hp : pointsOf n ops with
  | nil => rw [hp] at hx; simp at hx
  | cons t0 us =>
    rw [hp] at hx htags
    simp only [List.map_cons, List.cons.injEq] at hx
    obtain ⟨rfl, rfl⟩ := hx
    have hk0 : t0.kind = .set ∨ t0.kind = .sum := hk t0.value (by simp)
    obtain ⟨⟨x, h1⟩, h2⟩ := level_kept t0 hk0 (us.filter fun u => decide (u.kind = t0.kind))
      (fun u hu => hk u.value (by simp only [List.mem_cons, List.mem_map]; exact .inr ⟨u, (List.mem_filter.1 hu).1, rfl⟩))
    have hnum : num t0.value = gaugeStep none t0.value := by
      cases hv : t0.value <;> simp [Telemetry.kind, hv, Value.kind] at hk0 <;> rfl
    have hfil : (us.filter fun u => decide (u.kind = t0.kind)).map (·.value) =
        (us.map (·.value)).filter fun v => decide (v.kind = t0.value.kind) := by
      rw [List.filter_map]; rfl
    have hlev : gaugeLevel (t0.value :: (us.map (·.value)).filter fun v => decide (v.kind = t0.value.kind)) = some x := by
      rw [← hfil, ← h1, h2, hnum]; rfl
    have hval : ∀ v : Value F, num v = some x → v = .set x ∨ v = .sum x := by
      intro v h; cases v <;> simp [num] at h <;> simp [h]
    have := scrape_shows p hcap ops hg hlen n t0 us hp (htags t0 (by simp)) x (hval _ h1) hk0 text ht
    refine ⟨x, hlev, fun hall => ?_, this⟩
    rw [List.filter_eq_self.2 (fun v hv => by simp [hall v hv])] at hlev
    exact hlev

end

open Statsd Prometheus Scrape
section
variable {F : Type} [F64 F]

private theorem gauges_of (cfg : Config F) (now : Int) (n : Str) : ∀ (rs : List Reading) (pts : List (Telemetry F)),
    rs.map (·.point cfg now) = pts.map some → (∀ r ∈ rs, r.name = n → r.ty = .gauge) →
    (pts.filter fun t => t.name = n).map (·.value) = gaugesOf cfg n rs ∧ (∀ t ∈ pts, t.tags = none) ∧
      ∀ t ∈ pts, t.name = n → t.persist = true ∧ (t.kind = .set ∨ t.kind = .sum) := by
  intro rs
  induction rs with
  | nil => intro pts h _; cases pts with
    | nil => exact ⟨rfl, by simp, by simp⟩
    | cons => simp at h
  | cons r rs ih =>
    intro pts h hc
    cases pts with
    | nil => simp at h
    | cons t pts =>
      simp only [List.map_cons, List.cons.injEq] at h
      obtain ⟨i1, i2, i3⟩ := ih pts h.2 (fun x hx => hc x (by simp [hx]))
      have hp := h.1
      simp only [Reading.point, Option.bind_eq_some_iff, Option.map_eq_some_iff] at hp
      obtain ⟨v, hv, value, hval, rfl⟩ := hp
      by_cases hn : r.name = n
      · have hty := hc r (by simp) hn
        simp only [Reading.pointValue, hty] at hval
        have hval' : value = if r.value.head? = some '+' ∨ r.value.head? = some '-' then .sum v else .set v := by
          split at hval <;> rename_i hs <;> simp only [Option.some.injEq] at hval <;> rw [← hval]
          · rw [if_pos hs]
          · rw [if_neg hs]
        refine ⟨?_, ?_, ?_⟩
        · simp only [gaugesOf] at i1
          simp [gaugesOf, hn, Reading.gauge, hv, i1, hval']
        · intro t ht
          rcases List.mem_cons.1 ht with rfl | ht
          · rfl
          · exact i2 t ht
        · intro t ht htn
          rcases List.mem_cons.1 ht with rfl | ht
          · refine ⟨by simp [hty], ?_⟩
            simp only [Telemetry.kind, hval']
            split
            · exact .inr rfl
            · exact .inl rfl
          · exact i3 t ht htn
      · refine ⟨?_, ?_, ?_⟩
        · simp only [gaugesOf] at i1
          simp [gaugesOf, hn, i1]
        · intro t ht
          rcases List.mem_cons.1 ht with rfl | ht
          · rfl
          · exact i2 t ht
        · intro t ht htn
          rcases List.mem_cons.1 ht with rfl | ht
          · exact absurd htn hn
          · exact i3 t ht htn

/-- **C114** (the source) Of packets that carry readings, the source sends, for a name reported as a gauge, one untagged persistent point
for each reading, in order: an absolute report, or a relative one if the value is signed. -/
theorem C114_source (cfg : Config F) (hu : cfg.Usable) (ha : cfg.AsciiNumbers) (n : Str) :
    ∀ (packets : List (Datagram × List Reading)), (∀ p ∈ packets, Carries cfg p.1 p.2) →
    (∀ p ∈ packets, ∀ r ∈ p.2, r.name = n → r.ty = .gauge) →
    ∃ sent, handleDatagrams cfg (packets.map Prod.fst) [] = (sent, true) ∧
      (sent.filter fun t => t.name = n).map (·.value) = gaugesOf cfg n (packets.flatMap Prod.snd) ∧ (∀ t ∈ sent, t.tags = none) ∧
      ∀ t ∈ sent, t.name = n → t.persist = true ∧ (t.kind = .set ∨ t.kind = .sum) := by
  intro packets
  induction packets with
  | nil => intro _ _; exact ⟨[], rfl, rfl, by simp, by simp⟩
  | cons p packets ih =>
    intro hcar hc
    obtain ⟨d, rs⟩ := p
    obtain ⟨sent, s1, s2, s3, s4⟩ := ih (fun q hq => hcar q (by simp [hq])) (fun q hq => hc q (by simp [hq]))
    obtain ⟨hne, hval, text, ht, hl⟩ := hcar (d, rs) (by simp)
    have ht : d.text = some text := ht
    obtain ⟨pts, hp⟩ := points_exist cfg d.now hu ha rs hval
    have hacc := (C40_packet cfg d.now hu ha text pts).2 ⟨rs, hne, hval, hl, hp⟩
    obtain ⟨t1, t2, t3⟩ := gauges_of cfg d.now n rs pts hp (hc (d, rs) (by simp))
    refine ⟨pts ++ sent, ?_, ?_, ?_, ?_⟩
    · simp only [List.map_cons, handleDatagrams, ht, hacc, s1]
    · rw [List.filter_append, List.map_append, t1, s2]
      simp [gaugesOf, List.filterMap_append]
    · intro t h
      rcases List.mem_append.1 h with h | h
      · exact t2 t h
      · exact s3 t h
    · intro t h
      rcases List.mem_append.1 h with h | h
      · exact t3 t h
      · exact s4 t h

/-- **C114** Partial: clients report a gauge, always absolutely or always relatively, in any packets, any of which may also report other
things.  The Prometheus sink receives the points of that name that the source sent, in their order, among points of other names from
anywhere, with flushes and scrapes at any time.  By some moment it is done with the first `j` of them.  Every scrape answered with a text
after that moment shows what the first `k` reports have made of the gauge, for some `k` not less than `j`.  Missing: absolute and
relative reports under one name (`C114_prometheus_false`). -/
theorem C114_statsd_to_scrape_partial (cfg : Config F) (hu : cfg.Usable) (ha : cfg.AsciiNumbers) (n : Str)
    (packets : List (Datagram × List Reading)) (hcar : ∀ p ∈ packets, Carries cfg p.1 p.2)
    (hc : ∀ p ∈ packets, ∀ r ∈ p.2, r.name = n → r.ty = .gauge)
    (hone : ∀ v ∈ gaugesOf cfg n (packets.flatMap Prod.snd), ∀ v' ∈ gaugesOf cfg n (packets.flatMap Prod.snd), v.kind = v'.kind)
    (p : Setup F) (hcap : 1 ≤ p.capacity) (hage : ∀ a, p.ageThreshold = some a → a < 2 ^ 63) (bound : Bool)
    (before after : List (Scrape.Label F)) (s0 s : Scrape.State F) (h0 : Scrape.run p (.start p bound) before = some s0)
    (h : Scrape.run p s0 after = some s) (hidle : s0.sink = .idle) (halive : s.sink ≠ .panicked)
    (hq : pointsOf n (asked p.ageThreshold (before ++ after)) =
      (handleDatagrams cfg (packets.map Prod.fst) []).1.filter fun t => t.name = n)
    (hg : GoodOps (asked p.ageThreshold (before ++ after))) (hlen : (before ++ after).length < 2 ^ 64 - 1) :
    ∃ new, s.answers = s0.answers ++ new ∧ ∀ r text, (r, some text) ∈ new →
      ∃ k, (pointsOf n (asked p.ageThreshold before)).length ≤ k ∧
        k ≤ (gaugesOf cfg n (packets.flatMap Prod.snd)).length ∧
        ∀ x, gaugeLevel ((gaugesOf cfg n (packets.flatMap Prod.snd)).take k) = some x →
          .sample (sanitize n) p.tags (.real x) ∈ text ∧
          ((∀ t, .insert t ∈ asked p.ageThreshold (before ++ after) → t.name ≠ n → ¬ Clash t.name n) →
            samplesNamed (sanitize n) text = [(p.tags, .real x)]) := by
  obtain ⟨sent, s1, s2, s3, s4⟩ := C114_source cfg hu ha n packets hcar hc
  rw [s1] at hq
  have hnlen : (sent.filter fun t => t.name = n).length = (gaugesOf cfg n (packets.flatMap Prod.snd)).length := by
    have := congrArg List.length s2
    simpa using this
  obtain ⟨new, e1, e2⟩ := scrape_prefix p hage bound before after s0 s h0 h hidle halive n hg hlen
  refine ⟨new, e1, fun r text hm => ?_⟩
  obtain ⟨k, ops, hk1, hk2, hpts, htell, hsub, hgo, hlo⟩ := e2 r text hm
  rw [hq] at hk2 hpts
  simp only at hk2 hpts
  refine ⟨k, hk1, by rw [← hnlen]; exact hk2, fun x hx => ?_⟩
  cases htk : (gaugesOf cfg n (packets.flatMap Prod.snd)).take k with
  | nil => rw [htk] at hx; simp [gaugeLevel] at hx
  | cons v0 vs =>
    rw [htk] at hx
    have hmemv : ∀ v ∈ v0 :: vs, v ∈ gaugesOf cfg n (packets.flatMap Prod.snd) := fun v hv =>
      List.mem_of_mem_take (i := k) (by rw [htk]; exact hv)
    have hv : (pointsOf n ops).map (·.value) = v0 :: vs := by
      rw [hpts, List.map_take, s2, htk]
    have hk : ∀ v ∈ v0 :: vs, v.kind = .set ∨ v.kind = .sum := by
      intro v hv
      have := hmemv v hv
      rw [← s2] at this
      obtain ⟨t, ht, rfl⟩ := List.mem_map.1 this
      have ht := List.mem_filter.1 ht
      exact (s4 t ht.1 (by simpa using ht.2)).2
    have htg : ∀ t ∈ pointsOf n ops, t.tags = none := by
      intro t ht
      rw [hpts] at ht
      exact s3 t (List.mem_filter.1 (List.mem_of_mem_take ht)).1
    obtain ⟨y, -, c1, c2, -, c3⟩ := C114_scrape_exact_partial p hcap ops hgo hlo n v0 vs hv hk htg text htell
    have hy := c1 (fun v hv => hone v (hmemv v (by simp [hv])) v0 (hmemv v0 (by simp)))
    rw [hx, Option.some.injEq] at hy
    subst hy
    exact ⟨c2, fun hcl => c3 (fun t ht hne => hcl t (hsub _ ht) hne)⟩

end

/-! ### Concrete cases, and what is false -/

private def setup : Setup Int := { ext := promExt, tags := [], ageThreshold := none, capacity := 600 }

private def deliveries (pts : List (Telemetry Int)) : List (Scrape.Label Int) := pts.flatMap fun t => [.deliver 9 t, .finish]

/-- a gauge reported absolutely, beside a counter, in two packets -/
private def packets : List (Datagram × List Reading) :=
  [(⟨some "g:2|g\nx:5|c\n".toList, 7⟩, [⟨['g'], ['2'], .gauge, none⟩, ⟨['x'], ['5'], .counter, none⟩]),
   (⟨some "g:3|g".toList, 8⟩, [⟨['g'], ['3'], .gauge, none⟩])]

private def before : List (Scrape.Label Int) := deliveries ((handleDatagrams demo (packets.map Prod.fst) []).1.take 2)

private def after : List (Scrape.Label Int) :=
  deliveries ((handleDatagrams demo (packets.map Prod.fst) []).1.drop 2) ++ [.request, .poll, .recv, .tryLock, .write 9 [1, 0]]

/-- Non-vacuity of `C114_statsd_to_scrape_partial`, `C114_source` and `C114_scrape_exact_partial`. -/
example : demo.Usable ∧ demo.AsciiNumbers ∧ (∀ p ∈ packets, Carries demo p.1 p.2) ∧
    (∀ p ∈ packets, ∀ r ∈ p.2, r.name = ['g'] → r.ty = .gauge) ∧
    gaugesOf demo ['g'] (packets.flatMap Prod.snd) = [.set 2, .set 3] ∧
    (pointsOf ['g'] (asked setup.ageThreshold before)).length = 1 ∧
    pointsOf ['g'] (asked setup.ageThreshold (before ++ after)) =
      ((handleDatagrams demo (packets.map Prod.fst) []).1.filter fun t => t.name = ['g']) ∧
    (∀ o ∈ asked setup.ageThreshold (before ++ after), (match o with
      | .insert t => decide (t.kind ≠ .summarize ∧ (t.name = ['g'] ∨ t.name = ['x'])) | _ => true) = true) ∧ ¬ Clash ['x'] ['g'] ∧
    ∃ s0 s, Scrape.run setup (.start setup true) before = some s0 ∧ Scrape.run setup s0 after = some s ∧ s0.sink = .idle ∧
      s.sink = .idle ∧ s0.answers = [] ∧ s.answers.map (fun x => (x.1, x.2.map fun ls => String.ofList (ls.flatMap (Line.text promExt)))) =
        [(0, some "# TYPE x counter\nx 5\n# TYPE g gauge\ng 3\n")] := by
  refine ⟨⟨by decide, by decide⟩, demo_ascii, ?_, by decide, by decide, by decide +kernel, by decide +kernel, by decide +kernel,
    by simp only [Clash]; decide, _, _, rfl, rfl, rfl, rfl, rfl, by decide +kernel⟩
  intro p hp
  simp only [packets, List.mem_cons, List.not_mem_nil, or_false] at hp
  rcases hp with rfl | rfl
  · refine ⟨by simp, ?_, _, rfl, by decide⟩
    intro r hr
    simp only [List.mem_cons, List.not_mem_nil, or_false] at hr
    rcases hr with rfl | rfl <;> exact ⟨by decide, by decide, by decide, by decide, by simp⟩
  · refine ⟨by simp, ?_, _, rfl, by decide⟩
    intro r hr
    simp only [List.mem_cons, List.not_mem_nil, or_false] at hr
    subst hr
    exact ⟨by decide, by decide, by decide, by decide, by simp⟩

/-- Disagreement: a client sets a gauge to 5 and then changes it by +1 and by -3.  It stands at 3; every scrape of the Prometheus sink
shows 5, because the relative reports reach the sink as counters and it keeps one kind per name. -/
theorem C114_prometheus_false :
    let packet : Datagram := ⟨some "g:5|g\ng:+1|g\ng:-3|g".toList, 7⟩
    let rs : List Reading := [⟨['g'], ['5'], .gauge, none⟩, ⟨['g'], ['+', '1'], .gauge, none⟩, ⟨['g'], ['-', '3'], .gauge, none⟩]
    lines (packet.text.getD []) = rs.map Reading.text ∧ gaugeLevel (gaugesOf demo ['g'] rs) = some 3 ∧
    ∃ s, Scrape.run setup (.start setup true) (deliveries (handleDatagrams demo [packet] []).1 ++
        [.request, .poll, .recv, .tryLock, .write 9 [0]]) = some s ∧
      s.answers.map (fun x => (x.1, x.2.map fun ls => String.ofList (ls.flatMap (Line.text promExt)))) =
        [(0, some "# TYPE g gauge\ng 5\n")] := by
  refine ⟨by decide, by decide, _, rfl, by decide +kernel⟩

end Verif
