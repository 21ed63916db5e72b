import Verif.Lemmas.Timers
import Verif.Props.WavefrontTotals
/-!
# C134: timers from a statsd packet to Wavefront
-/
namespace Verif
open Wavefront Statsd Buckets
variable {F : Type} [F64 F]

private theorem count_merges [LawfulSketch F] (k : Kind) (hk : k = .summarize ∨ k = .histogram) :
    Merges Adds.nat (Telemetry.count (F := F)) (fun t => t.kind = k ∧ t.persist = false ∧ t.overrideCount = none) := by
  refine ⟨?_, fun a h => h.2.1⟩
  rintro a b ⟨a1, a2, a3⟩ ⟨b1, b2, b3⟩
  simp only [Telemetry.kind] at a1 b1
  rcases hk with rfl | rfl
  · cases ha : a.value <;> simp [ha, Value.kind] at a1
    cases hb : b.value <;> simp [hb, Value.kind] at b1
    simp [Telemetry.addAssign, Telemetry.kind, Telemetry.count, Value.count, Value.kind, Value.add, ha, hb, a3, b2, b3, LawfulSketch.ckms_merge, Adds.nat]
  · cases ha : a.value <;> simp [ha, Value.kind] at a1
    cases hb : b.value <;> simp [hb, Value.kind] at b1
    simp [Telemetry.addAssign, Telemetry.kind, Telemetry.count, Value.count, Value.kind, Value.add, ha, hb, a3, b2, b3, LawfulSketch.hist_merge, Adds.nat]

private theorem samples_merges [LawfulAdd F] :
    Merges Adds.float (fun t : Telemetry F => t.samplesSum.getD F64.zero)
      (fun t => t.kind = .summarize ∧ t.persist = false ∧ t.overrideSampleSum = none) := by
  refine ⟨?_, fun a h => h.2.1⟩
  rintro a b ⟨a1, a2, a3⟩ ⟨b1, b2, b3⟩
  simp only [Telemetry.kind] at a1 b1
  cases ha : a.value <;> simp [ha, Value.kind] at a1
  cases hb : b.value <;> simp [hb, Value.kind] at b1
  simp [Telemetry.addAssign, Telemetry.kind, Telemetry.samplesSum, Value.kind, Value.add, ha, hb, a3, b2, b3, Adds.float]

private theorem countNamed_eq (n : Str) (pts : List (Telemetry F)) : countNamed n pts = weigh Adds.nat Telemetry.count n pts := rfl

private theorem samplesNamed_eq [LawfulAdd F] (n : Str) (pts : List (Telemetry F)) :
    samplesNamed n pts = weigh Adds.float (fun t => t.samplesSum.getD F64.zero) n pts := rfl

/-- **C134** (the store) For every history of additions and resets whose series the hash distinguishes, whatever else is in it: if the
points of a name are all summaries, or all histograms, then the samples counted by what the flushes show under that name and by what the store
still holds of it are together as many as those of the points added under it. -/
theorem C134_store [LawfulSketch F] (hash : Str × TagMap → Nat) (w : Int) (hw : w ≠ 0) (ops : List (BucketOp F))
    (hsep : Separates hash (addedPoints ops)) (n : Str) (k : Kind) (hk : k = .summarize ∨ k = .histogram)
    (hc : ∀ v ∈ addedPoints ops, v.name = n → v.kind = k ∧ v.persist = false ∧ v.overrideCount = none) :
    ∃ snaps b left, flushSnaps hash (Buckets.new w) ops = some snaps ∧ runBucket hash (Buckets.new w) ops = some b ∧
      b.iter = some left ∧ (∀ p ∈ snaps.flatten, p.name = n → p.kind = k) ∧
      countNamed n snaps.flatten + countNamed n left = countNamed n (addedPoints ops) := by
  obtain ⟨snaps, b, h1, h2, h3, h4, -, h6⟩ := flushed_weighs (count_merges k hk) hash (seriesOf (addedPoints ops)) w hw
    (separates_inj hsep) n ops (Buckets.new w) (Inv.new ..) (by simp [KNamed, Buckets.new]) (fun v hv => ⟨v, hv, rfl⟩) hc
  refine ⟨snaps, b, _, h1, h2, h3, fun p hp hn => (h4 p hp hn).1, ?_⟩
  simp only [countNamed_eq]
  have h6 : _ + _ = _ + _ := h6
  rw [h6]
  simp [Buckets.new, weigh, Adds.nat]

/-- The same for the sums of the samples of summaries. -/
theorem C134_store_samples [LawfulAdd F] (hash : Str × TagMap → Nat) (w : Int) (hw : w ≠ 0) (ops : List (BucketOp F))
    (hsep : Separates hash (addedPoints ops)) (n : Str)
    (hc : ∀ v ∈ addedPoints ops, v.name = n → v.kind = .summarize ∧ v.persist = false ∧ v.overrideSampleSum = none) :
    ∃ snaps b left, flushSnaps hash (Buckets.new w) ops = some snaps ∧ runBucket hash (Buckets.new w) ops = some b ∧
      b.iter = some left ∧ (∀ p ∈ snaps.flatten, p.name = n → p.kind = .summarize) ∧
      F64.add (samplesNamed n snaps.flatten) (samplesNamed n left) = samplesNamed n (addedPoints ops) := by
  obtain ⟨snaps, b, h1, h2, h3, h4, -, h6⟩ := flushed_weighs samples_merges hash (seriesOf (addedPoints ops)) w hw
    (separates_inj hsep) n ops (Buckets.new w) (Inv.new ..) (by simp [KNamed, Buckets.new]) (fun v hv => ⟨v, hv, rfl⟩) hc
  refine ⟨snaps, b, _, h1, h2, h3, fun p hp hn => (h4 p hp hn).1, ?_⟩
  simp only [samplesNamed_eq]
  have h6 : F64.add _ _ = F64.add _ _ := h6
  rw [h6]
  simp [Buckets.new, weigh, Adds.float, LawfulAdd.zero_add]

/-! ## The source -/

/-- The readings of a packet, as points: what holds of each point of a reading of this name and how their weights add up. -/
private theorem points_weigh {M : Type} (mo : Adds M) (m : Telemetry F → M) (K : Telemetry F → Prop) (of : Reading → M)
    (cfg : Config F) (now : Int) (n : Str) : ∀ (rs : List Reading) (pts : List (Telemetry F)),
    rs.map (·.point cfg now) = pts.map some →
    (∀ r ∈ rs, r.name = n → ∀ t, r.point cfg now = some t → K t ∧ m t = of r) →
    KNamed K n pts ∧ weigh mo m n pts = (rs.filter fun r => r.name = n).foldr (fun r acc => mo.add (of r) acc) mo.zero := by
  intro rs
  induction rs with
  | nil => intro pts h _; cases pts with
    | nil => exact ⟨by simp [KNamed], rfl⟩
    | cons => simp at h
  | cons r rs ih =>
    intro pts h hc
    cases pts with
    | nil => simp at h
    | cons t pts =>
      simp only [List.map_cons, List.cons.injEq] at h
      obtain ⟨i1, i2⟩ := ih pts h.2 (fun x hx => hc x (by simp [hx]))
      have hname : t.name = r.name := by
        have hp := h.1
        simp only [Reading.point, Option.bind_eq_some_iff, Option.map_eq_some_iff] at hp
        obtain ⟨v, _, value, _, rfl⟩ := hp
        rfl
      by_cases hn : r.name = n
      · obtain ⟨k1, k2⟩ := hc r (by simp) hn t h.1
        constructor
        · intro p hp hpn
          rcases List.mem_cons.1 hp with rfl | hp
          · exact k1
          · exact i1 p hp hpn
        · rw [weigh_cons, weigh_one mo m n t (hname.trans hn), i2, k2, List.filter_cons_of_pos (by simp [hn]), List.foldr_cons]
      · constructor
        · intro p hp hpn
          rcases List.mem_cons.1 hp with rfl | hp
          · exact absurd (hname.symm.trans hpn) hn
          · exact i1 p hp hpn
        · rw [weigh_cons, weigh_other mo m n t (fun e => hn (hname.symm.trans e)), mo.zero_add, i2,
            List.filter_cons_of_neg (by simp [hn])]

private theorem readings_points (cfg : Config F) (now : Int) (hu : cfg.Usable) (ha : cfg.AsciiNumbers) (rs : List Reading)
    (hv : ∀ r ∈ rs, r.Valid cfg) : ∃ pts : List (Telemetry F), rs.map (·.point cfg now) = pts.map some := by
  induction rs with
  | nil => exact ⟨[], rfl⟩
  | cons r rs ih =>
    obtain ⟨pts, h⟩ := ih (fun x hx => hv x (by simp [hx]))
    obtain ⟨t, ht, -⟩ := (C40_line cfg now hu ha r.text).1 r (hv r (by simp)) rfl
    exact ⟨t :: pts, by simp [h, ht]⟩

private theorem foldr_append {M : Type} (mo : Adds M) (of : Reading → M) (a b : List Reading) :
    (a ++ b).foldr (fun r acc => mo.add (of r) acc) mo.zero =
      mo.add (a.foldr (fun r acc => mo.add (of r) acc) mo.zero) (b.foldr (fun r acc => mo.add (of r) acc) mo.zero) := by
  induction a with
  | nil => simp [mo.zero_add]
  | cons r a ih => rw [List.cons_append, List.foldr_cons, List.foldr_cons, ih, mo.assoc]

private theorem source_weigh {M : Type} (mo : Adds M) (m : Telemetry F → M) (K : Telemetry F → Prop) (of : Reading → M)
    (cfg : Config F) (hu : cfg.Usable) (ha : cfg.AsciiNumbers) (n : Str) :
    ∀ (packets : List (Datagram × List Reading)), (∀ p ∈ packets, Carries cfg p.1 p.2) →
    (∀ p ∈ packets, ∀ r ∈ p.2, r.name = n → ∀ now t, r.point cfg now = some t → K t ∧ m t = of r) →
    ∃ sent, handleDatagrams cfg (packets.map Prod.fst) [] = (sent, true) ∧ KNamed K n sent ∧
      weigh mo m n sent = ((packets.flatMap Prod.snd).filter fun r => r.name = n).foldr (fun r acc => mo.add (of r) acc) mo.zero := by
  intro packets
  induction packets with
  | nil => intro _ _; exact ⟨[], rfl, by simp [KNamed], rfl⟩
  | cons p packets ih =>
    intro hcar hc
    obtain ⟨d, rs⟩ := p
    obtain ⟨sent, s1, s2, s3⟩ := ih (fun q hq => hcar q (by simp [hq])) (fun q hq => hc q (by simp [hq]))
    obtain ⟨hne, hval, text, ht, hl⟩ := hcar (d, rs) (by simp)
    have ht : d.text = some text := ht
    obtain ⟨pts, hp⟩ := readings_points cfg d.now hu ha rs hval
    have hacc := (C40_packet cfg d.now hu ha text pts).2 ⟨rs, hne, hval, hl, hp⟩
    obtain ⟨t1, t2⟩ := points_weigh mo m K of cfg d.now n rs pts hp (fun r hr hn t h => hc (d, rs) (by simp) r hr hn d.now t h)
    refine ⟨pts ++ sent, ?_, ?_, ?_⟩
    · simp only [List.map_cons, handleDatagrams, ht, hacc, s1]
    · intro t h hn
      rcases List.mem_append.1 h with h | h
      · exact t1 t h hn
      · exact s2 t h hn
    · rw [weigh_append, t2, s3, List.flatMap_cons, List.filter_append, foldr_append]

private theorem ones (n : Str) (rs : List Reading) :
    (rs.filter fun r => r.name = n).foldr (fun _ acc => Adds.nat.add 1 acc) Adds.nat.zero = readingsNamed n rs := by
  induction rs with
  | nil => rfl
  | cons r rs ih =>
    by_cases h : r.name = n
    · rw [List.filter_cons_of_pos (by simp [h]), List.foldr_cons, ih]
      simp [readingsNamed, h, Adds.nat, Nat.add_comm]
    · rw [List.filter_cons_of_neg (by simp [h]), ih]
      simp [readingsNamed, h]

/-- **C134** (the source) Of packets that carry readings, the source sends points of which those of a name reported as a timer count
exactly as many samples as there are readings under it; where no mapping makes histograms of them they are summaries, and their samples add up to
exactly what the packets report. -/
theorem C134_source [LawfulSketch F] [LawfulAdd F] (cfg : Config F) (hu : cfg.Usable) (ha : cfg.AsciiNumbers) (n : Str)
    (packets : List (Datagram × List Reading)) (hcar : ∀ p ∈ packets, Carries cfg p.1 p.2)
    (hc : Timed cfg n (packets.flatMap Prod.snd)) :
    ∃ sent, handleDatagrams cfg (packets.map Prod.fst) [] = (sent, true) ∧
      (∀ t ∈ sent, t.name = n → t.kind = .summarize ∧ t.persist = false ∧ t.overrideCount = none ∧ t.overrideSampleSum = none) ∧
      countNamed n sent = readingsNamed n (packets.flatMap Prod.snd) ∧
      samplesNamed n sent = totalReported cfg n (packets.flatMap Prod.snd) := by
  have hpt : ∀ p ∈ packets, ∀ r ∈ p.2, r.name = n → ∀ now (t : Telemetry F), r.point cfg now = some t →
      (t.kind = .summarize ∧ t.persist = false ∧ t.overrideCount = none ∧ t.overrideSampleSum = none) ∧ t.count = 1 ∧
        some (t.samplesSum.getD F64.zero) = r.number cfg := by
    intro p hp r hr hn now t h
    have hty := hc.1 r (List.mem_flatMap.2 ⟨p, hp, hr⟩) hn
    simp only [Reading.point, Option.bind_eq_some_iff, Option.map_eq_some_iff] at h
    obtain ⟨v, hv, value, hval, rfl⟩ := h
    have hm := hc.2
    rw [← hn] at hm
    have hval : value = .quantiles (F64.ckmsInsert (F64.ckmsNew cfg.summarizeErrorBound) v) v := by
      rcases hty with e | e <;> simp only [Reading.pointValue, e, hm, Option.some.injEq] at hval <;> exact hval.symm
    subst hval
    have hg : decide (r.ty = .gauge) = false := by rcases hty with e | e <;> simp [e]
    simp [Telemetry.kind, Value.kind, hg, Telemetry.count, Value.count, LawfulSketch.ckms_insert, LawfulSketch.ckms_new,
      Telemetry.samplesSum, hv]
  obtain ⟨sent, s1, s2, s3⟩ := source_weigh Adds.nat Telemetry.count _ (fun _ => 1) cfg hu ha n packets hcar
    (fun p hp r hr hn now t h => ⟨(hpt p hp r hr hn now t h).1, (hpt p hp r hr hn now t h).2.1⟩)
  obtain ⟨sent', s1', -, s3'⟩ := source_weigh (Adds.float (F := F)) (fun t => t.samplesSum.getD F64.zero) (fun _ => True)
    (fun r => (r.number cfg).getD F64.zero) cfg hu ha n packets hcar
    (fun p hp r hr hn now t h => ⟨trivial, by
      have := (hpt p hp r hr hn now t h).2.2
      rw [← this]; rfl⟩)
  rw [s1] at s1'
  simp only [Prod.mk.injEq, and_true] at s1'
  subst s1'
  refine ⟨sent, s1, s2, ?_, ?_⟩
  · rw [countNamed_eq, s3, ones]
  · rw [samplesNamed_eq, s3']
    have hnum : ∀ r ∈ packets.flatMap Prod.snd, (r.number cfg).isSome := by
      intro r hr
      obtain ⟨p, hp, hr⟩ := List.mem_flatMap.1 hr
      obtain ⟨-, hval, -⟩ := hcar p hp
      obtain ⟨t, ht, -⟩ := (C40_line cfg 0 hu ha r.text).1 r (hval r hr) rfl
      cases h : r.number cfg with
      | some v => rfl
      | none => simp [Reading.point, h] at ht
    generalize packets.flatMap Prod.snd = rs at hnum
    induction rs with
    | nil => rfl
    | cons r rs ih =>
      have ih := ih (fun x hx => hnum x (by simp [hx]))
      obtain ⟨v, hv⟩ := Option.isSome_iff_exists.1 (hnum r (by simp))
      by_cases h : r.name = n
      · rw [List.filter_cons_of_pos (by simp [h]), List.foldr_cons, ih]
        simp [totalReported, hv, h, Adds.float]
      · rw [List.filter_cons_of_neg (by simp [h]), ih]
        simp [totalReported, hv, h]

/-- The same for a name that a mapping makes histograms of, given that a new histogram is empty: every reading is counted once. -/
theorem C134_source_binned [LawfulSketch F] (hnew : ∀ (bs : List F) h, F64.histNew bs = some h → F64.histCount h = 0)
    (cfg : Config F) (hu : cfg.Usable) (ha : cfg.AsciiNumbers) (n : Str)
    (packets : List (Datagram × List Reading)) (hcar : ∀ p ∈ packets, Carries cfg p.1 p.2)
    (hc : Binned cfg n (packets.flatMap Prod.snd)) :
    ∃ sent, handleDatagrams cfg (packets.map Prod.fst) [] = (sent, true) ∧
      (∀ t ∈ sent, t.name = n → t.kind = .histogram ∧ t.persist = false ∧ t.overrideCount = none) ∧
      countNamed n sent = readingsNamed n (packets.flatMap Prod.snd) := by
  obtain ⟨sent, s1, s2, s3⟩ := source_weigh Adds.nat Telemetry.count
    (fun t : Telemetry F => t.kind = .histogram ∧ t.persist = false ∧ t.overrideCount = none) (fun _ => 1) cfg hu ha n packets hcar
    (by
      intro p hp r hr hn now t h
      have hty := hc.1 r (List.mem_flatMap.2 ⟨p, hp, hr⟩) hn
      simp only [Reading.point, Option.bind_eq_some_iff, Option.map_eq_some_iff] at h
      obtain ⟨v, hv, value, hval, rfl⟩ := h
      have hm := hc.2
      rw [← hn] at hm
      obtain ⟨⟨mk, bounds⟩, hm⟩ := Option.isSome_iff_exists.1 hm
      have hval : (F64.histNew (F64.sort bounds)).map (fun h => Value.histogram (F64.histInsert h v)) = some value := by
        rcases hty with e | e <;> simp only [Reading.pointValue, e, hm] at hval <;> exact hval
      obtain ⟨h0, h1, rfl⟩ := Option.map_eq_some_iff.1 hval
      have hg : decide (r.ty = .gauge) = false := by rcases hty with e | e <;> simp [e]
      simp [Telemetry.kind, Value.kind, hg, Telemetry.count, Value.count, LawfulSketch.hist_insert, hnew _ _ h1])
  exact ⟨sent, s1, s2, by rw [countNamed_eq, s3, ones]⟩

/-! ## Wavefront -/

private theorem mem_addedPoints_wf (age : Option Nat) (bs : List (WfFlush F)) :
    ∀ v ∈ addedPoints (wfHistory age bs), ∃ b ∈ bs, ∃ p ∈ b.points, p.2 = v := by
  induction bs with
  | nil => intro v h; simp [wfHistory, addedPoints] at h
  | cons b bs ih =>
    intro v h
    have hw : wfHistory age (b :: bs) = b.adds age ++ ([.reset b.time, .reset b.time] ++ wfHistory age bs) := by simp [wfHistory]
    rw [hw, addedPoints_append, addedPoints_append] at h
    rcases List.mem_append.1 h with h | h
    · rw [WfFlush.adds, wfAdds_points] at h
      obtain ⟨p, hp, rfl⟩ := List.mem_map.1 h
      exact ⟨b, by simp, p, (List.mem_filter.1 hp).1, rfl⟩
    · rcases List.mem_append.1 h with h | h
      · simp [addedPoints] at h
      · obtain ⟨c, hc, hp⟩ := ih v h
        exact ⟨c, by simp [hc], hp⟩

/-- What the store holds at each flush weighs, together, what was added. -/
private theorem wf_weighs {M : Type} {mo : Adds M} {m : Telemetry F → M} {K : Telemetry F → Prop} (hK : Merges mo m K)
    (hash : Str × TagMap → Nat) (S : Str × TagMap → Prop) (w : Int) (hw : w ≠ 0)
    (hinj : ∀ x y, S x → S y → hash x = hash y → x = y) (n : Str) (age : Option Nat) :
    ∀ (bs : List (WfFlush F)) (b0 : Buckets F), Inv hash S w b0 → (∀ p ∈ b0.values.flatten, p.name ≠ n) →
      (∀ b ∈ bs, ∀ p ∈ b.points, S p.2.hashInput) → (∀ b ∈ bs, KNamed K n (b.points.map (·.2))) →
      (∀ b ∈ bs, ∀ p ∈ b.points, p.2.name = n → youngEnough age p = true) →
      ∃ held : List (List (Telemetry F)), held.length = bs.length ∧
        (∀ A b B, bs = A ++ b :: B → ∃ store pts, runBucket hash b0 (wfHistory age A ++ b.adds age) = some store ∧
          store.iter = some pts ∧ held[A.length]? = some pts) ∧
        KNamed K n held.flatten ∧
        weigh mo m n held.flatten = weigh mo m n (bs.flatMap fun b => b.points.map (·.2)) := by
  intro bs
  induction bs with
  | nil => intro b0 _ _ _ _ _; exact ⟨[], rfl, by simp, by simp [KNamed], rfl⟩
  | cons b bs ih =>
    intro b0 hb hn hS hc hy
    have hadd : addedPoints (b.adds age) = (b.points.filter (youngEnough age)).map (·.2) := wfAdds_points _
    have hsub : ∀ v ∈ addedPoints (b.adds age), ∃ p ∈ b.points, p.2 = v := by
      rw [hadd]
      intro v hv
      obtain ⟨p, hp, rfl⟩ := List.mem_map.1 hv
      exact ⟨p, (List.mem_filter.1 hp).1, rfl⟩
    have hSb : ∀ v ∈ addedPoints (b.adds age), S v.hashInput := by
      intro v hv
      obtain ⟨p, hp, rfl⟩ := hsub v hv
      exact hS b (by simp) p hp
    have hcb : KNamed K n (addedPoints (b.adds age)) := by
      intro v hv
      obtain ⟨p, hp, rfl⟩ := hsub v hv
      exact hc b (by simp) p.2 (List.mem_map.2 ⟨p, hp, rfl⟩)
    obtain ⟨snaps, b1, e1, e2, e3, -, e5, e6⟩ := flushed_weighs hK hash S w hw hinj n (b.adds age) b0 hb
      (fun p hp e => absurd e (hn p hp)) hSb hcb
    have hsn : snaps = [] := by
      have : ∀ (l : List (Int × Telemetry F)) (b0 : Buckets F) s,
          flushSnaps hash b0 (l.map fun p => BucketOp.add p.1 p.2) = some s → s = [] := by
        intro l
        induction l with
        | nil => intro b0 s h; simpa [flushSnaps] using h.symm
        | cons p l ihl =>
          intro b0 s h
          simp only [List.map_cons, flushSnaps] at h
          split at h
          · simp at h
          · exact ihl _ _ h
      exact this _ _ _ e1
    have hb1 := run_inv hash S w hw hinj (b.adds age) b0 b1 hb hSb e2
    have hr1 := reset_weighs hK n b.time e5
    have hr2 := reset_weighs hK (b := b1.reset b.time) n b.time (fun p hp e => absurd e (hr1 p hp))
    obtain ⟨held, i1, i2, i3, i4⟩ := ih ((b1.reset b.time).reset b.time) ((hb1.reset _).reset _) hr2
      (fun c h => hS c (by simp [h])) (fun c h => hc c (by simp [h])) (fun c h => hy c (by simp [h]))
    refine ⟨b1.values.flatten :: held, by simp [i1], ?_, ?_, ?_⟩
    · intro A c B hA
      cases A with
      | nil =>
        simp only [List.nil_append, List.cons.injEq] at hA
        obtain ⟨rfl, -⟩ := hA
        exact ⟨b1, _, by simpa [wfHistory] using e2, e3, rfl⟩
      | cons a A =>
        simp only [List.cons_append, List.cons.injEq] at hA
        obtain ⟨rfl, hA⟩ := hA
        obtain ⟨store, pts, s1, s2, s3⟩ := i2 A c B hA
        refine ⟨store, pts, ?_, s2, by simpa using s3⟩
        have : wfHistory age (b :: A) ++ c.adds age =
          b.adds age ++ (.reset b.time :: .reset b.time :: (wfHistory age A ++ c.adds age)) := by simp [wfHistory]
        rw [this, runBucket_append', e2]
        exact s1
    · intro p hp e
      simp only [List.flatten_cons, List.mem_append] at hp
      rcases hp with hp | hp
      · exact e5 p hp e
      · exact i3 p hp e
    · rw [List.flatten_cons, weigh_append, i4, List.flatMap_cons, weigh_append]
      rw [hsn, weigh_none mo m n _ hn, List.flatten_nil, mo.zero_add] at e6
      have h0 : weigh mo m n ([] : List (Telemetry F)) = mo.zero := rfl
      rw [h0, mo.zero_add] at e6
      rw [e6, hadd]
      congr 1
      simp only [weigh]
      congr 1
      have hyb := hy b (by simp)
      generalize b.points = l at hyb
      induction l with
      | nil => rfl
      | cons p l ihl =>
        have ihl := ihl (fun q hq => hyb q (by simp [hq]))
        by_cases hpn : p.2.name = n
        · simp [hyb p (by simp) hpn, hpn, ihl]
        · by_cases hyp : youngEnough age p = true <;> simp [hyp, hpn, ihl]

private theorem pointsNamed_eq (n : Str) (pts : List (Telemetry F)) : pointsNamed n pts = weigh Adds.nat (fun _ => 1) n pts := by
  induction pts with
  | nil => rfl
  | cons p pts ih =>
    rw [weigh_cons, ← ih]
    by_cases h : p.name = n
    · simp [pointsNamed, weigh, h, Adds.nat, Nat.add_comm]
    · simp [pointsNamed, weigh, h, Adds.nat]

private theorem padded_count [LawfulSketch F] (n : Str) {all pts shown : List (Telemetry F)} (h : Padded all pts shown)
    (hall : ∀ p ∈ all, p.name = n → p.kind = .summarize) :
    countNamed n shown + pointsNamed n pts = countNamed n pts + pointsNamed n shown := by
  simp only [countNamed_eq, pointsNamed_eq]
  induction h with
  | nil => rfl
  | @keep pts shown t _ ih =>
    have a1 := weigh_cons Adds.nat Telemetry.count n t shown
    have a2 := weigh_cons Adds.nat (fun _ => 1) n t shown
    have a3 := weigh_cons Adds.nat Telemetry.count n t pts
    have a4 := weigh_cons Adds.nat (fun _ => 1) n t pts
    simp only [Adds.nat] at ih a1 a2 a3 a4 ⊢
    omega
  | @zero pts shown z hz _ ih =>
    obtain ⟨t, ht, z1, -, -, z4, z6, z5⟩ := hz
    have a1 := weigh_cons Adds.nat Telemetry.count n z shown
    have a2 := weigh_cons Adds.nat (fun _ => 1) n z shown
    by_cases e : z.name = n
    · have hk : z.value.kind = .summarize := z4.trans (hall t ht (z1 ▸ e))
      have hone : z.count = 1 := by
        cases hv : z.value with
        | quantiles c s =>
          rw [hv] at z5
          obtain ⟨e, rfl⟩ := z5
          simp [Telemetry.count, z6, hv, Value.count, LawfulSketch.ckms_insert, LawfulSketch.ckms_new]
        | _ => simp [hv, Value.kind] at hk
      rw [weigh_one _ _ n z e] at a1 a2
      rw [hone] at a1
      simp only [Adds.nat] at ih a1 a2 ⊢
      omega
    · rw [weigh_other _ _ n z e] at a1 a2
      simp only [Adds.nat] at ih a1 a2 ⊢
      omega

private theorem weigh_flatten {M : Type} (mo : Adds M) (m : Telemetry F → M) (n : Str) : ∀ (l r : List (List (Telemetry F))), l.length = r.length →
    (∀ (i : Nat) a b, l[i]? = some a → r[i]? = some b → weigh mo m n a = weigh mo m n b) →
    weigh mo m n l.flatten = weigh mo m n r.flatten := by
  intro l
  induction l with
  | nil => intro r h _; cases r <;> simp_all
  | cons a l ih =>
    intro r h hi
    cases r with
    | nil => simp at h
    | cons b r =>
      rw [List.flatten_cons, List.flatten_cons, weigh_append, weigh_append, hi 0 a b rfl rfl,
        ih r (by simpa using h) (fun i x y hx hy => hi (i + 1) x y (by simpa using hx) (by simpa using hy))]

private theorem counts_flatten (n : Str) : ∀ (l r : List (List (Telemetry F))), l.length = r.length →
    (∀ (i : Nat) a b, l[i]? = some a → r[i]? = some b →
      countNamed n a + pointsNamed n b = countNamed n b + pointsNamed n a) →
    countNamed n l.flatten + pointsNamed n r.flatten = countNamed n r.flatten + pointsNamed n l.flatten := by
  intro l
  induction l with
  | nil => intro r h _; cases r <;> simp_all
  | cons a l ih =>
    intro r h hi
    cases r with
    | nil => simp at h
    | cons b r =>
      have h0 := hi 0 a b rfl rfl
      have h1 := ih r (by simpa using h) (fun i x y hx hy => hi (i + 1) x y (by simpa using hx) (by simpa using hy))
      simp only [countNamed_eq, pointsNamed_eq, List.flatten_cons, weigh_append, Adds.nat] at h0 h1 ⊢
      omega

/-- Merging keeps the series and leaves the kind of the point that came last. -/
private theorem addAssign_kind (a b : Telemetry F) : (a.addAssign b).kind = b.kind := by
  simp only [Telemetry.addAssign, Telemetry.kind]
  cases a.value <;> cases b.value <;> rfl

/-- **C134 (Wavefront)** The Wavefront sink is given, among points of other names, with flush pulses at any time, points of a name that
are all summaries or all histograms, until `Shutdown`; none of them is further off the sink's clock than it allows.  Then what the store holds at
its flushes counts under the name exactly the samples of the points, and each flush writes what the store holds, padded.  Summaries that
are written count one sample more for each padding point; if padding is off for the kind, and the hash tells the points apart, what is
written counts exactly the samples of the points. -/
theorem C134_wavefront_partial [LawfulSketch F] (n : Str) (k : Kind) (hk : k = .summarize ∨ k = .histogram) (sent : List (Telemetry F))
    (s2 : ∀ t ∈ sent, t.name = n → t.kind = k ∧ t.persist = false ∧ t.overrideCount = none)
    (ext : Wavefront.Ext F) (interval : Nat) (clock : Nat → Int) (os : Nat → List Io) (w : Int) (hw : w ≠ 0)
    (ps : List (Str × F)) (age : Option Nat) (connected : Bool) (pc : PadControl) (tags : TagMap)
    (hage : ∀ a, age = some a → a < 2 ^ 63) (sources steps : Nat) (recv : List (Option (Event F))) (h)
    (hq : ((pointsIn (untilShutdown (arrivals recv))).filter fun t => t.name = n).Perm
      (sent.filter fun t => t.name = n))
    (hsep : Separates ext.nameTagHash (pointsIn (untilShutdown (arrivals recv))))
    (hret : (SinkRun.steps (wavefrontImpl ext interval clock os) sources steps
      { state := some { state := State.init w ps age connected pc tags }, queue := recv }).returned = true)
    (hs : (SinkRun.steps (wavefrontImpl ext interval clock os) sources steps
      { state := some { state := State.init w ps age connected pc tags }, queue := recv }).state = some h)
    (hyoung : ∀ t ∈ pointsIn (untilShutdown (arrivals recv)), t.name = n → ∀ i < h.calls, youngEnough age (clock i, t) = true) :
    ∃ held shown : List (List (Telemetry F)), h.log.length = shown.length ∧ shown.length = held.length ∧
      (∀ (i : Nat) pts, shown[i]? = some pts → ∃ hd W text, held[i]? = some hd ∧ Padded hd hd pts ∧
        h.log[i]? = some (W ++ [.complete text]) ∧
        (∀ e ∈ W, ∃ n, e = .part (text.take n) ∨ e = .delay n) ∧
        ∀ vals, Ordered ext vals → (∀ t ∈ pts, ∀ x, printed ps t x → vals x) →
          text = (pts.map (pointText ext ps tags)).flatten) ∧
      countNamed n held.flatten = countNamed n sent ∧
      (k = .summarize → countNamed n shown.flatten + pointsNamed n held.flatten = countNamed n sent + pointsNamed n shown.flatten) ∧
      (pads pc k = false → HashOk ext (pointsIn (untilShutdown (arrivals recv))) → countNamed n shown.flatten = countNamed n sent) := by
  obtain ⟨bs, c1, c2, c3, c4⟩ := C86_wavefront ext interval clock os w ps age connected pc tags hage sources steps recv h hret hs
  have hmem : ∀ b ∈ bs, ∀ p ∈ b.points, p.2 ∈ pointsIn (untilShutdown (arrivals recv)) := by
    intro b hb p hp
    rw [← c1]
    exact List.mem_flatMap.2 ⟨b, hb, List.mem_map.2 ⟨p, hp, rfl⟩⟩
  have hcn : ∀ b ∈ bs, KNamed (fun t => t.kind = k ∧ t.persist = false ∧ t.overrideCount = none) n (b.points.map (·.2)) := by
    intro b hb v hv hn
    obtain ⟨p, hp, rfl⟩ := List.mem_map.1 hv
    have : p.2 ∈ sent.filter fun t => t.name = n := hq.subset (by simp [hmem b hb p hp, hn])
    exact s2 _ (List.mem_filter.1 this).1 hn
  have hy : ∀ b ∈ bs, ∀ p ∈ b.points, p.2.name = n → youngEnough age p = true := by
    intro b hb p hp hn
    have : p.1 ∈ (List.range h.calls).map clock := by
      rw [← c2]
      exact List.mem_flatMap.2 ⟨b, hb, by simp only [List.mem_append, List.mem_map]; exact .inl ⟨p, hp, rfl⟩⟩
    obtain ⟨i, hi, hip⟩ := List.mem_map.1 this
    have := hyoung p.2 (hmem b hb p hp) hn i (List.mem_range.1 hi)
    rw [hip] at this
    exact this
  have hinj := separates_inj hsep
  obtain ⟨held, d1, d2, d3, d4⟩ := wf_weighs (count_merges k hk) ext.nameTagHash (seriesOf (pointsIn (untilShutdown (arrivals recv)))) w hw
    hinj n age bs (Buckets.new w) (Inv.new ..) (by simp [Buckets.new])
    (fun b hb p hp => ⟨p.2, hmem b hb p hp, rfl⟩) hcn hy
  obtain ⟨shown, l1, l2⟩ := exists_list (fun i pts => ∃ hd, held[i]? = some hd ∧ Padded hd hd pts ∧
      (HashOk ext (pointsIn (untilShutdown (arrivals recv))) → pads pc k = false →
        (pts.filter fun t => t.kind = k) = hd.filter fun t => t.kind = k) ∧
      ∃ W text, h.log[i]? = some (W ++ [.complete text]) ∧
        (∀ e ∈ W, ∃ n, e = .part (text.take n) ∨ e = .delay n) ∧
        ∀ vals, Ordered ext vals → (∀ t ∈ pts, ∀ x, printed ps t x → vals x) →
          text = (pts.map (pointText ext ps tags)).flatten) bs.length (by
    intro i hi
    have hsplit : bs = bs.take i ++ bs[i] :: bs.drop (i + 1) := by simp
    have hlen : (bs.take i).length = i := by simp; omega
    obtain ⟨store, pts, shown, text, W, q1, q2, q3, -, q4, q5, q6, q7⟩ := c4 _ _ _ hsplit
    obtain ⟨store', pts', r1, r2, r3⟩ := d2 _ _ _ hsplit
    rw [q1] at r1
    simp only [Option.some.injEq] at r1
    subst r1
    rw [q2] at r2
    simp only [Option.some.injEq] at r2
    subst r2
    rw [hlen] at q5 r3
    have hops : ∀ v ∈ addedPoints (wfHistory age (bs.take i) ++ (bs[i]).adds age), v ∈ pointsIn (untilShutdown (arrivals recv)) := by
      intro v hv
      rw [addedPoints_append] at hv
      rcases List.mem_append.1 hv with hv | hv
      · obtain ⟨b, hb, p, hp, rfl⟩ := mem_addedPoints_wf age _ v hv
        exact hmem b (List.mem_of_mem_take hb) p hp
      · rw [WfFlush.adds, wfAdds_points] at hv
        obtain ⟨p, hp, rfl⟩ := List.mem_map.1 hv
        exact hmem _ (List.getElem_mem ..) p (List.mem_filter.1 hp).1
    have hinv := run_inv ext.nameTagHash (seriesOf (pointsIn (untilShutdown (arrivals recv)))) w hw hinj _ _ store (Inv.new ..)
      (fun v hv => ⟨v, hops v hv, rfl⟩) q1
    have hfl : pts = store.values.flatten := by
      rw [iter_eq store hinv.wf.len] at q2
      exact (Option.some.inj q2).symm
    refine ⟨shown, pts, r3, q3, ?_, W, text, q5, q6, q7⟩
    intro hhash hoff
    refine q4 ?_ k hoff
    have hQ := store_closed ext.nameTagHash (seriesOf (pointsIn (untilShutdown (arrivals recv)))) w hw hinj
      (fun p => ∃ v ∈ pointsIn (untilShutdown (arrivals recv)), p.hashInput = v.hashInput ∧ p.kind = v.kind)
      (by
        rintro a b hab ⟨v, hv, e1, e2⟩
        exact ⟨v, hv, hab.trans e1, (addAssign_kind a b).trans e2⟩)
      (by
        rintro a now ⟨v, hv, e1, e2⟩
        exact ⟨v, hv, e1, e2⟩)
      _ _ store (Inv.new ..) (by simp [Buckets.new]) (fun v hv => ⟨⟨v, hops v hv, rfl⟩, v, hops v hv, rfl, rfl⟩) q1
    intro a ha b hb hab
    rw [hfl] at ha hb
    obtain ⟨va, ma, a1, a2⟩ := hQ a ha
    obtain ⟨vb, mb, b1, b2⟩ := hQ b hb
    have := hhash va ma vb mb (by simpa [telemHash, a1, a2, b1, b2] using hab)
    exact ⟨sameSeries_iff.2 (by rw [a1, b1]; exact sameSeries_iff.1 this.1), by rw [a2, b2]; exact this.2⟩)
  have hheld : countNamed n held.flatten = countNamed n sent := by
    rw [countNamed_eq, d4, c1, ← weigh_filter, weigh_perm _ _ n hq, weigh_filter, countNamed_eq]
  have hkb : ∀ (i : Nat) b, held[i]? = some b → ∀ p ∈ b, p.name = n → p.kind = k :=
    fun i b hb p hp hn => (d3 p (List.mem_flatten.2 ⟨b, List.mem_of_getElem? hb, hp⟩) hn).1
  refine ⟨held, shown, by rw [c3, l1], by rw [l1, d1], ?_, hheld, ?_, ?_⟩
  · intro i pts hi
    obtain ⟨hd, g1, g2, -, W, text, g4⟩ := l2 i pts hi
    exact ⟨hd, W, text, g1, g2, g4⟩
  · intro hks
    rw [← hheld]
    refine counts_flatten n shown held (by rw [l1, d1]) ?_
    intro i a b ha hb
    obtain ⟨hd, g1, g2, -⟩ := l2 i a ha
    rw [hb] at g1
    simp only [Option.some.injEq] at g1
    subst g1
    exact padded_count n g2 (fun p hp hn => (hkb i b hb p hp hn).trans hks)
  · intro hoff hhash
    rw [← hheld, countNamed_eq, countNamed_eq]
    refine weigh_flatten _ _ n shown held (by rw [l1, d1]) ?_
    intro i a b ha hb
    obtain ⟨hd, g1, g2, g3, -⟩ := l2 i a ha
    rw [hb] at g1
    simp only [Option.some.injEq] at g1
    subst g1
    have g3 := g3 hhash hoff
    have hka : ∀ p ∈ a, p.name = n → p.kind = k := by
      have hb' := hkb i b hb
      have : ∀ {all pts shown : List (Telemetry F)}, Padded all pts shown → (∀ p ∈ all, p.name = n → p.kind = k) →
          (∀ p ∈ pts, p.name = n → p.kind = k) → ∀ p ∈ shown, p.name = n → p.kind = k := by
        intro all pts shown hP hall
        induction hP with
        | nil => intro _ p hp; simp at hp
        | keep t _ ih =>
          intro hpts p hp hn
          rcases List.mem_cons.1 hp with rfl | hp
          · exact hpts p (by simp) hn
          · exact ih (fun q hq => hpts q (by simp [hq])) p hp hn
        | zero z hz _ ih =>
          intro hpts p hp hn
          rcases List.mem_cons.1 hp with rfl | hp
          · obtain ⟨t, ht, z1, -, -, z4, -⟩ := hz
            rw [z4]; exact hall t ht (z1 ▸ hn)
          · exact ih hpts p hp hn
      exact this g2 hb' hb'
    have hfk : ∀ l : List (Telemetry F), (∀ p ∈ l, p.name = n → p.kind = k) →
        (l.filter fun t => t.name = n) = (l.filter fun t => t.kind = k).filter fun t => t.name = n := by
      intro l hl
      rw [List.filter_filter]
      refine List.filter_congr ?_
      intro p hp
      by_cases e : p.name = n
      · simp [e, hl p hp e]
      · simp [e]
    simp only [weigh]
    rw [hfk a hka, g3, ← hfk b (hkb i b hb)]

/-- **C134** Clients report a timer, for which no mapping makes histograms, in any packets, any of which may also report other things.  The
Wavefront sink receives, among points of other names from anywhere, with flush pulses at any time, the points the source sent, until
`Shutdown`.  No point of the timer is further off the sink's clock than the sink allows.  Then the counts written under the timer's name,
over all flushes, add up to the number of readings the clients sent and one for each point of padding; without padding of
summaries they add up to exactly the number of readings. -/
theorem C134_statsd_to_wavefront_partial [LawfulSketch F] [LawfulAdd F] (cfg : Config F) (hu : cfg.Usable) (ha : cfg.AsciiNumbers) (n : Str)
    (packets : List (Datagram × List Reading)) (hcar : ∀ p ∈ packets, Carries cfg p.1 p.2)
    (hc : Timed cfg n (packets.flatMap Prod.snd))
    (ext : Wavefront.Ext F) (interval : Nat) (clock : Nat → Int) (os : Nat → List Io) (w : Int) (hw : w ≠ 0)
    (ps : List (Str × F)) (age : Option Nat) (connected : Bool) (pc : PadControl) (tags : TagMap)
    (hage : ∀ a, age = some a → a < 2 ^ 63) (sources steps : Nat) (recv : List (Option (Event F))) (h)
    (hq : ((pointsIn (untilShutdown (arrivals recv))).filter fun t => t.name = n).Perm
      ((handleDatagrams cfg (packets.map Prod.fst) []).1.filter fun t => t.name = n))
    (hsep : Separates ext.nameTagHash (pointsIn (untilShutdown (arrivals recv))))
    (hret : (SinkRun.steps (wavefrontImpl ext interval clock os) sources steps
      { state := some { state := State.init w ps age connected pc tags }, queue := recv }).returned = true)
    (hs : (SinkRun.steps (wavefrontImpl ext interval clock os) sources steps
      { state := some { state := State.init w ps age connected pc tags }, queue := recv }).state = some h)
    (hyoung : ∀ t ∈ pointsIn (untilShutdown (arrivals recv)), t.name = n → ∀ i < h.calls, youngEnough age (clock i, t) = true) :
    ∃ held shown : List (List (Telemetry F)), h.log.length = shown.length ∧ shown.length = held.length ∧
      (∀ (i : Nat) pts, shown[i]? = some pts → ∃ hd W text, held[i]? = some hd ∧ Padded hd hd pts ∧
        h.log[i]? = some (W ++ [.complete text]) ∧
        (∀ e ∈ W, ∃ n, e = .part (text.take n) ∨ e = .delay n) ∧
        ∀ vals, Ordered ext vals → (∀ t ∈ pts, ∀ x, printed ps t x → vals x) →
          text = (pts.map (pointText ext ps tags)).flatten) ∧
      countNamed n held.flatten = readingsNamed n (packets.flatMap Prod.snd) ∧
      countNamed n shown.flatten + pointsNamed n held.flatten =
        readingsNamed n (packets.flatMap Prod.snd) + pointsNamed n shown.flatten ∧
      (pc.summarize = false → HashOk ext (pointsIn (untilShutdown (arrivals recv))) →
        countNamed n shown.flatten = readingsNamed n (packets.flatMap Prod.snd)) := by
  obtain ⟨sent, s1, s2, s3, -⟩ := C134_source cfg hu ha n packets hcar hc
  rw [s1] at hq
  obtain ⟨held, shown, e1, e2, e3, e4, e5, e6⟩ := C134_wavefront_partial n .summarize (.inl rfl) sent
    (fun t ht hn => ⟨(s2 t ht hn).1, (s2 t ht hn).2.1, (s2 t ht hn).2.2.1⟩)
    ext interval clock os w hw ps age connected pc tags hage sources steps recv h hq hsep hret hs hyoung
  rw [s3] at e4 e5 e6
  exact ⟨held, shown, e1, e2, e3, e4, e5 rfl, e6⟩

/-! ## A run -/

/-- two packets: a timer beside a counter, then the timer again twice, in one bin and across a gap -/
private def packets : List (Datagram × List Reading) :=
  [(⟨some "a:2|ms\nxxx:5|c\n".toList, 7⟩, [⟨['a'], ['2'], .timer, none⟩, ⟨['x', 'x', 'x'], ['5'], .counter, none⟩]),
   (⟨some "a:3|ms\na:4|h".toList, 10⟩, [⟨['a'], ['3'], .timer, none⟩, ⟨['a'], ['4'], .histogram, none⟩])]

private def queue : List (Option (Event Int)) :=
  (handleDatagrams demo (packets.map Prod.fst) []).1.map (fun t => some (.telemetry t)) ++ [some (.timerFlush 1), some .shutdown]

/-- what the sink writes for them -/
private def written (pc : PadControl) : Bool × Option (List (List String)) :=
  let r := SinkRun.steps (wavefrontImpl { wfExt with showF := fun x => (toString x).toList, showN := fun x => (toString x).toList } 1
      (fun _ => 9) (fun _ => [.ok, .ok])) 1 30
    { state := some { state := State.init 1 [(['m', 'a', 'x'], 1)] (some 3) true pc [] }, queue := queue }
  (r.returned, r.state.map fun h => h.log.map fun b => b.filterMap fun e => match e with
    | .complete t => some (String.ofList t)
    | _ => none)

private theorem packets_carry : ∀ p ∈ packets, Carries demo p.1 p.2 := by
  intro p hp
  simp only [packets, List.mem_cons, List.not_mem_nil, or_false] at hp
  rcases hp with rfl | rfl
  · refine ⟨by simp, ?_, _, rfl, by decide⟩
    intro r hr
    simp only [List.mem_cons, List.not_mem_nil, or_false] at hr
    rcases hr with rfl | rfl <;> exact ⟨by decide, by decide, by decide, by decide, by simp⟩
  · refine ⟨by simp, ?_, _, rfl, by decide⟩
    intro r hr
    simp only [List.mem_cons, List.not_mem_nil, or_false] at hr
    rcases hr with rfl | rfl <;> exact ⟨by decide, by decide, by decide, by decide, by simp⟩

/-- Three readings of a timer, two of them in one bin: without padding the two lines of counts add up to three. -/
example : demo.Usable ∧ demo.AsciiNumbers ∧ (∀ p ∈ packets, Carries demo p.1 p.2) ∧ Timed demo ['a'] (packets.flatMap Prod.snd) ∧
    readingsNamed ['a'] (packets.flatMap Prod.snd) = 3 ∧
    Separates wfExt.nameTagHash (pointsIn (untilShutdown (arrivals queue))) ∧ HashOk wfExt (pointsIn (untilShutdown (arrivals queue))) ∧
    (∀ t ∈ pointsIn (untilShutdown (arrivals queue)), t.name = ['a'] → youngEnough (some 3) (9, t) = true) ∧
    written { wfPadAll with summarize := false } = (true, some [["a.max 2 ttttttt \na.count 1 ttttttt \na.mean 2 ttttttt \na.max 4 tttttttttt \na.count 2 tttttttttt \na.mean 3 tttttttttt \nxxx 5 ttttttt \n"], [""]]) := by
  refine ⟨⟨by decide, by decide⟩, demo_ascii, packets_carry, ⟨by decide, by decide⟩, by decide +kernel, by unfold Separates; decide +kernel,
    by unfold HashOk SameLine SameSeries; decide +kernel, by decide +kernel, by decide +kernel⟩

/-- **C134, as claimed, is false**: with padding of summaries the same three readings are counted as five, each point of padding
counting a sample nobody reported. -/
theorem C134_padding_false : (∀ p ∈ packets, Carries demo p.1 p.2) ∧ readingsNamed ['a'] (packets.flatMap Prod.snd) = 3 ∧
    written wfPadAll = (true, some [["a.max 2 ttttttt \na.count 1 ttttttt \na.mean 2 ttttttt \n" ++
      "a.max 0 tttttttt \na.count 1 tttttttt \na.mean 0 tttttttt \na.max 0 ttttttttt \na.count 1 ttttttttt \na.mean 0 ttttttttt \n" ++
      "a.max 4 tttttttttt \na.count 2 tttttttttt \na.mean 3 tttttttttt \nxxx 5 ttttttt \n"], [""]]) :=
  ⟨packets_carry, by decide +kernel, by decide +kernel⟩

/-- A history for the store: three samples of a histogram in two bins, a flush between them, beside a gauge that stays. -/
example : let ops : List (BucketOp Int) := [.add 1 ⟨['h'], .histogram ⟨[5], [2]⟩, false, none, 1, none, none⟩, .add 1 (wfGauge "gg" 4 1),
      .add 1 ⟨['h'], .histogram ⟨[5], [7]⟩, false, none, 1, none, none⟩, .reset 2, .add 3 ⟨['h'], .histogram ⟨[5], [1]⟩, false, none, 3, none, none⟩]
    Separates (fun x => x.1.length) (addedPoints ops) ∧
    (∀ v ∈ addedPoints ops, v.name = ['h'] → v.kind = .histogram ∧ v.persist = false ∧ v.overrideCount = none) ∧
    countNamed ['h'] (addedPoints ops) = 3 ∧ (flushSnaps (fun x => x.1.length) (Buckets.new 1) ops).map (·.map (countNamed ['h'])) = some [2] := by
  refine ⟨by unfold Separates; decide +kernel, by decide +kernel, by decide +kernel, by decide +kernel⟩

/-- One for summaries, where the sums are kept too. -/
example : let ops : List (BucketOp Int) := [.add 1 ⟨['s'], .quantiles [2] 2, false, none, 1, none, none⟩,
      .add 1 ⟨['s'], .quantiles [7] 7, false, none, 1, none, none⟩, .reset 2, .add 3 ⟨['s'], .quantiles [1] 1, false, none, 3, none, none⟩]
    Separates (fun x => x.1.length) (addedPoints ops) ∧
    (∀ v ∈ addedPoints ops, v.name = ['s'] → v.kind = .summarize ∧ v.persist = false ∧ v.overrideSampleSum = none) ∧
    samplesNamed ['s'] (addedPoints ops) = 10 ∧ (flushSnaps (fun x => x.1.length) (Buckets.new 1) ops).map (·.map (samplesNamed ['s'])) = some [9] := by
  refine ⟨by unfold Separates; decide +kernel, by decide +kernel, by decide +kernel, by decide +kernel⟩

/-- A packet for a name that a mapping makes histograms of; the assumption holds of the witness for floats. -/
example : (∀ (bs : List Int) h, F64.histNew bs = some h → F64.histCount h = 0) ∧ Binned demo ['h'] [⟨['h'], ['2'], .timer, none⟩] ∧
    Carries demo ⟨some "h:2|ms".toList, 7⟩ [⟨['h'], ['2'], .timer, none⟩] := by
  refine ⟨?_, ⟨by decide, by decide⟩, by simp, ?_, _, rfl, by decide⟩
  · intro bs h e
    have e : some (⟨bs, []⟩ : IHist) = some h := e
    rw [← Option.some.inj e]; rfl
  · intro r hr
    simp only [List.mem_singleton] at hr
    subst hr
    exact ⟨by decide, by decide, by decide, by decide, by simp⟩

end Verif
