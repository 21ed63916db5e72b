import Verif.Props.SinkWavefront
import Verif.Props.Totals
/-!
# C112: counters from a statsd packet to Wavefront and InfluxDB
-/
namespace Verif
open Wavefront Statsd Buckets
variable {F : Type} [F64 F]

theorem run_inv (hash : Str × TagMap → Nat) (S : Str × TagMap → Prop) (w : Int) (hw : w ≠ 0)
    (hinj : ∀ x y, S x → S y → hash x = hash y → x = y) :
    ∀ (ops : List (BucketOp F)) (b b' : Buckets F), Inv hash S w b → (∀ v ∈ addedPoints ops, S v.hashInput) →
      runBucket hash b ops = some b' → Inv hash S w b' := by
  intro ops
  induction ops with
  | nil => intro b b' hb _ h; simp only [runBucket, Option.some.injEq] at h; exact h ▸ hb
  | cons o ops ih =>
    intro b b' hb hS h
    cases o with
    | add now v =>
      obtain ⟨b1, kp, kq, vp, vq, row, row', ins, h1, h2, -⟩ := hb.add hw hinj now v (hS v (by simp [addedPoints]))
      simp only [runBucket, h1] at h
      exact ih b1 b' h2 (fun u hu => hS u (by simp [addedPoints, hu])) h
    | reset now =>
      exact ih _ b' (hb.reset now) (fun u hu => hS u (by simpa [addedPoints] using hu)) h

theorem wfAdds_points (l : List (Int × Telemetry F)) :
    addedPoints (l.map fun p => BucketOp.add p.1 p.2) = l.map (·.2) := by
  induction l with
  | nil => rfl
  | cons p l ih => simp [addedPoints, ih]

/-- What the store holds at each flush adds up to what was added. -/
private theorem wf_total [LawfulAdd F] (hash : Str × TagMap → Nat) (S : Str × TagMap → Prop) (w : Int) (hw : w ≠ 0)
    (hinj : ∀ x y, S x → S y → hash x = hash y → x = y) (n : Str) (age : Option Nat) :
    ∀ (bs : List (WfFlush F)) (b0 : Buckets F), Inv hash S w b0 → (∀ p ∈ b0.values.flatten, p.name ≠ n) →
      (∀ b ∈ bs, ∀ p ∈ b.points, S p.2.hashInput) → (∀ b ∈ bs, CountersNamed n (b.points.map (·.2))) →
      (∀ b ∈ bs, ∀ p ∈ b.points, p.2.name = n → youngEnough age p = true) →
      ∃ held : List (List (Telemetry F)), held.length = bs.length ∧
        (∀ A b B, bs = A ++ b :: B → ∃ store pts, runBucket hash b0 (wfHistory age A ++ b.adds age) = some store ∧
          store.iter = some pts ∧ held[A.length]? = some pts) ∧
        CountersNamed n held.flatten ∧
        totalNamed n held.flatten = totalNamed n (bs.flatMap fun b => b.points.map (·.2)) := by
  intro bs
  induction bs with
  | nil => intro b0 _ _ _ _ _; exact ⟨[], rfl, by simp, by simp [CountersNamed], rfl⟩
  | cons b bs ih =>
    intro b0 hb hn hS hc hy
    have hadd : addedPoints (b.adds age) = (b.points.filter (youngEnough age)).map (·.2) := wfAdds_points _
    have hsub : ∀ v ∈ addedPoints (b.adds age), ∃ p ∈ b.points, p.2 = v := by
      rw [hadd]
      intro v hv
      obtain ⟨p, hp, rfl⟩ := List.mem_map.1 hv
      exact ⟨p, (List.mem_filter.1 hp).1, rfl⟩
    have hSb : ∀ v ∈ addedPoints (b.adds age), S v.hashInput := by
      intro v hv
      obtain ⟨p, hp, rfl⟩ := hsub v hv
      exact hS b (by simp) p hp
    have hcb : CountersNamed n (addedPoints (b.adds age)) := by
      intro v hv
      obtain ⟨p, hp, rfl⟩ := hsub v hv
      exact hc b (by simp) p.2 (List.mem_map.2 ⟨p, hp, rfl⟩)
    obtain ⟨snaps, b1, e1, e2, e3, -, e5, e6⟩ := flushed_total hash S w hw hinj n (b.adds age) b0 hb
      (fun p hp e => absurd e (hn p hp)) hSb hcb
    have hsn : snaps = [] := by
      have : ∀ (l : List (Int × Telemetry F)) (b0 : Buckets F) s,
          flushSnaps hash b0 (l.map fun p => BucketOp.add p.1 p.2) = some s → s = [] := by
        intro l
        induction l with
        | nil => intro b0 s h; simpa [flushSnaps] using h.symm
        | cons p l ihl =>
          intro b0 s h
          simp only [List.map_cons, flushSnaps] at h
          split at h
          · simp at h
          · exact ihl _ _ h
      exact this _ _ _ e1
    have hb1 := run_inv hash S w hw hinj (b.adds age) b0 b1 hb hSb e2
    have hr1 := reset_named n b.time e5
    have hr2 := reset_named (b := b1.reset b.time) n b.time (fun p hp e => absurd e (hr1 p hp))
    obtain ⟨held, i1, i2, i3, i4⟩ := ih ((b1.reset b.time).reset b.time) ((hb1.reset _).reset _) hr2
      (fun c h => hS c (by simp [h])) (fun c h => hc c (by simp [h])) (fun c h => hy c (by simp [h]))
    refine ⟨b1.values.flatten :: held, by simp [i1], ?_, ?_, ?_⟩
    · intro A c B hA
      cases A with
      | nil =>
        simp only [List.nil_append, List.cons.injEq] at hA
        obtain ⟨rfl, -⟩ := hA
        exact ⟨b1, _, by simpa [wfHistory] using e2, e3, rfl⟩
      | cons a A =>
        simp only [List.cons_append, List.cons.injEq] at hA
        obtain ⟨rfl, hA⟩ := hA
        obtain ⟨store, pts, s1, s2, s3⟩ := i2 A c B hA
        refine ⟨store, pts, ?_, s2, by simpa using s3⟩
        have : wfHistory age (b :: A) ++ c.adds age =
          b.adds age ++ (.reset b.time :: .reset b.time :: (wfHistory age A ++ c.adds age)) := by simp [wfHistory]
        rw [this, runBucket_append', e2]
        exact s1
    · intro p hp e
      simp only [List.flatten_cons, List.mem_append] at hp
      rcases hp with hp | hp
      · exact e5 p hp e
      · exact i3 p hp e
    · rw [List.flatten_cons, totalNamed_append, i4, List.flatMap_cons, totalNamed_append]
      rw [hsn, totalNamed_none n _ hn, List.flatten_nil, LawfulAdd.zero_add] at e6
      have h0 : totalNamed n ([] : List (Telemetry F)) = F64.zero := rfl
      rw [h0, LawfulAdd.zero_add] at e6
      rw [e6, hadd]
      congr 1
      simp only [totalNamed]
      congr 1
      have hyb := hy b (by simp)
      generalize b.points = l at hyb
      induction l with
      | nil => rfl
      | cons p l ihl =>
        have ihl := ihl (fun q hq => hyb q (by simp [hq]))
        by_cases hpn : p.2.name = n
        · simp [hyb p (by simp) hpn, hpn, ihl]
        · by_cases hyp : youngEnough age p = true <;> simp [hyp, hpn, ihl]

private theorem padded_total [LawfulAdd F] (n : Str) {all pts shown : List (Telemetry F)} (h : Padded all pts shown)
    (hall : CountersNamed n all) (hpts : CountersNamed n pts) :
    totalNamed n shown = totalNamed n pts ∧ ∀ p ∈ shown, p.name = n → p.kind = .sum := by
  induction h with
  | nil => exact ⟨rfl, by simp⟩
  | keep t _ ih =>
    obtain ⟨h1, h2⟩ := ih (fun p hp => hpts p (by simp [hp]))
    refine ⟨by rw [totalNamed_cons, h1, ← totalNamed_cons], ?_⟩
    intro p hp hn
    rcases List.mem_cons.1 hp with rfl | hp
    · exact (hpts p (by simp) hn).1
    · exact h2 p hp hn
  | zero z hz _ ih =>
    obtain ⟨h1, h2⟩ := ih hpts
    obtain ⟨t, ht, z1, -, -, z4, -, z5⟩ := hz
    have hk : z.name = n → z.kind = .sum := fun e => by rw [z4]; exact (hall t ht (z1 ▸ e)).1
    refine ⟨?_, ?_⟩
    · rw [totalNamed_cons, h1]
      by_cases e : z.name = n
      · have hv : z.value = .sum F64.zero := by
          have := hk e
          cases hzv : z.value with
          | sum v => rw [hzv] at z5; simp only at z5; rw [z5]
          | _ => simp [Telemetry.kind, hzv, Value.kind] at this
        simp [totalNamed, e, sumTotal, Telemetry.sum, hv, LawfulAdd.zero_add]
      · rw [totalNamed_other n z e, LawfulAdd.zero_add]
    · intro p hp hn
      rcases List.mem_cons.1 hp with rfl | hp
      · exact hk hn
      · exact h2 p hp hn

theorem exists_list {α : Type} (P : Nat → α → Prop) : ∀ k, (∀ i < k, ∃ x, P i x) →
    ∃ l : List α, l.length = k ∧ ∀ (i : Nat) x, l[i]? = some x → P i x := by
  intro k
  induction k with
  | zero => intro _; exact ⟨[], rfl, by simp⟩
  | succ k ih =>
    intro h
    obtain ⟨l, h1, h2⟩ := ih (fun i hi => h i (by omega))
    obtain ⟨x, hx⟩ := h k (by omega)
    refine ⟨l ++ [x], by simp [h1], ?_⟩
    intro i y hy
    by_cases hi : i < l.length
    · rw [List.getElem?_append_left hi] at hy; exact h2 i y hy
    · rw [List.getElem?_append_right (by omega)] at hy
      have : i - l.length = 0 := by
        have := (List.getElem?_eq_some_iff.1 hy).1
        simp at this; omega
      rw [this] at hy
      simp only [List.getElem?_cons_zero, Option.some.injEq] at hy
      subst hy
      have : i = k := by omega
      exact this ▸ hx

private theorem total_flatten [LawfulAdd F] (n : Str) : ∀ (l m : List (List (Telemetry F))), l.length = m.length →
    (∀ (i : Nat) a b, l[i]? = some a → m[i]? = some b → totalNamed n a = totalNamed n b) →
    totalNamed n l.flatten = totalNamed n m.flatten := by
  intro l
  induction l with
  | nil => intro m h _; cases m <;> simp_all
  | cons a l ih =>
    intro m h hi
    cases m with
    | nil => simp at h
    | cons b m =>
      rw [List.flatten_cons, List.flatten_cons, totalNamed_append, totalNamed_append, hi 0 a b rfl rfl,
        ih m (by simpa using h) (fun i x y hx hy => hi (i + 1) x y (by simpa using hx) (by simpa using hy))]

/-- **C112 (Wavefront)** The same for the Wavefront sink: the values written under the counter's name, over all its flushes, padding included, add
up to exactly the values of the points it was given. -/
theorem C112_wavefront [LawfulAdd F] (n : Str) (sent : List (Telemetry F))
    (s2 : ∀ t ∈ sent, t.name = n → t.kind = .sum ∧ t.persist = false)
    (ext : Wavefront.Ext F) (interval : Nat) (clock : Nat → Int) (os : Nat → List Io) (w : Int) (hw : w ≠ 0)
    (ps : List (Str × F)) (age : Option Nat) (connected : Bool) (pc : PadControl) (tags : TagMap)
    (hage : ∀ a, age = some a → a < 2 ^ 63) (sources steps : Nat) (recv : List (Option (Event F))) (h)
    (hq : ((pointsIn (untilShutdown (arrivals recv))).filter fun t => t.name = n).Perm
      (sent.filter fun t => t.name = n))
    (hsep : Separates ext.nameTagHash (pointsIn (untilShutdown (arrivals recv))))
    (hret : (SinkRun.steps (wavefrontImpl ext interval clock os) sources steps
      { state := some { state := State.init w ps age connected pc tags }, queue := recv }).returned = true)
    (hs : (SinkRun.steps (wavefrontImpl ext interval clock os) sources steps
      { state := some { state := State.init w ps age connected pc tags }, queue := recv }).state = some h)
    (hyoung : ∀ t ∈ pointsIn (untilShutdown (arrivals recv)), t.name = n → ∀ i < h.calls, youngEnough age (clock i, t) = true) :
    ∃ shown : List (List (Telemetry F)), h.log.length = shown.length ∧
      (∀ (i : Nat) pts, shown[i]? = some pts → ∃ W text, h.log[i]? = some (W ++ [.complete text]) ∧
        (∀ e ∈ W, ∃ n, e = .part (text.take n) ∨ e = .delay n) ∧
        ∀ vals, Ordered ext vals → (∀ t ∈ pts, ∀ x, printed ps t x → vals x) →
          text = (pts.map (pointText ext ps tags)).flatten) ∧
      (∀ p ∈ shown.flatten, p.name = n → p.kind = .sum) ∧
      totalNamed n shown.flatten = totalNamed n sent := by
  obtain ⟨bs, c1, c2, c3, c4⟩ := C86_wavefront ext interval clock os w ps age connected pc tags hage sources steps recv h hret hs
  have hmem : ∀ b ∈ bs, ∀ p ∈ b.points, p.2 ∈ pointsIn (untilShutdown (arrivals recv)) := by
    intro b hb p hp
    rw [← c1]
    exact List.mem_flatMap.2 ⟨b, hb, List.mem_map.2 ⟨p, hp, rfl⟩⟩
  have hcn : ∀ b ∈ bs, CountersNamed n (b.points.map (·.2)) := by
    intro b hb v hv hn
    obtain ⟨p, hp, rfl⟩ := List.mem_map.1 hv
    have : p.2 ∈ sent.filter fun t => t.name = n := hq.subset (by simp [hmem b hb p hp, hn])
    exact s2 _ (List.mem_filter.1 this).1 hn
  have hy : ∀ b ∈ bs, ∀ p ∈ b.points, p.2.name = n → youngEnough age p = true := by
    intro b hb p hp hn
    have : p.1 ∈ (List.range h.calls).map clock := by
      rw [← c2]
      exact List.mem_flatMap.2 ⟨b, hb, by simp only [List.mem_append, List.mem_map]; exact .inl ⟨p, hp, rfl⟩⟩
    obtain ⟨i, hi, hip⟩ := List.mem_map.1 this
    have := hyoung p.2 (hmem b hb p hp) hn i (List.mem_range.1 hi)
    rw [hip] at this
    exact this
  obtain ⟨held, d1, d2, d3, d4⟩ := wf_total ext.nameTagHash (seriesOf (pointsIn (untilShutdown (arrivals recv)))) w hw
    (separates_inj hsep) n age bs (Buckets.new w) (Inv.new ..) (by simp [Buckets.new])
    (fun b hb p hp => ⟨p.2, hmem b hb p hp, rfl⟩) hcn hy
  obtain ⟨shown, l1, l2⟩ := exists_list (fun i pts => ∃ hd, held[i]? = some hd ∧ Padded hd hd pts ∧
      ∃ W text, h.log[i]? = some (W ++ [.complete text]) ∧
        (∀ e ∈ W, ∃ n, e = .part (text.take n) ∨ e = .delay n) ∧
        ∀ vals, Ordered ext vals → (∀ t ∈ pts, ∀ x, printed ps t x → vals x) →
          text = (pts.map (pointText ext ps tags)).flatten) bs.length (by
    intro i hi
    have hsplit : bs = bs.take i ++ bs[i] :: bs.drop (i + 1) := by simp
    have hlen : (bs.take i).length = i := by simp; omega
    obtain ⟨store, pts, shown, text, W, q1, q2, q3, -, -, q5, q6, q7⟩ := c4 _ _ _ hsplit
    obtain ⟨store', pts', r1, r2, r3⟩ := d2 _ _ _ hsplit
    rw [q1] at r1
    simp only [Option.some.injEq] at r1
    subst r1
    rw [q2] at r2
    simp only [Option.some.injEq] at r2
    subst r2
    rw [hlen] at q5 r3
    exact ⟨shown, pts, r3, q3, W, text, q5, q6, q7⟩)
  have hpad : ∀ (i : Nat) a b, shown[i]? = some a → held[i]? = some b →
      totalNamed n a = totalNamed n b ∧ ∀ p ∈ a, p.name = n → p.kind = .sum := by
    intro i a b ha hb
    obtain ⟨hd, g1, g2, -⟩ := l2 i a ha
    rw [hb] at g1
    simp only [Option.some.injEq] at g1
    subst g1
    have hcb : CountersNamed n b := fun p hp => d3 p (List.mem_flatten.2 ⟨b, List.mem_of_getElem? hb, hp⟩)
    exact padded_total n g2 hcb hcb
  refine ⟨shown, by rw [c3, l1], ?_, ?_, ?_⟩
  · intro i pts hi
    obtain ⟨_, _, _, g⟩ := l2 i pts hi
    exact g
  · intro p hp
    obtain ⟨pts, hpts, hp⟩ := List.mem_flatten.1 hp
    obtain ⟨i, hi⟩ := List.mem_iff_getElem?.1 hpts
    obtain ⟨hd, g1, -⟩ := l2 i pts hi
    exact (hpad i pts hd hi g1).2 p hp
  · rw [total_flatten n shown held (by rw [l1, d1]) (fun i a b ha hb => (hpad i a b ha hb).1), d4, c1]
    have hp := totalNamed_perm n hq
    simp only [totalNamed, List.filter_filter, Bool.and_self] at hp
    exact hp

/-- **C112, Wavefront.**  Clients report a counter in any packets, any of which may also report other things.  The Wavefront sink
receives, among points of other names from anywhere, with flush pulses at any time, the points the source sent, until `Shutdown`.  No
point of the counter is further off the sink's clock than the sink allows.  Then the values written under the counter's name, over all
flushes, padding included, add up to exactly what the clients reported. -/
theorem C112_statsd_to_wavefront [LawfulAdd F] (cfg : Config F) (hu : cfg.Usable) (ha : cfg.AsciiNumbers) (n : Str)
    (packets : List (Datagram × List Reading)) (hcar : ∀ p ∈ packets, Carries cfg p.1 p.2)
    (hc : ∀ p ∈ packets, ∀ r ∈ p.2, r.name = n → r.ty = .counter)
    (ext : Wavefront.Ext F) (interval : Nat) (clock : Nat → Int) (os : Nat → List Io) (w : Int) (hw : w ≠ 0)
    (ps : List (Str × F)) (age : Option Nat) (connected : Bool) (pc : PadControl) (tags : TagMap)
    (hage : ∀ a, age = some a → a < 2 ^ 63) (sources steps : Nat) (recv : List (Option (Event F))) (h)
    (hq : ((pointsIn (untilShutdown (arrivals recv))).filter fun t => t.name = n).Perm
      ((handleDatagrams cfg (packets.map Prod.fst) []).1.filter fun t => t.name = n))
    (hsep : Separates ext.nameTagHash (pointsIn (untilShutdown (arrivals recv))))
    (hret : (SinkRun.steps (wavefrontImpl ext interval clock os) sources steps
      { state := some { state := State.init w ps age connected pc tags }, queue := recv }).returned = true)
    (hs : (SinkRun.steps (wavefrontImpl ext interval clock os) sources steps
      { state := some { state := State.init w ps age connected pc tags }, queue := recv }).state = some h)
    (hyoung : ∀ t ∈ pointsIn (untilShutdown (arrivals recv)), t.name = n → ∀ i < h.calls, youngEnough age (clock i, t) = true) :
    ∃ shown : List (List (Telemetry F)), h.log.length = shown.length ∧
      (∀ (i : Nat) pts, shown[i]? = some pts → ∃ W text, h.log[i]? = some (W ++ [.complete text]) ∧
        (∀ e ∈ W, ∃ n, e = .part (text.take n) ∨ e = .delay n) ∧
        ∀ vals, Ordered ext vals → (∀ t ∈ pts, ∀ x, printed ps t x → vals x) →
          text = (pts.map (pointText ext ps tags)).flatten) ∧
      (∀ p ∈ shown.flatten, p.name = n → p.kind = .sum) ∧
      totalNamed n shown.flatten = totalReported cfg n (packets.flatMap Prod.snd) := by
  obtain ⟨sent, s1, s2, s3⟩ := C112_source cfg hu ha n packets hcar hc
  rw [s1] at hq
  rw [← s3]
  exact C112_wavefront n sent s2 ext interval clock os w hw ps age connected pc tags hage sources steps recv h hq hsep hret hs hyoung

/-- **C112 (InfluxDB)** The same for the InfluxDB sink. -/
theorem C112_influxdb [LawfulAdd F] (n : Str) (sent : List (Telemetry F))
    (s2 : ∀ t ∈ sent, t.name = n → t.kind = .sum ∧ t.persist = false)
    (ext : Wavefront.Ext F) (interval : Nat) (os : Nat → List Influx.Outcome) (tags : TagMap)
    (sources steps : Nat) (recv : List (Option (Event F))) (h)
    (hq : ((pointsIn (untilShutdown (arrivals recv))).filter fun t => t.name = n).Perm
      (sent.filter fun t => t.name = n))
    (hret : (SinkRun.steps (influxImpl ext interval os) sources steps
      { state := some { state := Influx.init tags }, queue := recv }).returned = true)
    (hs : (SinkRun.steps (influxImpl ext interval os) sources steps
      { state := some { state := Influx.init tags }, queue := recv }).state = some h) :
    (∀ b ∈ h.log, ∃ text, Influx.formatStats ext tags b.1 = some text ∧ b.2.getLast? = some (.post text)) ∧
    (∀ p ∈ h.log.flatMap (·.1), p.name = n → p.kind = .sum) ∧
    totalNamed n (h.log.flatMap (·.1)) = totalNamed n sent := by
  obtain ⟨c1, c2⟩ := C86_influxdb ext interval os tags sources steps recv h hret hs
  refine ⟨c2, ?_, ?_⟩
  · intro p hp hn
    rw [c1] at hp
    have : p ∈ sent.filter fun t => t.name = n := hq.subset (by simp [hp, hn])
    exact (s2 p (List.mem_filter.1 this).1 hn).1
  · rw [c1]
    have hp := totalNamed_perm n hq
    simp only [totalNamed, List.filter_filter, Bool.and_self] at hp
    exact hp

/-- **C112, InfluxDB.**  The same for the InfluxDB sink, which keeps the points as they come: the values posted under the counter's
name, over all flushes, add up to exactly what the clients reported. -/
theorem C112_statsd_to_influxdb [LawfulAdd F] (cfg : Config F) (hu : cfg.Usable) (ha : cfg.AsciiNumbers) (n : Str)
    (packets : List (Datagram × List Reading)) (hcar : ∀ p ∈ packets, Carries cfg p.1 p.2)
    (hc : ∀ p ∈ packets, ∀ r ∈ p.2, r.name = n → r.ty = .counter)
    (ext : Wavefront.Ext F) (interval : Nat) (os : Nat → List Influx.Outcome) (tags : TagMap)
    (sources steps : Nat) (recv : List (Option (Event F))) (h)
    (hq : ((pointsIn (untilShutdown (arrivals recv))).filter fun t => t.name = n).Perm
      ((handleDatagrams cfg (packets.map Prod.fst) []).1.filter fun t => t.name = n))
    (hret : (SinkRun.steps (influxImpl ext interval os) sources steps
      { state := some { state := Influx.init tags }, queue := recv }).returned = true)
    (hs : (SinkRun.steps (influxImpl ext interval os) sources steps
      { state := some { state := Influx.init tags }, queue := recv }).state = some h) :
    (∀ b ∈ h.log, ∃ text, Influx.formatStats ext tags b.1 = some text ∧ b.2.getLast? = some (.post text)) ∧
    (∀ p ∈ h.log.flatMap (·.1), p.name = n → p.kind = .sum) ∧
    totalNamed n (h.log.flatMap (·.1)) = totalReported cfg n (packets.flatMap Prod.snd) := by
  obtain ⟨sent, s1, s2, s3⟩ := C112_source cfg hu ha n packets hcar hc
  rw [s1] at hq
  rw [← s3]
  exact C112_influxdb n sent s2 ext interval os tags sources steps recv h hq hret hs

/-- two packets: a counter beside a gauge, then the counter again and a sampled one, across a flush;
the counter is padded between its two points of the first flush -/
private def packets : List (Datagram × List Reading) :=
  [(⟨some "a:2|c\nxxx:5|g\n".toList, 7⟩, [⟨['a'], ['2'], .counter, none⟩, ⟨['x', 'x', 'x'], ['5'], .gauge, none⟩]),
   (⟨some "a:3|c\na:4|c|@1".toList, 10⟩, [⟨['a'], ['3'], .counter, none⟩, ⟨['a'], ['4'], .counter, some (true, ['1'])⟩])]

private def queue : List (Option (Event Int)) :=
  let pts := (handleDatagrams demo (packets.map Prod.fst) []).1
  (pts.take 3).map (fun t => some (.telemetry t)) ++ [some (.timerFlush 1)] ++ (pts.drop 3).map (fun t => some (.telemetry t)) ++
    [some (.telemetry ⟨['b', 'b'], .sum 1, false, none, 8, none, none⟩), none, some .shutdown]

example : demo.Usable ∧ demo.AsciiNumbers ∧ (∀ p ∈ packets, Carries demo p.1 p.2) ∧
    (∀ p ∈ packets, ∀ r ∈ p.2, r.name = ['a'] → r.ty = .counter) ∧
    ((pointsIn (untilShutdown (arrivals queue))).filter fun t => t.name = ['a']) =
      (handleDatagrams demo (packets.map Prod.fst) []).1.filter (fun t => t.name = ['a']) ∧
    Separates wfExt.nameTagHash (pointsIn (untilShutdown (arrivals queue))) ∧
    (∀ t ∈ pointsIn (untilShutdown (arrivals queue)), t.name = ['a'] → youngEnough (some 3) (9, t) = true) ∧
    totalReported demo ['a'] (packets.flatMap Prod.snd) = 9 ∧
    let r := SinkRun.steps (wavefrontImpl { wfExt with showF := fun x => (toString x).toList } 1 (fun _ => 9) (fun _ => [.fail 3, .ok, .ok])) 1 30
      { state := some { state := State.init 1 [] (some 3) true wfPadAll [] }, queue := queue }
    r.returned = true ∧ (r.state.map fun h => h.log.map fun b => b.filterMap fun e => match e with
      | .complete t => some (String.ofList t)
      | _ => none) = some
        [["a 2 ttttttt \na 0 tttttttt \na 0 ttttttttt \na 3 tttttttttt \nxxx 5 ttttttt \n"],
          ["a 4 tttttttttt \nbb 1 tttttttt \nxxx 0 tttttttt \nxxx 0 tttttttt \nxxx 5 ttttttttt \n"]] := by
  refine ⟨⟨by decide, by decide⟩, demo_ascii, ?_, by decide, by decide +kernel, by unfold Separates; decide +kernel, by decide +kernel, by decide +kernel, by decide +kernel⟩
  intro p hp
  simp only [packets, List.mem_cons, List.not_mem_nil, or_false] at hp
  rcases hp with rfl | rfl
  · refine ⟨by simp, ?_, _, rfl, by decide⟩
    intro r hr
    simp only [List.mem_cons, List.not_mem_nil, or_false] at hr
    rcases hr with rfl | rfl <;> exact ⟨by decide, by decide, by decide, by decide, by simp⟩
  · refine ⟨by simp, ?_, _, rfl, by decide⟩
    intro r hr
    simp only [List.mem_cons, List.not_mem_nil, or_false] at hr
    rcases hr with rfl | rfl
    · exact ⟨by decide, by decide, by decide, by decide, by simp⟩
    · refine ⟨by decide, by decide, by decide, by decide, ?_⟩
      intro bar rate h
      simp only [Option.some.injEq, Prod.mk.injEq] at h
      rw [← h.2]; decide

/-- The same queue at the InfluxDB sink. -/
example :
    let r := SinkRun.steps (influxImpl { wfExt with showF := fun x => (toString x).toList } 1 (fun _ => [.serverError, .success])) 1 30
      { state := some { state := Influx.init [] }, queue := queue }
    r.returned = true ∧ (r.state.map fun h => h.log.map fun b => totalNamed ['a'] b.1) = some [5, 4] := by
  decide +kernel

end Verif
