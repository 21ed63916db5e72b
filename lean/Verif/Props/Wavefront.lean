import Verif.Lemmas.WavefrontText
import Verif.Props.Buckets
/-!
# C44, C45, C46, C47 (Wavefront), C71, C72: the Wavefront sink
-/
namespace Verif
open Wavefront
section
variable {F : Type} [F64 F]

/-! ## C44: padding keeps every point -/

/-- Every stored point is emitted exactly once and in order; whatever else is emitted is a
zero point made from a stored point.  The padding of a kind that is switched off never appears, provided
the hash of name, tags and kind tells the stored points apart. -/
theorem C44_padding_keeps_points (ext : Ext F) (pts : List (Telemetry F)) (span : Int)
    (seen : LastSeen) (pc : PadControl) :
    storedPoints (padding ext pts span seen pc) = pts ∧
    ∀ t ts, Pad.zero t ts ∈ padding ext pts span seen pc → t ∈ pts ∧ (HashOk ext pts → pads pc t.kind = true) := by
  rw [padding_eq]
  refine ⟨padded_points ext span seen pc pts [], fun t ts h => ?_⟩
  rcases padded_zero ext span seen pc t ts pts [] h with ⟨A, x, y, B, h1, h2, h3, _, h4⟩ | ⟨l, h1, h2, _⟩
  · have hx : x ∈ pts := by rw [h1]; simp
    have hy : y ∈ pts := by rw [h1]; simp
    rcases h4 with ⟨rfl, _⟩ | ⟨rfl, _⟩
    · exact ⟨hx, fun _ => h3⟩
    · exact ⟨hy, fun hash => by rw [(hash t hy x hx h2).2]; exact h3⟩
  · exact ⟨h1, fun _ => h2⟩

/-- With padding switched off for every stored kind, the stored points are all there is. -/
theorem C44_no_padding_when_off (ext : Ext F) (pts : List (Telemetry F)) (span : Int)
    (seen : LastSeen) (pc : PadControl) (hash : HashOk ext pts)
    (off : ∀ t ∈ pts, pads pc t.kind = false) :
    padding ext pts span seen pc = pts.map .telem := by
  obtain ⟨h1, h2⟩ := C44_padding_keeps_points ext pts span seen pc
  have hz : ∀ t ts, Pad.zero t ts ∉ padding ext pts span seen pc := by
    intro t ts h
    have := h2 t ts h
    have hp := this.2 hash
    rw [off t this.1] at hp
    simp at hp
  generalize padding ext pts span seen pc = out at h1 hz
  subst h1
  clear hash off h2
  induction out with
  | nil => rfl
  | cons p out ih =>
    have ih' := ih (fun t ts h => hz t ts (List.mem_cons_of_mem _ h))
    cases p with
    | zero t ts => exact absurd (List.mem_cons_self ..) (hz t ts)
    | telem t =>
      have : storedPoints (.telem t :: out) = t :: storedPoints out := rfl
      rw [this, List.map_cons, ← ih']

/-- What is printed for a zero point: same name, tags, persistence and kind, the padding's own
time, and the value zero (a summary or histogram of the single sample zero). -/
theorem C44_zero_point (now : Int) (t : Telemetry F) (ts : Int)
    (bounds : t.kind = .histogram → (F64.histNew
      [F64.ofNat 1, F64.ofNat 10, F64.ofNat 100, F64.ofNat 1000] : Option (F64.Hist F)).isSome) :
    ∃ z : Telemetry F, (Pad.zero t ts).point now = some z ∧ z.name = t.name ∧ z.tags = t.tags ∧
      z.persist = t.persist ∧ z.kind = t.kind ∧ z.timestamp = ts ∧
      (t.kind = .set → z.value = .set F64.zero) ∧ (t.kind = .sum → z.value = .sum F64.zero) ∧
      (t.kind = .summarize → ∃ e, z.value =
        .quantiles (F64.ckmsInsert (F64.ckmsNew e) F64.zero) F64.zero) ∧
      (t.kind = .histogram → ∃ h, z.value = .histogram (F64.histInsert h F64.zero)) := by
  have hk : t.value.kind = t.kind := rfl
  cases h : t.kind with
  | set => exact ⟨_, by simp only [Pad.point, Telemetry.thaw, SoftTelemetry.setValue, SoftTelemetry.harden, h]; rfl, by simp [SoftTelemetry.build, Telemetry.kind, Value.kind]⟩
  | sum => exact ⟨_, by simp only [Pad.point, Telemetry.thaw, SoftTelemetry.setValue, SoftTelemetry.harden, h]; rfl, by simp [SoftTelemetry.build, Telemetry.kind, Value.kind]⟩
  | summarize => exact ⟨_, by simp only [Pad.point, Telemetry.thaw, SoftTelemetry.setValue, SoftTelemetry.harden, h]; rfl, by simp [SoftTelemetry.build, Telemetry.kind, Value.kind]; exact ⟨_, rfl⟩⟩
  | histogram =>
    obtain ⟨h0, hh⟩ := Option.isSome_iff_exists.mp (bounds h)
    refine ⟨_, by simp only [Pad.point, Telemetry.thaw, SoftTelemetry.setValue, SoftTelemetry.harden, h, Option.getD_none, Option.getD_some, hh]; rfl, ?_⟩
    simp [SoftTelemetry.build, Telemetry.kind, Value.kind]
    exact ⟨_, rfl⟩

/-- Disagreement: a padded histogram does not keep the bounds of its series; the zero point has
the default bounds, so it is printed under bin names the series does not have. -/
theorem C44_histogram_bounds_false :
    ¬ ∀ (now : Int) (t z : Telemetry Int) (ts : Int), (Pad.zero t ts).point now = some z →
      t.bins.map (·.map (·.1)) = z.bins.map (·.map (·.1)) := by
  intro h
  have := h 0 ⟨['h'], .histogram (⟨[5], [3]⟩ : IHist), false, none, 10, none, none⟩
    ⟨['h'], .histogram (⟨[1, 10, 100, 1000], [0]⟩ : IHist), false, none, 7, none, none⟩ 7 rfl
  exact absurd this (by decide)

end

/-- an external world for the examples -/
def wfExt : Ext Int where
  nameTagHash := fun x => x.1.length
  hash := fun x => x.1.1.length
  cmp := fun a b => some (compare a b)
  showF := fun x => if x = 0 then ['z'] else ['v']
  showI := fun t => List.replicate t.natAbs 't'
  showN := fun n => List.replicate n 'n'

/-- a gauge for the examples -/
def wfGauge (name : String) (v ts : Int) : Telemetry Int :=
  ⟨name.toList, .set v, false, none, ts, none, none⟩

/-- all padding on -/
def wfPadAll : PadControl := ⟨true, true, true, true⟩

/-- The points of the examples meet the hypothesis; padding is inserted. -/
example : HashOk wfExt [wfGauge "a" 1 1, wfGauge "a" 2 9, wfGauge "bb" 3 4] := by
  intro a ha b hb; simp only [List.mem_cons, List.not_mem_nil, or_false] at ha hb
  rcases ha with rfl | rfl | rfl <;> rcases hb with rfl | rfl | rfl <;>
    simp [SameLine, SameSeries, wfGauge, telemHash, wfExt, Telemetry.hashInput, Telemetry.kind, Value.kind]

example : (padding wfExt [wfGauge "a" 1 1, wfGauge "a" 2 9, wfGauge "bb" 3 4] 1 (fun _ => none)
    wfPadAll).map Pad.timestamp = [1, 2, 8, 9, 4] := by decide

/-! ## C45: padding brackets gaps -/
section
variable {F : Type} [F64 F]

private theorem rising_of {ext : Ext F} {pts : List (Telemetry F)} (hash : HashOk ext pts)
    (h : InOrder pts) : Rising ext pts := by
  refine List.Pairwise.imp_of_mem ?_ h.1
  intro a c ha hc hac e
  exact hac (hash a ha c hc e)

private theorem grouped_of {ext : Ext F} {pts : List (Telemetry F)} (hash : HashOk ext pts)
    (h : InOrder pts) : Grouped ext pts := by
  intro A x y B e hne z hz he
  have hx : x ∈ pts := by rw [e]; simp
  have hz' : z ∈ pts := by rw [e]; simp [hz]
  exact h.2 A x y B e (fun hs => hne hs.hash) z hz (hash x hx z hz' he)

/-- Every zero point fills a gap of at least two spans, strictly inside it, right after its
start or right before its end.  The gap lies between two consecutive points of the series, or
between the last time the series was seen in an earlier flush and one of its points. -/
theorem C45_pads_inside_gaps (ext : Ext F) (pts : List (Telemetry F)) (span : Int)
    (seen : LastSeen) (pc : PadControl) (hs : 0 < span) (hash : HashOk ext pts)
    (order : InOrder pts) (t : Telemetry F) (ts : Int)
    (h : Pad.zero t ts ∈ padding ext pts span seen pc) :
    ∃ start stop, 2 * span ≤ stop - start ∧ start < ts ∧ ts < stop ∧
      (ts = start + 1 ∨ ts = stop - 1) ∧
      ((∃ A x y B, pts = A ++ x :: y :: B ∧ SameLine x y ∧ SameLine t x ∧ start = x.timestamp ∧
          stop = y.timestamp) ∨
        (t ∈ pts ∧ seen (telemHash ext t) = some start ∧ stop = t.timestamp)) := by
  rw [padding_eq] at h
  rcases padded_zero ext span seen pc t ts pts [] h with ⟨A, x, y, B, h1, h2, h3, h4, h5⟩ | ⟨l, h1, h2, h3, h4, h5, h6⟩
  · have hx : x ∈ pts := by rw [h1]; simp
    have hy : y ∈ pts := by rw [h1]; simp
    have hsl : SameLine x y := hash x hx y hy h2.symm
    have hlt : x.timestamp < y.timestamp := by
      have := order.1
      rw [h1, List.pairwise_append] at this
      exact (List.pairwise_cons.mp this.2.1).1 y (List.mem_cons_self ..) hsl
    have h8 := two_spans hs (by omega) h4
    refine ⟨x.timestamp, y.timestamp, by omega, ?_, ?_, ?_, Or.inl ⟨A, x, y, B, h1, hsl, ?_, rfl, rfl⟩⟩
    · rcases h5 with ⟨_, rfl⟩ | ⟨_, rfl⟩ <;> omega
    · rcases h5 with ⟨_, rfl⟩ | ⟨_, rfl⟩ <;> omega
    · rcases h5 with ⟨_, rfl⟩ | ⟨_, rfl⟩ <;> omega
    · rcases h5 with ⟨rfl, _⟩ | ⟨rfl, _⟩
      · exact hash t hx t hx rfl
      · exact hash t hy x hx h2
  · have h8 := two_spans' hs (by omega) h5
    refine ⟨l, t.timestamp, by omega, by omega, by omega, by omega, Or.inr ⟨h1, h3, rfl⟩⟩

/-- Within every series, what is emitted is in time order. -/
theorem C45_time_order (ext : Ext F) (pts : List (Telemetry F)) (span : Int)
    (seen : LastSeen) (pc : PadControl) (hs : 0 < span) (hash : HashOk ext pts)
    (order : InOrder pts) :
    (padding ext pts span seen pc).Pairwise
      (fun a c => SameLine a.origin c.origin → a.timestamp ≤ c.timestamp) := by
  rw [padding_eq]
  refine (padded_sorted ext span hs seen pc pts [] (rising_of hash order) (grouped_of hash order)
    (fun a ha b hb h => (hash a ha b hb h).2)).imp ?_
  intro a c h hs
  exact h (by rw [hash_origin, hash_origin, hs.hash])

/-- A gap of at least two spans between consecutive points of a series with padding switched on
is bracketed, provided the earlier point is newer than the last time the series was seen. -/
theorem C45_gap_is_padded (ext : Ext F) (pts A B : List (Telemetry F)) (x y : Telemetry F)
    (span : Int) (seen : LastSeen) (pc : PadControl) (hs : 0 < span)
    (hp : pts = A ++ x :: y :: B) (hsl : SameLine x y) (on : pads pc x.kind = true)
    (gap : 2 * span ≤ y.timestamp - x.timestamp)
    (fresh : ∀ l, seen (telemHash ext x) = some l → l < x.timestamp) :
    ∃ P Q, padding ext pts span seen pc = P ++ .telem x :: .zero x (x.timestamp + 1) ::
      .zero y (y.timestamp - 1) :: .telem y :: Q := by
  rw [padding_eq, hp]
  obtain ⟨P, fp, e, _⟩ := padded_suffix ext span seen pc (x :: y :: B) A []
  rw [e]
  obtain ⟨pre, post, fp', e1, _, _, hpost, _, _, _⟩ := paddedS_cons ext span seen pc fp x (y :: B)
  have hh : telemHash ext y = telemHash ext x := hsl.hash.symm
  have hlk : linked ext (telemHash ext x) ((y :: B).map Pad.telem) = true :=
    decide_eq_true (p := telemHash ext y = telemHash ext x) hh
  have hcase : telemHash ext x ∈ fp ∨ seen (telemHash ext x) = none ∨
      ∃ l, seen (telemHash ext x) = some l ∧ l < x.timestamp := by
    cases hse : seen (telemHash ext x) with
    | none => exact Or.inr (Or.inl rfl)
    | some l => exact Or.inr (Or.inr ⟨l, rfl, fresh l hse⟩)
  obtain ⟨hpost, hfp'⟩ := hpost on hlk hcase
  have hgap : post = [.zero x (x.timestamp + 1), .zero y (y.timestamp - 1)] := by
    rw [hpost]
    rcases gapPads_map ext span x (y :: B) with h0 | ⟨y', B', h1, _, _, h4⟩
    · exfalso
      simp only [List.map_cons, gapPads, Pad.hash, hh, if_true, Pad.timestamp] at h0
      by_cases hd : ((x.timestamp - y.timestamp).natAbs : Int).tdiv span = 0 ∨
          ((x.timestamp - y.timestamp).natAbs : Int).tdiv span = 1
      · have e1 : ((x.timestamp - y.timestamp).natAbs : Int) = y.timestamp - x.timestamp := by omega
        rw [e1, Int.tdiv_eq_ediv_of_nonneg (by omega)] at hd
        have : 2 ≤ (y.timestamp - x.timestamp) / span :=
          Int.le_ediv_of_mul_le hs gap
        omega
      · have h0' : ([.zero x (x.timestamp + 1), Pad.zeroAt (y.timestamp - 1) (Pad.telem y)] : List (Pad F)) = [] :=
          (if_neg hd).symm.trans h0
        simp at h0'
    · simp only [List.cons.injEq] at h1
      obtain ⟨rfl, rfl⟩ := h1
      exact h4
  obtain ⟨pre2, post2, fp2, e2, hpre2, _⟩ := paddedS_cons ext span seen pc fp' y B
  have hpre2' : pre2 = [] := by
    rcases hpre2 with ⟨h, _⟩ | ⟨l, h1, _, _, h4, _⟩
    · exact h
    · rw [hh] at h1 h4
      rcases hfp' with h | h
      · exact absurd h h4
      · rw [h] at h1; simp at h1
  refine ⟨P ++ pre, post2 ++ paddedS ext span seen pc fp2 (B.map .telem), ?_⟩
  rw [e1, e2, hgap, hpre2']
  simp

/-- Partial: the time since an earlier flush is bracketed for the first point of a series that
is newer than what was seen, if the next stored point is of the same series or there is none.
Missing: a single point followed by another series (`C45_across_flushes_false`). -/
theorem C45_across_flushes_partial (ext : Ext F) (pts A B : List (Telemetry F)) (x : Telemetry F)
    (span : Int) (seen : LastSeen) (pc : PadControl) (hs : 0 < span)
    (hp : pts = A ++ x :: B) (hash : HashOk ext pts) (on : pads pc x.kind = true)
    (first : ∀ a ∈ A, ¬ SameLine a x)
    (next : ∀ y ys, B = y :: ys → SameLine x y)
    (l : Int) (hl : seen (telemHash ext x) = some l) (gap : 2 * span ≤ x.timestamp - l) :
    ∃ P Q, padding ext pts span seen pc = P ++ .zero x (l + 1) :: .zero x (x.timestamp - 1) ::
      .telem x :: Q := by
  rw [padding_eq]
  subst hp
  obtain ⟨P, fp, e, hfp⟩ := padded_suffix ext span seen pc (x :: B) A []
  rw [e]
  obtain ⟨pre, post, fp', e1, _, _, _, hpre, _, _⟩ := paddedS_cons ext span seen pc fp x B
  have hlk : linked ext (telemHash ext x) (B.map Pad.telem) = true := by
    cases B with
    | nil => rfl
    | cons y ys =>
      exact decide_eq_true (p := telemHash ext y = telemHash ext x) (next y ys rfl).hash.symm
  have hn : telemHash ext x ∉ fp := by
    intro hin
    rcases hfp _ hin with h | ⟨a, ha, h⟩
    · simp at h
    · exact first a ha (hash a (by simp [ha]) x (by simp) h)
  have hd : 1 < (x.timestamp - l).tdiv span := by
    rw [Int.tdiv_eq_ediv_of_nonneg (by omega)]
    have : 2 ≤ (x.timestamp - l) / span := Int.le_ediv_of_mul_le hs gap
    omega
  rw [e1, hpre on hlk l hn hl (by omega) hd]
  exact ⟨P, post ++ paddedS ext span seen pc fp' (B.map .telem), by simp⟩

/-- A store built by any history, whose points of one series have one kind, holds its points in
the order the padding expects. -/
theorem C45_store_in_order (hash : Str × TagMap → Nat) (w : Int) (hw : 0 < w)
    (ops : List (BucketOp F)) (hsep : Separates hash (addedPoints ops)) :
    ∃ b pts, runBucket hash (Buckets.new w) ops = some b ∧ b.iter = some pts ∧
      ((∀ a ∈ pts, ∀ c ∈ pts, SameSeries a c → a.kind = c.kind) → InOrder pts) := by
  obtain ⟨b, e, hi⟩ := Buckets.reachable_inv (by omega : w ≠ 0) ops _ hsep (fun _ h => h)
  refine ⟨b, _, e, Buckets.iter_eq b hi.wf.len, fun hk => ⟨?_, ?_⟩⟩
  · refine hi.pairwise.imp ?_
    intro a c h hs
    have h' : a.timestamp.tdiv w < c.timestamp.tdiv w := h (Buckets.sameSeries_iff.mp hs.1)
    by_cases hle : c.timestamp ≤ a.timestamp
    · have := Int.tdiv_le_tdiv hw hle; omega
    · omega
  · have hkeys : b.values.flatten.Pairwise
        (fun a c => hash a.hashInput ≤ hash c.hashInput) := by
      rw [List.pairwise_flatten]
      have hrow : ∀ i (h1 : i < b.keys.length) (h2 : i < b.values.length),
          Buckets.RowOk hash (Buckets.seriesOf (addedPoints ops)) w b.keys[i] b.values[i] := by
        intro i h1 h2
        exact hi.rows (b.keys[i], b.values[i]) (by
          have hz : i < (b.keys.zip b.values).length := by simp; omega
          have := List.getElem_mem hz
          rwa [List.getElem_zip] at this)
      constructor
      · intro row hr
        obtain ⟨i, hi2, rfl⟩ := List.mem_iff_getElem.1 hr
        have hr := hrow i (by rw [hi.wf.len]; exact hi2) hi2
        refine List.Pairwise.imp_of_mem ?_ hr.sorted
        intro a c ha hc _
        rw [hr.key a ha, hr.key c hc]
        exact Nat.le_refl _
      · rw [List.pairwise_iff_getElem]
        intro i j h1 h2 hij x hx y hy
        have hk1 := (hrow i (by rw [hi.wf.len]; exact h1) h1).key x hx
        have hk2 := (hrow j (by rw [hi.wf.len]; exact h2) h2).key y hy
        have hlt := List.pairwise_iff_getElem.1 hi.wf.sorted i j (by rw [hi.wf.len]; exact h1)
          (by rw [hi.wf.len]; exact h2) hij
        omega
    have hknown : ∀ t ∈ b.values.flatten, Buckets.seriesOf (addedPoints ops) t.hashInput := by
      intro t ht
      obtain ⟨row, hr, ht⟩ := List.mem_flatten.mp ht
      obtain ⟨i, hi2, rfl⟩ := List.mem_iff_getElem.1 hr
      have h1 : i < b.keys.length := by rw [hi.wf.len]; exact hi2
      exact (hi.rows (b.keys[i], b.values[i]) (by
        have hz : i < (b.keys.zip b.values).length := by simp; omega
        have := List.getElem_mem hz
        rwa [List.getElem_zip] at this)).known t ht
    intro A x y B he hne z hz hsl
    have hx : x ∈ b.values.flatten := by rw [he]; simp
    have hy : y ∈ b.values.flatten := by rw [he]; simp
    rw [he, List.pairwise_append, List.pairwise_cons, List.pairwise_cons] at hkeys
    have h1 := hkeys.2.1.1 y (List.mem_cons_self ..)
    have h2 := hkeys.2.1.2.1 z hz
    have h3 : hash x.hashInput = hash z.hashInput := by rw [Buckets.sameSeries_iff.mp hsl.1]
    have h4 : x.hashInput = y.hashInput :=
      Buckets.separates_inj hsep _ _ (hknown x hx) (hknown y hy) (by omega)
    have h5 := Buckets.sameSeries_iff.mpr h4
    exact hne ⟨h5, hk x hx y hy h5⟩

end

/-- The points of the examples are in order. -/
example : InOrder [wfGauge "a" 1 1, wfGauge "a" 2 9, wfGauge "bb" 3 4] := by
  constructor
  · simp [SameLine, SameSeries, wfGauge]
  · intro A x y B h hne z hz
    match A, h with
    | [], h =>
      simp only [List.nil_append, List.cons.injEq] at h
      obtain ⟨rfl, rfl, rfl⟩ := h
      exact absurd ⟨⟨rfl, rfl⟩, rfl⟩ hne
    | [_], h =>
      simp only [List.cons_append, List.nil_append, List.cons.injEq] at h
      obtain ⟨rfl, rfl, rfl, rfl⟩ := h
      simp at hz
    | [_, _], h => simp at h
    | _ :: _ :: _ :: _, h => simp at h

/-- Padding across flushes happens: the series was last seen at 1, is now at 9. -/
example : (padding wfExt [wfGauge "a" 2 9] 1 (fun _ => some 1) wfPadAll).map Pad.timestamp
    = [2, 8, 9] := by decide

/-- Disagreement: two series, each with one point long after it was last seen: only the series
that happens to be iterated last is padded. -/
theorem C45_across_flushes_false :
    ∃ (pts : List (Telemetry Int)) (x : Telemetry Int) (seen : LastSeen) (l : Int),
      HashOk wfExt pts ∧ InOrder pts ∧ x ∈ pts ∧ (∀ a ∈ pts, SameLine a x → a = x) ∧
      seen (telemHash wfExt x) = some l ∧ 2 ≤ x.timestamp - l ∧
      ∀ t ts, Pad.zero t ts ∈ padding wfExt pts 1 seen wfPadAll → ¬ SameLine t x := by
  refine ⟨[wfGauge "a" 1 9, wfGauge "bb" 2 9], wfGauge "a" 1 9, fun _ => some 1, 1,
    ?_, ⟨?_, ?_⟩, by simp, ?_, rfl, by decide, ?_⟩
  · intro a ha b hb; simp only [List.mem_cons, List.not_mem_nil, or_false] at ha hb
    rcases ha with rfl | rfl <;> rcases hb with rfl | rfl <;>
      simp [SameLine, SameSeries, wfGauge, telemHash, wfExt, Telemetry.hashInput, Telemetry.kind,
        Value.kind]
  · simp [SameLine, SameSeries, wfGauge]
  · intro A x y B h hne z hz
    match A, h with
    | [], h =>
      simp only [List.nil_append, List.cons.injEq] at h
      obtain ⟨rfl, rfl, rfl⟩ := h
      simp at hz
    | [_], h => simp at h
    | _ :: _ :: _, h => simp at h
  · intro a ha
    simp only [List.mem_cons, List.not_mem_nil, or_false] at ha
    rcases ha with rfl | rfl <;> simp [SameLine, SameSeries, wfGauge]
  · intro t ts h
    have hout : padding wfExt [wfGauge "a" 1 9, wfGauge "bb" 2 9] 1 (fun _ => some 1) wfPadAll =
        [.telem (wfGauge "a" 1 9), .zero (wfGauge "bb" 2 9) 2, .zero (wfGauge "bb" 2 9) 8,
          .telem (wfGauge "bb" 2 9)] := rfl
    rw [hout] at h
    simp only [List.mem_cons, reduceCtorEq, Pad.zero.injEq, List.not_mem_nil, or_false,
      false_or] at h
    rcases h with ⟨rfl, _⟩ | ⟨rfl, _⟩ <;> simp [SameLine, SameSeries, wfGauge]

/-- an external world whose hash includes the kind -/
def wfExtKind : Ext Int := { wfExt with hash := fun x => match x.2 with | .sum => 1 | _ => 2 }

/-- Disagreement: when a series changes kind between its points, padding for the time since the
last flush is emitted after a point that lies inside that time, and out of order. -/
theorem C45_mixed_kinds_false :
    ∃ (pts : List (Telemetry Int)) (seen : LastSeen) (A B : List (Pad Int)) (p t : Telemetry Int)
      (ts : Int),
      HashOk wfExtKind pts ∧ pts.Pairwise (fun a c => a.timestamp < c.timestamp) ∧
      padding wfExtKind pts 1 seen wfPadAll = A ++ .telem p :: B ∧ Pad.zero t ts ∈ B ∧
      SameLine t p ∧ ts < p.timestamp := by
  refine ⟨[⟨['a'], .sum 1, false, none, 5, none, none⟩, wfGauge "a" 1 6,
      ⟨['a'], .sum 1, false, none, 100, none, none⟩],
    fun h => if h = 1 then some 0 else none, [],
    [.telem (wfGauge "a" 1 6), .zero ⟨['a'], .sum 1, false, none, 100, none, none⟩ 1,
      .zero ⟨['a'], .sum 1, false, none, 100, none, none⟩ 99,
      .telem ⟨['a'], .sum 1, false, none, 100, none, none⟩],
    ⟨['a'], .sum 1, false, none, 5, none, none⟩, ⟨['a'], .sum 1, false, none, 100, none, none⟩, 1,
    ?_, ?_, rfl, by simp, ⟨⟨rfl, rfl⟩, rfl⟩, by decide⟩
  · intro a ha b hb; simp only [List.mem_cons, List.not_mem_nil, or_false] at ha hb
    rcases ha with rfl | rfl | rfl <;> rcases hb with rfl | rfl | rfl <;>
      simp [SameLine, SameSeries, wfGauge, telemHash, wfExtKind, Telemetry.hashInput,
        Telemetry.kind, Value.kind]
  · simp [wfGauge]

/-! ## C71: the text -/
section
variable {F : Type} [F64 F]

/-- The text built by a flush is the text of everything emitted, in order: one line per gauge
and counter, one per bin of a histogram, and one per percentile plus count and mean of a summary.
The sharing of formatted numbers never changes it.  What is remembered for the next flush is the
time of the last thing emitted for each series. -/
theorem C71_text_partial (ext : Ext F) (now : Int) (s : State F) (pts shown : List (Telemetry F))
    (vals : F → Prop) (hi : s.aggrs.iter = some pts)
    (hshown : (padding ext pts s.binWidth s.lastSeen s.padControl).map (Pad.point now) =
      shown.map some)
    (ord : Ordered ext vals)
    (hv : ∀ t ∈ shown, Answers s.percentiles t ∧ ∀ x, printed s.percentiles t x → vals x) :
    ∃ s', s.formatStats ext now = some s' ∧
      s'.stats = s.stats ++ (shown.map (pointText ext s.percentiles s.tags)).flatten ∧
      s'.aggrs = s.aggrs.reset now ∧
      (∀ A p B, padding ext pts s.binWidth s.lastSeen s.padControl = A ++ p :: B →
        (∀ q ∈ B, q.hash ext ≠ p.hash ext) → s'.lastSeen (p.hash ext) = some p.timestamp) ∧
      (∀ h, (∀ p ∈ padding ext pts s.binWidth s.lastSeen s.padControl, p.hash ext ≠ h) →
        s'.lastSeen h = s.lastSeen h) := by
  obtain ⟨rank, hcmp⟩ := ord
  obtain ⟨tmp, e, htmp⟩ := formatPads_ok ext rank vals hcmp now s.percentiles s.tags
    (padding ext pts s.binWidth s.lastSeen s.padControl) shown {} s.stats (fun _ => none)
    ⟨CacheOk.nil .., CacheOk.nil .., CacheOk.nil ..⟩ hshown hv
  refine ⟨{ s with stats := s.stats ++ (shown.map (pointText ext s.percentiles s.tags)).flatten, aggrs := s.aggrs.reset now, lastSeen := fun h => (tmp h).or (s.lastSeen h) },
    by simp only [State.formatStats, hi, e], rfl, rfl, ?_, ?_⟩
  · intro A p B hA hB
    have h1 : tmp (p.hash ext) = some p.timestamp := by
      rw [htmp, hA, List.foldl_append, List.foldl_cons, if_pos rfl]
      have : ∀ (B : List (Pad F)) (acc : Option Int), (∀ q ∈ B, q.hash ext ≠ p.hash ext) →
          B.foldl (fun acc q => if q.hash ext = p.hash ext then some q.timestamp else acc) acc
            = acc := by
        intro B
        induction B with
        | nil => intro acc _; rfl
        | cons q B ih =>
          intro acc hq
          rw [List.foldl_cons, if_neg (hq q (List.mem_cons_self ..)),
            ih acc (fun r hr => hq r (List.mem_cons_of_mem _ hr))]
      exact this B _ hB
    simp [h1]
  · intro h hn
    have h1 : tmp h = none := by
      rw [htmp]
      generalize padding ext pts s.binWidth s.lastSeen s.padControl = out at hn
      induction out with
      | nil => rfl
      | cons q out ih =>
        rw [List.foldl_cons, if_neg (hn q (List.mem_cons_self ..))]
        exact ih (fun r hr => hn r (List.mem_cons_of_mem _ hr))
    simp [h1]

/-- Disagreement: one gauge or counter whose value is not a number (`partial_cmp` answers
`None`) takes the sink down at the next flush. -/
theorem C71_nan_false (ext : Ext F) (now : Int) (s : State F) (A B : List (Telemetry F))
    (t : Telemetry F) (v : F) (hi : s.aggrs.iter = some (A ++ t :: B))
    (ht : t.value = .set v ∨ t.value = .sum v) (nan : ∀ a, ext.cmp a v = none) :
    s.formatStats ext now = none := by
  have hm : Pad.telem t ∈ padding ext (A ++ t :: B) s.binWidth s.lastSeen s.padControl := by
    rw [padding_eq]
    have := padded_points ext s.binWidth s.lastSeen s.padControl (A ++ t :: B) []
    have ht : t ∈ storedPoints (paddedS ext s.binWidth s.lastSeen s.padControl []
        ((A ++ t :: B).map .telem)) := by rw [this]; simp
    obtain ⟨p, hp, he⟩ := List.mem_filterMap.mp ht
    cases p with
    | zero => simp at he
    | telem u => simp only [Option.some.injEq] at he; subst he; exact hp
  simp only [State.formatStats, hi]
  rw [formatPads_none ext v nan now s.percentiles s.tags t ht _ _ _ _ hm]

end

/-- a state for the examples: two gauges stored -/
def wfState : State Int :=
  { State.init 1 [] none true wfPadAll [(['k'], ['v'])] with
    aggrs := { keys := [1], values := [[wfGauge "a" 5 1, wfGauge "a" 7 4]], count := 2, binWidth := 1 } }

/-- The hypotheses of `C71_text_partial` are met, and the text is what one expects. -/
example : wfState.aggrs.iter = some [wfGauge "a" 5 1, wfGauge "a" 7 4] := by decide
example : (padding wfExt [wfGauge "a" 5 1, wfGauge "a" 7 4] 1 wfState.lastSeen wfPadAll).map
    (Pad.point 0) = [wfGauge "a" 5 1, wfGauge "a" 0 2, wfGauge "a" 0 3, wfGauge "a" 7 4].map some := by
  decide
example : Ordered wfExt (fun _ => True) := by
  refine ⟨fun x => x, fun a b _ _ => ⟨rfl, fun h => by rw [show a = b from h]⟩⟩
example : (wfState.formatStats wfExt 0).map (·.stats) = some
    ("a v t k=v\na z tt k=v\na z ttt k=v\na v tttt k=v\n".toList) := by decide

/-- A value that cannot be compared, in the example world. -/
example : (State.formatStats { wfExt with cmp := fun a b => if a = 13 ∨ b = 13 then none else some (compare a b) } 0 { wfState with aggrs := { keys := [1], values := [[wfGauge "a" 13 1]], count := 1, binWidth := 1 } }).isNone := by decide

/-! ## C46: a flush returns only after the payload was written -/
section
variable {F : Type} [F64 F]

/-- A flush that returns has written its whole text in one go, as the last thing it did; every
earlier write was a failed one of the same text.  Only then is the text dropped.  Until then, the
text is kept.  The text is the one built from all stored points (`C71_text_partial`). -/
theorem C46_flush_delivers (ext : Ext F) (now : Int) (script : List Io) (s s1 s' : State F)
    (wire : List Wire) (done : Bool) (h1 : s.formatStats ext now = some s1)
    (h : s.flush ext now script = some (s', wire, done)) :
    ∃ W, (∀ e ∈ W, ∃ n, e = .part (s1.stats.take n) ∨ e = .delay n) ∧
      ((done = true ∧ wire = W ++ [.complete s1.stats] ∧ s'.stats = []) ∨
        (done = false ∧ wire = W ∧ s'.stats = s1.stats)) ∧
      s'.lastSeen = s1.lastSeen := by
  simp only [State.flush, h1, Option.map_some, Option.some.injEq] at h
  obtain ⟨W, hW, hc, hl⟩ := flushLoop_spec now s1.stats script s1 [] rfl
  rw [h] at hc hl
  simp only [List.nil_append] at hc
  refine ⟨W, hW, ?_, hl⟩
  rcases hc with ⟨a, b, c, _⟩ | ⟨a, b, c, _⟩
  · exact Or.inl ⟨a, b, c⟩
  · exact Or.inr ⟨a, b, c⟩

/-- Whatever fails before, a flush returns once a connection attempt or write succeeds twice in a
row. -/
theorem C46_flush_returns (ext : Ext F) (now : Int) (before after : List Io) (s s1 : State F)
    (h1 : s.formatStats ext now = some s1) :
    ∃ s' wire, s.flush ext now (before ++ .ok :: .ok :: after) = some (s', wire, true) := by
  refine ⟨(s1.flushLoop now (before ++ .ok :: .ok :: after) []).1,
    (s1.flushLoop now (before ++ .ok :: .ok :: after) []).2.1, ?_⟩
  simp only [State.flush, h1, Option.map_some]
  congr 1
  rw [← flushLoop_ends now after before s1 []]

end

/-! ## C56: the delays of a flush -/
section
variable {F : Type} [F64 F]

/-- the failed writes so far -/
private def failures (wire : List Wire) : Nat := wire.countP fun | .part _ => true | _ => false

private theorem flushLoop_delays (now : Int) : ∀ (script : List Io) (s : State F) (wire0 : List Wire) (a : Nat),
    s.deliveryAttempts = min (a + failures wire0) (2 ^ 32 - 1) →
    (∀ pre d post, wire0 = pre ++ .delay d :: post → d = delayMs (min (a + failures pre) (2 ^ 32 - 1))) →
    (∀ pre d post, (s.flushLoop now script wire0).2.1 = pre ++ .delay d :: post →
      d = delayMs (min (a + failures pre) (2 ^ 32 - 1))) ∧
    (s.flushLoop now script wire0).1.deliveryAttempts =
      (if (s.flushLoop now script wire0).2.2 then 0 else min (a + failures (s.flushLoop now script wire0).2.1) (2 ^ 32 - 1)) := by
  have snoc : ∀ (wire0 : List Wire) (x : Wire) (a : Nat),
      (∀ pre d post, wire0 = pre ++ .delay d :: post → d = delayMs (min (a + failures pre) (2 ^ 32 - 1))) →
      (∀ d, x = .delay d → d = delayMs (min (a + failures wire0) (2 ^ 32 - 1))) →
      ∀ pre d post, wire0 ++ [x] = pre ++ .delay d :: post → d = delayMs (min (a + failures pre) (2 ^ 32 - 1)) := by
    intro wire0 x a h hx pre d post e
    rcases List.eq_nil_or_concat post with rfl | ⟨post', y, rfl⟩
    · obtain ⟨e1, e2⟩ := List.append_inj' e rfl
      subst e1
      exact hx d (by simpa using e2)
    · rw [List.concat_eq_append, show pre ++ .delay d :: (post' ++ [y]) = (pre ++ .delay d :: post') ++ [y] by simp] at e
      obtain ⟨e1, -⟩ := List.append_inj' e rfl
      exact h pre d post' e1
  intro script
  induction script with
  | nil => intro s wire0 a ha hw; exact ⟨hw, by simp [State.flushLoop, ha]⟩
  | cons io script ih =>
    intro s wire0 a ha hw
    by_cases hc : s.connected
    · cases io with
      | ok =>
        simp only [State.flushLoop, hc, if_true]
        exact ⟨snoc wire0 _ a hw (fun d e => by cases e), trivial⟩
      | fail n =>
        simp only [State.flushLoop, hc, if_true]
        refine ih _ _ a ?_ (snoc wire0 _ a hw (fun d e => by cases e))
        have e : ∀ x, failures (wire0 ++ [.part x]) = failures wire0 + 1 := by intro x; simp [failures]
        simp only [ha, e]
        omega
    · simp only [State.flushLoop, hc, Bool.false_eq_true, if_false]
      refine ih _ _ a ?_ (snoc wire0 _ a hw ?_)
      · simp only [ha, failures, List.countP_append, List.countP_cons, List.countP_nil]; simp
      · intro d e
        simp only [Wire.delay.injEq] at e
        rw [← e, ha]

/-- The delays of a Wavefront flush: each is the delay for the number of writes that have failed, those left over from before the
flush included; after a flush that has returned the count starts again from zero. -/
theorem C56_wavefront (ext : Ext F) (now : Int) (script : List Io) (s s' : State F) (wire : List Wire) (done : Bool)
    (ha : s.deliveryAttempts < 2 ^ 32) (h : s.flush ext now script = some (s', wire, done)) :
    (∀ pre d post, wire = pre ++ .delay d :: post →
      d = delayMs (min (s.deliveryAttempts + pre.countP fun | .part _ => true | _ => false) (2 ^ 32 - 1))) ∧
    s'.deliveryAttempts = if done then 0
      else min (s.deliveryAttempts + wire.countP fun | .part _ => true | _ => false) (2 ^ 32 - 1) := by
  simp only [State.flush, Option.map_eq_some_iff] at h
  obtain ⟨s1, h1, h2⟩ := h
  have e1 : s1.deliveryAttempts = s.deliveryAttempts := by
    simp only [State.formatStats] at h1
    split at h1
    · cases h1
    · split at h1
      · cases h1
      · simp only [Option.some.injEq] at h1; subst h1; rfl
  have := flushLoop_delays now script s1 [] s.deliveryAttempts (by simp [e1, failures]; omega) (by simp)
  rw [h2] at this
  exact this

/-- Disagreement: attempts to connect that fail do not count, so while the proxy cannot be reached a flush tries again and again without
any delay. -/
theorem C56_wavefront_connect_false (ext : Ext F) (now : Int) (s s1 : State F) (h1 : s.formatStats ext now = some s1)
    (hc : s.connected = false) (ha : s.deliveryAttempts = 0) (n : Nat) :
    ∃ s', s.flush ext now (List.replicate n (.fail 0)) = some (s', List.replicate n (.delay 0), false) := by
  have e1 : s1.deliveryAttempts = s.deliveryAttempts ∧ s1.connected = s.connected := by
    simp only [State.formatStats] at h1
    split at h1
    · cases h1
    · split at h1
      · cases h1
      · simp only [Option.some.injEq] at h1; subst h1; exact ⟨rfl, rfl⟩
  have key : ∀ (n : Nat) (s : State F) (w : List Wire), s.connected = false → s.deliveryAttempts = 0 →
      (s.flushLoop now (List.replicate n (.fail 0)) w).2 = (w ++ List.replicate n (.delay 0), false) := by
    intro n
    induction n with
    | zero => intro s w _ _; simp [State.flushLoop]
    | succ n ih =>
      intro s w hc ha
      simp only [List.replicate_succ, State.flushLoop, hc, Bool.false_eq_true, if_false]
      have e : delayMs s.deliveryAttempts = 0 := by rw [ha]; rfl
      rw [e]
      refine (ih { s with connected := decide (Io.fail 0 = Io.ok) } _ rfl ha).trans ?_
      simp
  refine ⟨(s1.flushLoop now (List.replicate n (.fail 0)) []).1, ?_⟩
  simp only [State.flush, h1, Option.map_some, Option.some.injEq]
  have := key n s1 [] (e1.2.trans hc) (e1.1.trans ha)
  rw [List.nil_append] at this
  exact Prod.ext rfl this

end

/-- The hypotheses of `C56_wavefront_connect_false` are met. -/
example : (({ wfState with connected := false } : State Int).formatStats wfExt 0).isSome := by decide

/-- A flush with a failed write, a failed connection attempt, and then success. -/
example : (wfState.flush wfExt 0 [.fail 3, .fail 0, .ok, .ok]).map (fun r => r.2) = some
    ([.part ("a v".toList), .delay 1, .delay 1,
      .complete "a v t k=v\na z tt k=v\na z ttt k=v\na v tttt k=v\n".toList], true) := by decide

/-! ## C47: age thresholds -/
section
variable {F : Type} [F64 F]

/-- With an age threshold (below 2^63 seconds), exactly the points within it are stored;
without one all are. -/
theorem C47_wavefront_age (ext : Ext F) (now : Int) (s : State F) (t : Telemetry F) :
    (s.ageThreshold = none →
      s.deliver ext now t = (s.aggrs.add ext.nameTagHash now t).map fun a => { s with aggrs := a }) ∧
    (∀ age : Nat, age < 2 ^ 63 → s.ageThreshold = some age →
      ((t.timestamp - now ≤ age ∧ now - t.timestamp ≤ age) →
        s.deliver ext now t = (s.aggrs.add ext.nameTagHash now t).map
          fun a => { s with aggrs := a }) ∧
      (¬ (t.timestamp - now ≤ age ∧ now - t.timestamp ≤ age) → s.deliver ext now t = some s)) := by
  constructor
  · intro h; simp [State.deliver, h]
  · intro age hage h
    have ha : asI64 age = age := by
      have : age < 9223372036854775808 := hage
      simp [asI64, this]
    constructor
    · intro hw
      have : ((t.timestamp - now).natAbs : Int) ≤ age := by omega
      simp only [State.deliver, h, ha, this, decide_true, if_true]
    · intro hw
      have : ¬ ((t.timestamp - now).natAbs : Int) ≤ age := by omega
      simp [State.deliver, h, ha, this]

/-- Every configurable threshold: a point is stored exactly when the threshold is below 2^63 and the point lies within it; what is not stored
changes nothing. -/
theorem C47_wavefront_exact_partial (ext : Ext F) (now : Int) (s : State F) (t : Telemetry F) (age : Nat)
    (hage : age < 2 ^ 64) (h : s.ageThreshold = some age) :
    ((age < 2 ^ 63 ∧ t.timestamp - now ≤ age ∧ now - t.timestamp ≤ age) →
      s.deliver ext now t = (s.aggrs.add ext.nameTagHash now t).map fun a => { s with aggrs := a }) ∧
    (¬ (age < 2 ^ 63 ∧ t.timestamp - now ≤ age ∧ now - t.timestamp ≤ age) → s.deliver ext now t = some s) := by
  refine ⟨fun hw => ((C47_wavefront_age ext now s t).2 age hw.1 h).1 hw.2, fun hw => ?_⟩
  by_cases h63 : age < 2 ^ 63
  · exact ((C47_wavefront_age ext now s t).2 age h63 h).2 fun hc => hw ⟨h63, hc⟩
  · have ha : asI64 age = (age : Int) - 2 ^ 64 := by simp only [asI64, h63, if_false]
    have : ¬ ((t.timestamp - now).natAbs : Int) ≤ asI64 age := by omega
    simp only [State.deliver, h, this, decide_false, Bool.false_eq_true, if_false]

end

example : (State.deliver wfExt 100 { wfState with ageThreshold := some 10 }
    (wfGauge "a" 1 90)).map (·.aggrs.count) = some 3 := by decide
example : (State.deliver wfExt 100 { wfState with ageThreshold := some 10 }
    (wfGauge "a" 1 89)).map (·.aggrs.count) = some 2 := by decide
example : (State.deliver wfExt 100 { wfState with ageThreshold := some (2 ^ 63) }
    (wfGauge "a" 1 100)).map (·.aggrs.count) = some 2 := by decide

/-- Disagreement: the largest configurable threshold, which should accept everything, is read as
-1 and rejects every point, even one of this very second. -/
theorem C47_wavefront_huge_age_false (ext : Ext Int) (now : Int) (s : State Int)
    (t : Telemetry Int) (h : s.ageThreshold = some (2 ^ 64 - 1)) :
    s.deliver ext now t = some s := by
  have ha : asI64 (2 ^ 64 - 1) = -1 := by decide
  have : ¬ ((t.timestamp - now).natAbs : Int) ≤ -1 := by omega
  simp only [State.deliver, h, ha, this, decide_false, Bool.false_eq_true, if_false]

/-! ## C72: back pressure -/
section
variable {F : Type} [F64 F]

/-- The sink takes points exactly while it stores at most 10,000. -/
theorem C72_open_iff_few (hash : Str × TagMap → Nat) (w : Int) (hw : w ≠ 0)
    (ops : List (BucketOp F)) (hfew : (addedPoints ops).length < 2 ^ 64) (s : State F)
    (hs : runBucket hash (Buckets.new w) ops = some s.aggrs) :
    ∃ pts, s.aggrs.iter = some pts ∧ (s.valveOpen = true ↔ pts.length ≤ 10000) := by
  obtain ⟨b, pts, h1, h2, h3, _⟩ := C08_bucket_bookkeeping hash w hw ops hfew
  rw [hs] at h1
  simp only [Option.some.injEq] at h1
  subst h1
  refine ⟨pts, h2, ?_⟩
  simp [State.valveOpen, h3]

private theorem runBucket_append (hash : Str × TagMap → Nat) (ops ops' : List (BucketOp F)) :
    ∀ b, runBucket hash b (ops ++ ops') = (runBucket hash b ops).bind (runBucket hash · ops') := by
  induction ops with
  | nil => intro b; rfl
  | cons o ops ih =>
    intro b
    cases o with
    | add now v =>
      simp only [List.cons_append, runBucket]
      cases b.add hash now v with
      | none => rfl
      | some b' => exact ih b'
    | reset now => simp only [List.cons_append, runBucket]; exact ih _

private theorem unstamp (now : Int) (before : List (Telemetry F)) :
    ∀ after : List (Telemetry F),
      (∀ p ∈ after, ∃ q ∈ before, q.persist = true ∧ p = { q with timestamp := now }) →
      ∃ L : List (Telemetry F), (∀ q ∈ L, q ∈ before ∧ q.persist = true) ∧
        after = L.map fun q => { q with timestamp := now }
  | [], _ => ⟨[], by simp, rfl⟩
  | p :: after, h => by
    obtain ⟨q, hq, hp, e⟩ := h p (List.mem_cons_self ..)
    obtain ⟨L, h1, h2⟩ := unstamp now before after (fun p hp => h p (List.mem_cons_of_mem _ hp))
    exact ⟨q :: L, by simpa using ⟨⟨hq, hp⟩, h1⟩, by simp [h2, e]⟩

/-- A list of points of different series, each the series of a point of `after`, is no longer
than `after`. -/
private theorem series_pigeon (after : List (Telemetry F)) :
    ∀ L : List (Telemetry F), L.Pairwise (fun a c => ¬ SameSeries a c) →
      (∀ q ∈ L, ∃ p ∈ after, SameSeries q p) → L.length ≤ after.length := by
  induction after with
  | nil =>
    intro L _ h
    cases L with
    | nil => simp
    | cons q L => obtain ⟨p, hp, _⟩ := h q (by simp); simp at hp
  | cons p after ih =>
    intro L hp h
    have hrefl : ∀ a b c : Telemetry F, SameSeries a c → SameSeries b c → SameSeries a b :=
      fun a b c h1 h2 => ⟨h1.1.trans h2.1.symm, h1.2.trans h2.2.symm⟩
    by_cases hx : ∃ q ∈ L, SameSeries q p
    · obtain ⟨q, hq, hqp⟩ := hx
      obtain ⟨A, B, rfl⟩ := List.append_of_mem hq
      rw [List.pairwise_append, List.pairwise_cons] at hp
      obtain ⟨hA, ⟨hqB, hB⟩, hAB⟩ := hp
      have := ih (A ++ B) (List.pairwise_append.2 ⟨hA, hB, fun a ha b hb => hAB a ha b (by simp [hb])⟩) (by
        intro r hr
        obtain ⟨p', hp', hrp⟩ := h r (by
          rcases List.mem_append.1 hr with hr | hr <;> simp [hr])
        rcases List.mem_cons.1 hp' with rfl | hp'
        · exfalso
          rcases List.mem_append.1 hr with hr | hr
          · exact hAB r hr q (by simp) (hrefl _ _ _ hrp hqp)
          · exact hqB r hr (hrefl _ _ _ hqp hrp)
        · exact ⟨p', hp', hrp⟩)
      simp only [List.length_append, List.length_cons] at this ⊢
      omega
    · have := ih L hp (by
        intro r hr
        obtain ⟨p', hp', hrp⟩ := h r hr
        rcases List.mem_cons.1 hp' with rfl | hp'
        · exact absurd ⟨r, hr, hrp⟩ hx
        · exact ⟨p', hp', hrp⟩)
      simp only [List.length_cons]
      omega

/-- **C72 (exact, partial).** After a flush the sink takes points again exactly if at most 10,000
series are stored whose newest point is persistent.  Missing: more of them than that
(`C72_flush_reopens_false`). -/
theorem C72_exact_partial (ext : Ext F) (w : Int) (hw : w ≠ 0) (ops : List (BucketOp F))
    (hfew : (addedPoints ops).length < 2 ^ 64)
    (hsep : Separates ext.nameTagHash (addedPoints ops)) (now : Int) (s s' : State F)
    (hs : runBucket ext.nameTagHash (Buckets.new w) ops = some s.aggrs)
    (pts : List (Telemetry F)) (hi : s.aggrs.iter = some pts)
    (h : s.formatStats ext now = some s') :
    s'.valveOpen = true ↔
      ∀ L : List (Telemetry F),
        (∀ q ∈ L, q ∈ pts ∧ q.persist = true ∧
          ∀ r ∈ pts, SameSeries r q → r.timestamp.tdiv w ≤ q.timestamp.tdiv w) →
        L.Pairwise (fun a c => ¬ SameSeries a c) → L.length ≤ 10000 := by
  have ha : s'.aggrs = s.aggrs.reset now := by
    simp only [State.formatStats, hi] at h
    split at h
    · simp at h
    · simp only [Option.some.injEq] at h; rw [← h]
  have hadd : addedPoints (ops ++ [.reset now]) = addedPoints ops := by
    clear hfew hsep hs
    induction ops with
    | nil => rfl
    | cons o ops ih => cases o <;> simp [addedPoints, ih]
  obtain ⟨pts', h1, h2⟩ := C72_open_iff_few ext.nameTagHash w hw (ops ++ [.reset now])
    (by rw [hadd]; exact hfew) s' (by rw [runBucket_append, hs, ha]; rfl)
  rw [h2]
  obtain ⟨b, before, after, e, e1, e2, _, e4, e5⟩ :=
    C12_reset_keeps_persistent ext.nameTagHash w hw ops hsep now
  rw [hs, Option.some.injEq] at e
  subst e
  rw [hi, Option.some.injEq] at e1
  subst e1
  rw [ha, e2, Option.some.injEq] at h1
  subst h1
  constructor
  · intro hle L hL hp
    refine Nat.le_trans (series_pigeon after L hp ?_) hle
    intro q hq
    obtain ⟨q1, q2, q3⟩ := hL q hq
    exact ⟨{ q with timestamp := now }, (e4 _).2 ⟨q, q1, q2, q3, rfl⟩, ⟨rfl, rfl⟩⟩
  · intro few
    obtain ⟨L, hL1, hL2⟩ := unstamp now (pts.filter fun q => pts.all fun r =>
        !decide (SameSeries r q) || decide (r.timestamp.tdiv w ≤ q.timestamp.tdiv w)) after (fun p hp => by
      obtain ⟨q, hq, hp1, hp3, hp2⟩ := (e4 p).mp hp
      refine ⟨q, List.mem_filter.2 ⟨hq, List.all_eq_true.2 fun r hr => ?_⟩, hp1, hp2⟩
      by_cases hsr : SameSeries r q
      · simp [hsr, hp3 r hr hsr]
      · simp [hsr])
    subst hL2
    rw [List.length_map]
    refine few L (fun q hq => ?_) (List.pairwise_map.mp e5)
    obtain ⟨a1, a2⟩ := hL1 q hq
    obtain ⟨a3, a4⟩ := List.mem_filter.1 a1
    refine ⟨a3, a2, fun r hr hsr => ?_⟩
    have := List.all_eq_true.1 a4 r hr
    simpa [hsr] using this

/-- Partial: after a flush the sink takes points again, if at most 10,000 series have persistent
points stored.  Missing: more persistent series than that (`C72_flush_reopens_false`). -/
theorem C72_flush_reopens_partial (ext : Ext F) (w : Int) (hw : w ≠ 0) (ops : List (BucketOp F))
    (hfew : (addedPoints ops).length < 2 ^ 64)
    (hsep : Separates ext.nameTagHash (addedPoints ops)) (now : Int) (s s' : State F)
    (hs : runBucket ext.nameTagHash (Buckets.new w) ops = some s.aggrs)
    (pts : List (Telemetry F)) (hi : s.aggrs.iter = some pts)
    (few : ∀ L : List (Telemetry F), (∀ q ∈ L, q ∈ pts ∧ q.persist = true) →
      L.Pairwise (fun a c => ¬ SameSeries a c) → L.length ≤ 10000)
    (h : s.formatStats ext now = some s') : s'.valveOpen = true :=
  (C72_exact_partial ext w hw ops hfew hsep now s s' hs pts hi h).2
    fun L hL hp => few L (fun q hq => ⟨(hL q hq).1, (hL q hq).2.1⟩) hp

end

/-- the `i`-th of many persistent series, in the example world -/
def wfMany (now : Int) (i : Nat) : Telemetry Int :=
  ⟨List.replicate i 'a', .sum 1, true, none, now, none, none⟩

/-- the store after adding the first `n` of them -/
def wfManyStore (now : Int) (n : Nat) : Buckets Int :=
  { keys := List.range n, values := (List.range n).map fun i => [wfMany now i], count := n, binWidth := 1 }

private theorem many_add (now : Int) (n : Nat) (hn : n < u64Max) :
    (wfManyStore now n).add wfExt.nameTagHash now (wfMany now n) =
      some (wfManyStore now (n + 1)) := by
  have hh : wfExt.nameTagHash (wfMany now n).hashInput = n := by
    simp [wfExt, wfMany, Telemetry.hashInput]
  have hcmp : ∀ a ∈ List.range n, compare a n = Ordering.lt := by
    intro a ha
    exact Nat.compare_eq_lt.mpr (List.mem_range.mp ha)
  have hb : bsearch (fun probe => compare probe n) (List.range n) = .err n := by
    have hsp := bsearch_spec (fun probe => compare probe n) (List.range n)
      (fun i j x y _ hx hy => by
        have h1 := hcmp x (List.mem_of_getElem? hx)
        simp only at *
        rw [h1]
        simp)
    cases hbs : bsearch (fun probe => compare probe n) (List.range n) with
    | ok i =>
      rw [hbs] at hsp
      obtain ⟨pre, x, post, h1, _, h3⟩ := hsp
      have := hcmp x (by rw [h1]; simp)
      rw [h3] at this; simp at this
    | err i =>
      rw [hbs] at hsp
      obtain ⟨pre, post, h1, h2, _, h4⟩ := hsp
      have : post = [] := by
        cases post with
        | nil => rfl
        | cons x post =>
          have h5 := hcmp x (by rw [h1]; simp)
          have h6 := h4 x (by simp)
          rw [h6] at h5; simp at h5
      subst this
      rw [List.append_nil] at h1
      rw [← h2, ← h1, List.length_range]
  have hi1 : (List.range n).insertIdx n n = List.range (n + 1) := by
    have := Buckets.insertIdx_append (List.range n) [] n
    rw [List.append_nil, List.length_range] at this
    rw [this, List.range_succ]
  have hi2 : ((List.range n).map fun i => [wfMany now i]).insertIdx n [] =
      ((List.range n).map fun i => [wfMany now i]) ++ [[]] := by
    have := Buckets.insertIdx_append ((List.range n).map fun i => [wfMany now i]) [] []
    rw [List.append_nil, List.length_map, List.length_range] at this
    rw [this]
  have hget : (((List.range n).map fun i => [wfMany now i]) ++ [[]])[n]? = some [] := by
    rw [List.getElem?_append_right (by simp)]; simp
  have hrow : Buckets.addRow now 1 [] (wfMany now n) = some ([wfMany now n], true) := by
    simp [Buckets.addRow, bsearch]
  have hset : (((List.range n).map fun i => [wfMany now i]) ++ [[]]).set n [wfMany now n] =
      (List.range (n + 1)).map fun i => [wfMany now i] := by
    rw [List.set_append_right _ _ (by simp), List.range_succ]; simp
  have hcount : satAdd n 1 = n + 1 := by simp only [satAdd]; omega
  simp only [Buckets.add, hh, wfManyStore, hb, hi1, hi2, hget, hrow, hset, hcount, if_true]

private theorem many_run (now : Int) : ∀ n, n ≤ u64Max →
    runBucket wfExt.nameTagHash (Buckets.new 1)
      ((List.range n).map fun i => .add now (wfMany now i)) = some (wfManyStore now n)
  | 0, _ => rfl
  | n + 1, h => by
    rw [List.range_succ, List.map_append, runBucket_append, many_run now n (by omega)]
    simp only [Option.bind_some, List.map_cons, List.map_nil, runBucket,
      many_add now n (by omega)]

private theorem many_reset (now now' : Int) (n : Nat) (h : n ≤ u64Max) :
    (wfManyStore now n).reset now' = wfManyStore now' n := by
  have hv : ((wfManyStore now n).reset now').values = (wfManyStore now' n).values := by
    simp [Buckets.reset, wfManyStore, Buckets.resetRow, wfMany]
  have hc := (Buckets.reset_count now' (wfManyStore now n) (by
    have : (wfManyStore now n).values.flatten.length = n := by
      simp [wfManyStore, List.length_flatten, Function.comp_def, List.map_const']
    omega)).1
  rw [hv] at hc
  have hl : (wfManyStore now' n).values.flatten.length = n := by
    simp [wfManyStore, List.length_flatten, Function.comp_def, List.map_const']
  rw [hl] at hc
  show Buckets.mk _ _ _ _ = Buckets.mk _ _ _ _
  have h1 : ((wfManyStore now n).reset now').count = (wfManyStore now' n).count := hc
  simp only [Buckets.reset] at hv h1
  rw [hv, h1]
  rfl

/-- Disagreement: with 10,001 persistent series the sink stays closed, through any number of
successful flushes. -/
theorem C72_flush_reopens_false :
    ∃ ops : List (BucketOp Int), Separates wfExt.nameTagHash (addedPoints ops) ∧
      ∀ (s : State Int), runBucket wfExt.nameTagHash (Buckets.new 1) ops = some s.aggrs →
        ∀ flushes : List Int,
          ({ s with aggrs := flushes.foldl (fun b now => b.reset now) s.aggrs }).valveOpen
            = false := by
  refine ⟨(List.range 10001).map fun i => .add 0 (wfMany 0 i), ?_, ?_⟩
  · have hadd : ∀ l : List Nat,
        addedPoints (l.map fun i => (.add 0 (wfMany 0 i) : BucketOp Int)) = l.map (wfMany 0) := by
      intro l
      induction l with
      | nil => rfl
      | cons i l ih => simp [addedPoints, ih]
    rw [hadd]
    intro a ha b hb h
    obtain ⟨i, _, rfl⟩ := List.mem_map.mp ha
    obtain ⟨j, _, rfl⟩ := List.mem_map.mp hb
    simp only [wfExt, wfMany, Telemetry.hashInput, List.length_replicate] at h
    subst h
    exact ⟨rfl, rfl⟩
  · intro s hs flushes
    rw [many_run 0 10001 (by decide), Option.some.injEq] at hs
    rw [← hs]
    have : ∀ (fl : List Int) (now : Int), ∃ now', fl.foldl (fun b now => b.reset now)
        (wfManyStore now 10001) = wfManyStore now' 10001 := by
      intro fl
      induction fl with
      | nil => exact fun now => ⟨now, rfl⟩
      | cons x fl ih =>
        intro now
        rw [List.foldl_cons, many_reset now x 10001 (by decide)]
        exact ih x
    obtain ⟨now', e⟩ := this flushes 0
    rw [e]
    rfl

/-- A store that meets the hypotheses of `C72_flush_reopens_partial`. -/
example : runBucket wfExt.nameTagHash (Buckets.new 1)
    [.add 0 (wfGauge "a" 1 1), .add 0 (wfGauge "a" 1 2)] =
      some (State.aggrs { wfState with aggrs := { keys := [1], values := [[wfGauge "a" 1 1, wfGauge "a" 1 2]], count := 2, binWidth := 1 } }) := by
  rfl

end Verif
