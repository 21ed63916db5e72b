import Verif.Lemmas.Buckets
import Verif.Spec.Buckets
/-! # The invariant of the bucket store over histories with separating hash -/
namespace Verif
namespace Buckets
section
variable {F : Type} [F64 F]

theorem sameSeries_iff {a b : Telemetry F} : SameSeries a b ↔ a.hashInput = b.hashInput := by
  simp [SameSeries, Telemetry.hashInput]

/-- a row: all points hash to the key, belong to known series, bins increase -/
structure RowOk (hash : Str × TagMap → Nat) (S : Str × TagMap → Prop) (w : Int) (k : Nat)
    (row : List (Telemetry F)) : Prop where
  key : ∀ t ∈ row, hash t.hashInput = k
  known : ∀ t ∈ row, S t.hashInput
  sorted : row.Pairwise (fun a b => a.bin w < b.bin w)

structure Inv (hash : Str × TagMap → Nat) (S : Str × TagMap → Prop) (w : Int)
    (b : Buckets F) : Prop where
  wf : Wf b
  width : b.binWidth = w
  rows : ∀ p ∈ b.keys.zip b.values, RowOk hash S w p.1 p.2

theorem Inv.new (hash : Str × TagMap → Nat) (S : Str × TagMap → Prop) (w : Int) :
    Inv hash S w (Buckets.new w : Buckets F) :=
  ⟨Wf.new w, rfl, by simp [Buckets.new]⟩

theorem RowOk.nil (hash : Str × TagMap → Nat) (S : Str × TagMap → Prop) (w : Int) (k : Nat) :
    RowOk hash S w k ([] : List (Telemetry F)) := ⟨by simp, by simp, by simp⟩

theorem carried_hashInput (q v : Telemetry F) : (carried q v).hashInput = q.hashInput := rfl
theorem carried_bin (q v : Telemetry F) (w : Int) : (carried q v).bin w = v.bin w := rfl
theorem addAssign_hashInput (q v : Telemetry F) : (q.addAssign v).hashInput = q.hashInput := rfl
theorem addAssign_bin (q v : Telemetry F) (w : Int) : (q.addAssign v).bin w = q.bin w := rfl

theorem RowStepS.rowOk {hash : Str × TagMap → Nat} {S : Str × TagMap → Prop} {w : Int}
    {row row' : List (Telemetry F)} {v : Telemetry F} {ins : Bool}
    (hS : S v.hashInput) (hr : RowOk hash S w (hash v.hashInput) row)
    (s : RowStepS w row row' v ins) : RowOk hash S w (hash v.hashInput) row' := by
  obtain ⟨h1, h2, h3⟩ := hr
  cases s with
  | merge pre post cur hbin h h' =>
    subst h h'
    refine ⟨?_, ?_, ?_⟩
    · intro t ht
      simp only [List.mem_append, List.mem_cons] at ht
      rcases ht with ht | rfl | ht
      · exact h1 t (by simp [ht])
      · rw [addAssign_hashInput]; exact h1 cur (by simp)
      · exact h1 t (by simp [ht])
    · intro t ht
      simp only [List.mem_append, List.mem_cons] at ht
      rcases ht with ht | rfl | ht
      · exact h2 t (by simp [ht])
      · rw [addAssign_hashInput]; exact h2 cur (by simp)
      · exact h2 t (by simp [ht])
    · simpa only [List.pairwise_append, List.pairwise_cons, List.mem_cons, forall_eq_or_imp,
        addAssign_bin] using h3
  | fresh pre post hp hlt hgt h h' =>
    subst h h'
    refine ⟨?_, ?_, ?_⟩
    · intro t ht
      simp only [List.mem_append, List.mem_cons] at ht
      rcases ht with ht | rfl | ht
      · exact h1 t (by simp [ht])
      · rfl
      · exact h1 t (by simp [ht])
    · intro t ht
      simp only [List.mem_append, List.mem_cons] at ht
      rcases ht with ht | rfl | ht
      · exact h2 t (by simp [ht])
      · exact hS
      · exact h2 t (by simp [ht])
    · simp only [List.pairwise_append, List.pairwise_cons, List.mem_cons, forall_eq_or_imp] at *
      exact ⟨h3.1, ⟨hgt, h3.2.1⟩, fun a ha => ⟨hlt a ha, h3.2.2 a ha⟩⟩
  | carry pre post q hp hlt hq hgt h h' =>
    subst h h'
    refine ⟨?_, ?_, ?_⟩
    · intro t ht
      simp only [List.mem_append, List.mem_cons] at ht
      rcases ht with ht | rfl | rfl | ht
      · exact h1 t (by simp [ht])
      · exact h1 _ (by simp)
      · rw [carried_hashInput]; exact h1 q (by simp)
      · exact h1 t (by simp [ht])
    · intro t ht
      simp only [List.mem_append, List.mem_cons] at ht
      rcases ht with ht | rfl | rfl | ht
      · exact h2 t (by simp [ht])
      · exact h2 _ (by simp)
      · rw [carried_hashInput]; exact h2 q (by simp)
      · exact h2 t (by simp [ht])
    · simp only [List.pairwise_append, List.pairwise_cons, List.mem_cons, forall_eq_or_imp,
        carried_bin] at *
      exact ⟨h3.1, ⟨⟨hq, h3.2.1.1⟩, hgt, h3.2.1.2⟩, fun a ha =>
        ⟨(h3.2.2 a ha).1, hlt a ha, (h3.2.2 a ha).2⟩⟩

/-- What the addition to the row decides about `add`. -/
theorem Inv.addOf {hash : Str × TagMap → Nat} {S : Str × TagMap → Prop} {w : Int} {b : Buckets F}
    (hi : Inv hash S w b) (now : Int) (v : Telemetry F) (hS : S v.hashInput) :
    ∃ kp kq vp vq row, RowOk hash S w (hash v.hashInput) row ∧
      (∀ row' ins, addRow now w row v = some (row', ins) → RowStepS w row row' v ins →
        ∃ b', b.add hash now v = some b' ∧ Inv hash S w b' ∧
          AddStep (hash v.hashInput) b b' kp kq vp vq row row' ins) ∧
      (addRow now w row v = none → b.add hash now v = none) ∧
      ((b.keys = kp ++ hash v.hashInput :: kq ∧ b.values = vp ++ row :: vq) ∨
        (row = [] ∧ b.keys = kp ++ kq ∧ b.values = vp ++ vq ∧ hash v.hashInput ∉ b.keys)) ∧
      kp.length = vp.length ∧ kq.length = vq.length := by
  obtain ⟨kp, kq, vp, vq, row, ⟨h, hnone⟩, hold, lp, lq⟩ := add_keys hash now b v hi.wf
  have hrow : RowOk hash S w (hash v.hashInput) row := by
    rcases hold with ⟨hk, hv⟩ | ⟨rfl, _⟩
    · exact hi.rows (hash v.hashInput, row) (by
        rw [hk, hv, List.zip_append lp]; simp)
    · exact RowOk.nil ..
  rw [hi.width] at h hnone
  refine ⟨kp, kq, vp, vq, row, hrow, ?_, hnone, hold, lp, lq⟩
  intro row' ins h1 h2
  obtain ⟨b', h3, h4⟩ := h row' ins h1
  refine ⟨b', h3, ⟨h4.wf, h4.width'.trans hi.width, ?_⟩, h4⟩
  have hrow' := h2.rowOk hS hrow
  intro p hp
  rw [h4.keys', h4.values', List.zip_append lp, List.zip_cons_cons, List.mem_append,
    List.mem_cons] at hp
  have hz : ∀ p, p ∈ kp.zip vp ∨ p ∈ kq.zip vq → p ∈ b.keys.zip b.values := by
    intro p hp
    rcases hold with ⟨hk, hv⟩ | ⟨rfl, hk, hv, _⟩
    · rw [hk, hv, List.zip_append lp, List.zip_cons_cons]
      simp only [List.mem_append, List.mem_cons]
      rcases hp with hp | hp <;> simp [hp]
    · rw [hk, hv, List.zip_append lp]
      simp only [List.mem_append]
      exact hp
  rcases hp with hp | rfl | hp
  · exact hi.rows p (hz p (.inl hp))
  · exact hrow'
  · exact hi.rows p (hz p (.inr hp))

/-- `add` keeps the invariant. -/
theorem Inv.add {hash : Str × TagMap → Nat} {S : Str × TagMap → Prop} {w : Int} {b : Buckets F}
    (hi : Inv hash S w b) (hw : w ≠ 0)
    (hinj : ∀ x y, S x → S y → hash x = hash y → x = y)
    (now : Int) (v : Telemetry F) (hS : S v.hashInput) :
    ∃ b' kp kq vp vq row row' ins, b.add hash now v = some b' ∧ Inv hash S w b' ∧
      AddStep (hash v.hashInput) b b' kp kq vp vq row row' ins ∧
      RowOk hash S w (hash v.hashInput) row ∧ RowStepS w row row' v ins := by
  obtain ⟨kp, kq, vp, vq, row, hrow, h, _⟩ := hi.addOf now v hS
  obtain ⟨row', ins, h1, h2⟩ := addRow_sorted now w row v hw
    (fun a ha => hinj _ _ (hrow.known a ha) hS (hrow.key a ha)) hrow.sorted
  obtain ⟨b', h3, h4, h5⟩ := h row' ins h1 h2
  exact ⟨b', kp, kq, vp, vq, row, row', ins, h3, h4, h5, hrow, h2⟩

/-- `reset` keeps the invariant. -/
theorem Inv.reset {hash : Str × TagMap → Nat} {S : Str × TagMap → Prop} {w : Int} {b : Buckets F}
    (hi : Inv hash S w b) (now : Int) : Inv hash S w (b.reset now) := by
  refine ⟨hi.wf.reset now, hi.width, ?_⟩
  intro p hp
  simp only [Buckets.reset, List.zip_map_right, List.mem_map, Prod.map] at hp
  obtain ⟨q, hq, rfl⟩ := hp
  have hr := hi.rows q hq
  simp only [id]
  rw [resetRow_eq]
  cases hl : q.2.getLast? with
  | none => exact RowOk.nil ..
  | some l =>
    simp only
    have hm : l ∈ q.2 := List.mem_of_getLast? hl
    split
    · refine ⟨?_, ?_, by simp⟩
      · intro t ht; rw [List.mem_singleton] at ht; subst ht; exact hr.key l hm
      · intro t ht; rw [List.mem_singleton] at ht; subst ht; exact hr.known l hm
    · exact RowOk.nil ..

/-- Points of different rows are of different series, points of a row are sorted:
in iteration order, points of one series have increasing bins. -/
theorem Inv.pairwise {hash : Str × TagMap → Nat} {S : Str × TagMap → Prop} {w : Int}
    {b : Buckets F} (hi : Inv hash S w b) :
    b.values.flatten.Pairwise (fun x y => x.hashInput = y.hashInput → x.bin w < y.bin w) := by
  rw [List.pairwise_flatten]
  have hrow : ∀ i (h1 : i < b.keys.length) (h2 : i < b.values.length),
      RowOk hash S w b.keys[i] b.values[i] := by
    intro i h1 h2
    have := hi.rows (b.keys[i], b.values[i]) (by
      have hz : i < (b.keys.zip b.values).length := by simp; omega
      have := List.getElem_mem hz
      rwa [List.getElem_zip] at this)
    exact this
  constructor
  · intro row hr
    obtain ⟨i, hi2, rfl⟩ := List.mem_iff_getElem.1 hr
    refine (hrow i (by rw [hi.wf.len]; exact hi2) hi2).sorted.imp ?_
    intro a b h _
    exact h
  · rw [List.pairwise_iff_getElem]
    intro i j h1 h2 hij x hx y hy heq
    have hk1 := (hrow i (by rw [hi.wf.len]; exact h1) h1).key x hx
    have hk2 := (hrow j (by rw [hi.wf.len]; exact h2) h2).key y hy
    have hlt := List.pairwise_iff_getElem.1 hi.wf.sorted i j (by rw [hi.wf.len]; exact h1)
      (by rw [hi.wf.len]; exact h2) hij
    rw [heq] at hk1
    omega

/-- Points of the same series lie in the same row. -/
theorem Inv.same_row {hash : Str × TagMap → Nat} {S : Str × TagMap → Prop} {w : Int}
    {b : Buckets F} (hi : Inv hash S w b) {r1 r2 : List (Telemetry F)} (h1 : r1 ∈ b.values)
    (h2 : r2 ∈ b.values) {x y : Telemetry F} (hx : x ∈ r1) (hy : y ∈ r2)
    (h : x.hashInput = y.hashInput) : r1 = r2 := by
  obtain ⟨i, hi1, rfl⟩ := List.mem_iff_getElem.1 h1
  obtain ⟨j, hj1, rfl⟩ := List.mem_iff_getElem.1 h2
  have hrow : ∀ i (h1 : i < b.keys.length) (h2 : i < b.values.length),
      RowOk hash S w b.keys[i] b.values[i] := by
    intro i h1 h2
    have := hi.rows (b.keys[i], b.values[i]) (by
      have hz : i < (b.keys.zip b.values).length := by simp; omega
      have := List.getElem_mem hz
      rwa [List.getElem_zip] at this)
    exact this
  have hl := hi.wf.len
  have hk1 := (hrow i (by omega) hi1).key x hx
  have hk2 := (hrow j (by omega) hj1).key y hy
  have hp := List.pairwise_iff_getElem.1 hi.wf.sorted
  rcases Nat.lt_trichotomy i j with hij | hij | hij
  · have := hp i j (by omega) (by omega) hij
    rw [h] at hk1; omega
  · subst hij; rfl
  · have := hp j i (by omega) (by omega) hij
    rw [h] at hk1; omega

/-- The effect of `add` on what iteration yields. -/
inductive FlatStep (w : Int) (l l' : List (Telemetry F)) (v : Telemetry F) : Prop where
  | merge (A B : List (Telemetry F)) (cur : Telemetry F)
      (hser : cur.hashInput = v.hashInput) (hbin : cur.bin w = v.bin w)
      (h : l = A ++ cur :: B) (h' : l' = A ++ cur.addAssign v :: B)
  | fresh (A B : List (Telemetry F))
      (hp : v.persist = false ∨ ∀ a ∈ A ++ B, a.hashInput = v.hashInput → v.bin w < a.bin w)
      (h : l = A ++ B) (h' : l' = A ++ v :: B)
  | carry (A B : List (Telemetry F)) (q : Telemetry F) (hp : v.persist = true)
      (hser : q.hashInput = v.hashInput) (hq : q.bin w < v.bin w)
      (h : l = A ++ q :: B) (h' : l' = A ++ q :: carried q v :: B)

theorem AddStep.flatStep {hash : Str × TagMap → Nat} {S : Str × TagMap → Prop} {w : Int}
    {b b' : Buckets F} {v : Telemetry F} {kp kq vp vq row row' ins}
    (hinj : ∀ x y, S x → S y → hash x = hash y → x = y)
    (hS : S v.hashInput)
    (s : AddStep (hash v.hashInput) b b' kp kq vp vq row row' ins)
    (hrow : RowOk hash S w (hash v.hashInput) row) (r : RowStepS w row row' v ins)
    (hi' : Inv hash S w b') :
    FlatStep w b.values.flatten b'.values.flatten v := by
  obtain ⟨f1, f2⟩ := s.flatten
  have hser : ∀ a ∈ row, a.hashInput = v.hashInput :=
    fun a ha => hinj _ _ (hrow.known a ha) hS (hrow.key a ha)
  cases r with
  | merge pre post cur hbin h h' =>
    subst h h'
    exact .merge (vp.flatten ++ pre) (post ++ vq.flatten) cur (hser cur (by simp)) hbin
      (by rw [f1]; simp) (by rw [f2]; simp)
  | fresh pre post hp hlt hgt h h' =>
    subst h h'
    refine .fresh (vp.flatten ++ pre) (post ++ vq.flatten) ?_ (by rw [f1]; simp) (by rw [f2]; simp)
    rcases hp with hp | hp
    · exact .inl hp
    · right
      subst hp
      have hpw := hi'.pairwise
      rw [f2] at hpw
      intro a ha hsera
      simp only [List.append_nil, List.mem_append] at ha
      -- points of the same series are in the same row of b'
      have hmem : ∀ r ∈ b'.values, a ∈ r → r = v :: post := by
        intro r hr har
        exact hi'.same_row hr (r2 := v :: post) (by rw [s.values']; simp) har
          (y := v) (by simp) hsera
      rcases ha with ha | ha | ha
      · obtain ⟨r, hr, har⟩ := List.mem_flatten.1 ha
        have := hmem r (by rw [s.values']; simp [hr]) har
        subst this
        -- the row occurs before itself: keys would repeat
        simp only [List.nil_append] at hpw
        have := (List.pairwise_append.1 hpw).2.2 v (List.mem_flatten.2 ⟨_, hr, by simp⟩) v (by simp) rfl
        omega
      · exact hgt a ha
      · obtain ⟨r, hr, har⟩ := List.mem_flatten.1 ha
        have := hmem r (by rw [s.values']; simp [hr]) har
        subst this
        simp only [List.nil_append] at hpw
        have := (List.pairwise_append.1 (List.pairwise_append.1 hpw).2.1).2.2 v (by simp) v
          (List.mem_flatten.2 ⟨_, hr, by simp⟩) rfl
        omega
  | carry pre post q hp hlt hq hgt h h' =>
    subst h h'
    exact .carry (vp.flatten ++ pre) (post ++ vq.flatten) q hp (hser q (by simp)) hq
      (by rw [f1]; simp) (by rw [f2]; simp)

/-- A history whose points are separated by the hash keeps the invariant. -/
theorem run_inv (hash : Str × TagMap → Nat) (S : Str × TagMap → Prop) (w : Int) (hw : w ≠ 0)
    (hinj : ∀ x y, S x → S y → hash x = hash y → x = y) :
    ∀ (ops : List (BucketOp F)) (b : Buckets F), Inv hash S w b →
      (∀ v ∈ addedPoints ops, S v.hashInput) →
      ∃ b', runBucket hash b ops = some b' ∧ Inv hash S w b' := by
  intro ops
  induction ops with
  | nil => intro b hb _; exact ⟨b, rfl, hb⟩
  | cons o ops ih =>
    intro b hb hS
    cases o with
    | add now v =>
      obtain ⟨b1, _, _, _, _, _, _, _, h1, h2, _⟩ :=
        hb.add hw hinj now v (hS v (by simp [addedPoints]))
      simp only [runBucket, h1]
      exact ih b1 h2 (fun u hu => hS u (by simp [addedPoints, hu]))
    | reset now =>
      simp only [runBucket]
      exact ih _ (hb.reset now) (fun u hu => hS u (by simpa [addedPoints] using hu))

/-- the series of a list of points -/
def seriesOf (vs : List (Telemetry F)) (x : Str × TagMap) : Prop := ∃ v ∈ vs, v.hashInput = x

theorem separates_inj {hash : Str × TagMap → Nat} {vs : List (Telemetry F)}
    (h : Separates hash vs) : ∀ x y, seriesOf vs x → seriesOf vs y → hash x = hash y → x = y := by
  rintro x y ⟨a, ha, rfl⟩ ⟨b, hb, rfl⟩ heq
  exact sameSeries_iff.1 (h a ha b hb heq)

theorem reachable_inv {hash : Str × TagMap → Nat} {w : Int} (hw : w ≠ 0)
    (ops : List (BucketOp F)) (vs : List (Telemetry F))
    (hsep : Separates hash vs) (hsub : ∀ v ∈ addedPoints ops, v ∈ vs) :
    ∃ b, runBucket hash (Buckets.new w) ops = some b ∧ Inv hash (seriesOf vs) w b :=
  run_inv hash _ w hw (separates_inj hsep) ops _ (Inv.new hash _ w)
    (fun v hv => ⟨v, hsub v hv, rfl⟩)

end
end Buckets
end Verif
