import Verif.Spec.Store
import Verif.Lemmas.BucketsInv
/-! # Lemmas: the bucket store against the plain collection of points -/
namespace Verif.Store
open Buckets
section
variable {F : Type} [F64 F]

/-- at most one point per series and bin -/
def Unique (w : Int) (l : List (Telemetry F)) : Prop :=
  l.Pairwise fun x y => ¬ (SameSeries x y ∧ SameBin w x y)

theorem SameSeries.symm {a b : Telemetry F} (h : SameSeries a b) : SameSeries b a := ⟨h.1.symm, h.2.symm⟩
theorem SameSeries.trans {a b c : Telemetry F} (h : SameSeries a b) (h' : SameSeries b c) : SameSeries a c :=
  ⟨h.1.trans h'.1, h.2.trans h'.2⟩

theorem Unique.perm {w : Int} {l m : List (Telemetry F)} (hu : Unique w l) (h : l.Perm m) : Unique w m :=
  (h.pairwise_iff (fun {_ _} hxy hyx => hxy ⟨SameSeries.symm hyx.1, hyx.2.symm⟩)).1 hu

/-- two points of one series and bin in a unique list are the same -/
theorem Unique.eq {w : Int} {l : List (Telemetry F)} (hu : Unique w l) {x y : Telemetry F}
    (hx : x ∈ l) (hy : y ∈ l) (hs : SameSeries x y) (hb : SameBin w x y) : x = y := by
  induction l with
  | nil => simp at hx
  | cons a l ih =>
    have hu' := List.pairwise_cons.1 hu
    rcases List.mem_cons.1 hx with hx1 | hx1 <;> rcases List.mem_cons.1 hy with hy1 | hy1
    · rw [hx1, hy1]
    · rw [hx1] at hs hb; exact absurd ⟨hs, hb⟩ (hu'.1 y hy1)
    · rw [hy1] at hs hb; exact absurd ⟨SameSeries.symm hs, hb.symm⟩ (hu'.1 x hx1)
    · exact ih hu'.2 hx1 hy1

theorem find_unique {α : Type} {p : α → Bool} {l : List α} {q : α} (hq : q ∈ l) (hp : p q = true)
    (hu : ∀ x ∈ l, p x = true → x = q) : l.find? p = some q := by
  cases h : l.find? p with
  | none => rw [List.find?_eq_none] at h; exact absurd hp (h q hq)
  | some x => rw [hu x (List.mem_of_find?_eq_some h) (List.find?_some h)]

theorem find_perm {α : Type} {p p' : α → Bool} {l m : List α} (h : l.Perm m)
    (hp : ∀ x ∈ l, p x = p' x)
    (hu : ∀ x ∈ l, ∀ y ∈ l, p x = true → p y = true → x = y) : l.find? p = m.find? p' := by
  cases hl : l.find? p with
  | none =>
    symm
    rw [List.find?_eq_none] at hl ⊢
    intro x hx
    have hx' := h.mem_iff.2 hx
    rw [← hp x hx']
    exact hl x hx'
  | some q =>
    symm
    have hq := List.mem_of_find?_eq_some hl
    refine find_unique (h.mem_iff.1 hq) (by rw [← hp q hq]; exact List.find?_some hl) ?_
    intro x hx hpx
    have hx' := h.mem_iff.2 hx
    exact hu x hx' q hq (by rw [hp x hx']; exact hpx) (List.find?_some hl)

theorem latest_perm {w : Int} {l m : List (Telemetry F)} (h : l.Perm m) (v q : Telemetry F) :
    Latest w l v q ↔ Latest w m v q := by
  simp only [Latest, h.mem_iff]

theorem latest_eq {w : Int} {l : List (Telemetry F)} (hu : Unique w l) {v x y : Telemetry F}
    (hx : x ∈ l) (hy : y ∈ l) (h1 : Latest w l v x) (h2 : Latest w l v y) : x = y := by
  have a := h1.2.2 y hy h2.1 h2.2.1
  have b := h2.2.2 x hx h1.1 h1.2.1
  exact hu.eq hx hy (SameSeries.trans h1.1 (SameSeries.symm h2.1)) (Int.le_antisymm b a)

theorem add_perm {w : Int} {l m : List (Telemetry F)} (hu : Unique w l) (h : l.Perm m) (v : Telemetry F) :
    (add w l v).Perm (add w m v) := by
  unfold add
  have he : (∃ p ∈ l, SameSeries p v ∧ SameBin w p v) ↔ (∃ p ∈ m, SameSeries p v ∧ SameBin w p v) := by
    simp only [h.mem_iff]
  by_cases hc : ∃ p ∈ l, SameSeries p v ∧ SameBin w p v
  · rw [if_pos hc, if_pos (he.1 hc)]
    exact h.map _
  · rw [if_neg hc, if_neg (fun h' => hc (he.2 h'))]
    have hf : (if v.persist then l.find? fun q => Latest w l v q else none) =
        (if v.persist then m.find? fun q => Latest w m v q else none) := by
      split
      · refine find_perm h (fun x _ => ?_) ?_
        · exact decide_eq_decide.2 (latest_perm h v x)
        · intro x hx y hy h1 h2
          exact latest_eq hu hx hy (of_decide_eq_true h1) (of_decide_eq_true h2)
      · rfl
    rw [hf]
    split <;> exact h.append_right _

theorem reset_perm {w now : Int} {l m : List (Telemetry F)} (h : l.Perm m) :
    (reset w now l).Perm (reset w now m) := by
  unfold reset
  have : ∀ q, (q.persist && decide (∀ r ∈ l, SameSeries r q → binOf w r ≤ binOf w q)) =
      (q.persist && decide (∀ r ∈ m, SameSeries r q → binOf w r ≤ binOf w q)) := by
    intro q
    congr 1
    exact decide_eq_decide.2 (by simp only [h.mem_iff])
  simp only [this]
  exact (h.filter _).map _

/-- one arrival, on the flattened rows -/
theorem flatStep_perm {w : Int} {l l' : List (Telemetry F)} {v : Telemetry F} (hs : FlatStep w l l' v)
    (hp : l.Pairwise (fun x y => x.hashInput = y.hashInput → x.bin w < y.bin w))
    (hp' : l'.Pairwise (fun x y => x.hashInput = y.hashInput → x.bin w < y.bin w)) :
    l'.Perm (add w l v) := by
  cases hs with
  | merge A B cur hser hbin h h' =>
    subst h h'
    unfold add
    rw [if_pos ⟨cur, by simp, sameSeries_iff.2 hser, hbin⟩]
    rw [List.pairwise_append, List.pairwise_cons] at hp
    have hA : A.map (fun p => if SameSeries p v ∧ SameBin w p v then p.addAssign v else p) = A := by
      conv => rhs; rw [← List.map_id A]
      refine List.map_congr_left fun a ha => if_neg ?_
      rintro ⟨h1, h2⟩
      have := hp.2.2 a ha cur (by simp) ((sameSeries_iff.1 h1).trans hser.symm)
      have h2 : a.bin w = v.bin w := h2
      omega
    have hB : B.map (fun p => if SameSeries p v ∧ SameBin w p v then p.addAssign v else p) = B := by
      conv => rhs; rw [← List.map_id B]
      refine List.map_congr_left fun a ha => if_neg ?_
      rintro ⟨h1, h2⟩
      have := hp.2.1.1 a ha (hser.trans (sameSeries_iff.1 h1).symm)
      have h2 : a.bin w = v.bin w := h2
      omega
    rw [List.map_append, List.map_cons, hA, hB, if_pos ⟨sameSeries_iff.2 hser, hbin⟩]
  | fresh A B hpers h h' =>
    subst h h'
    rw [List.pairwise_append, List.pairwise_cons] at hp'
    unfold add
    rw [if_neg]
    · have hf : (if v.persist then (A ++ B).find? fun q => Latest w (A ++ B) v q else none) = none := by
        rcases hpers with hv | hv
        · simp [hv]
        · have : (A ++ B).find? (fun q => Latest w (A ++ B) v q) = none := by
            rw [List.find?_eq_none]
            intro q hq hl
            have hl := of_decide_eq_true hl
            have h1 := hv q hq (sameSeries_iff.1 hl.1)
            have h2 : q.bin w < v.bin w := hl.2.1
            omega
          rw [this]; simp
      rw [hf]
      rw [List.append_assoc]
      exact List.Perm.append_left A (List.perm_append_singleton v B).symm
    · rintro ⟨p, hpm, h1, h2⟩
      have h2 : p.bin w = v.bin w := h2
      rcases List.mem_append.1 hpm with ha | hb
      · have := hp'.2.2 p ha v (by simp) (sameSeries_iff.1 h1); omega
      · have := hp'.2.1.1 p hb (sameSeries_iff.1 h1).symm; omega
  | carry A B q hv hser hq h h' =>
    subst h h'
    rw [List.pairwise_append, List.pairwise_cons, List.pairwise_cons] at hp'
    have hca : (carried q v).hashInput = v.hashInput := hser
    have hcb : (carried q v).bin w = v.bin w := rfl
    have hno : ¬ ∃ p ∈ A ++ q :: B, SameSeries p v ∧ SameBin w p v := by
      rintro ⟨p, hpm, h1, h2⟩
      have h2 : p.bin w = v.bin w := h2
      have h1 := sameSeries_iff.1 h1
      rcases List.mem_append.1 hpm with ha | hb
      · have := hp'.2.2 p ha (carried q v) (by simp) (h1.trans hca.symm); omega
      · rcases List.mem_cons.1 hb with rfl | hb
        · omega
        · have := hp'.2.1.2.1 p hb (hca.trans h1.symm); omega
    have hlat : Latest w (A ++ q :: B) v q := by
      refine ⟨sameSeries_iff.2 hser, hq, ?_⟩
      intro r hr h1 h2
      have h2 : r.bin w < v.bin w := h2
      have h1 := sameSeries_iff.1 h1
      show r.bin w ≤ q.bin w
      rcases List.mem_append.1 hr with ha | hb
      · exact Int.le_of_lt (hp'.2.2 r ha q (by simp) (h1.trans hser.symm))
      · rcases List.mem_cons.1 hb with rfl | hb
        · exact Int.le_refl _
        · have := hp'.2.1.2.1 r hb (hca.trans h1.symm); omega
    have hu : Unique w (A ++ q :: B) := hp.imp fun {x y} hxy hs => by
      have := hxy (sameSeries_iff.1 hs.1)
      have h2 : x.bin w = y.bin w := hs.2
      omega
    have hf : (A ++ q :: B).find? (fun x => Latest w (A ++ q :: B) v x) = some q := by
      refine find_unique (by simp) (decide_eq_true hlat) ?_
      intro x hx hl
      exact latest_eq hu hx (by simp) (of_decide_eq_true hl) hlat
    unfold add
    rw [if_neg hno, if_pos hv, hf]
    simp only
    rw [List.append_assoc, List.cons_append]
    exact List.Perm.append_left A ((List.perm_append_singleton _ B).symm.cons q)

/-- a reset, on the flattened rows -/
theorem reset_flatten {hash : Str × TagMap → Nat} {S : Str × TagMap → Prop} {w : Int} {b : Buckets F}
    (hi : Inv hash S w b) (hinj : ∀ x y, S x → S y → hash x = hash y → x = y) (now : Int) :
    (b.reset now).values.flatten = reset w now b.values.flatten := by
  unfold reset
  simp only [Buckets.reset, List.filter_flatten, List.map_flatten, List.map_map]
  congr 1
  refine List.map_congr_left fun row hrow => ?_
  simp only [Function.comp]
  rw [resetRow_eq]
  have hok : ∃ k, RowOk hash S w k row := by
    obtain ⟨i, hi1, hi2⟩ := List.mem_iff_getElem.1 hrow
    have hz : i < (b.keys.zip b.values).length := by have := hi.wf.len; simp; omega
    have := hi.rows _ (List.getElem_mem hz)
    rw [List.getElem_zip] at this
    simp only [hi2] at this
    exact ⟨_, this⟩
  obtain ⟨k, hok⟩ := hok
  cases hl : row.getLast? with
  | none => rw [List.getLast?_eq_none_iff.1 hl]; rfl
  | some q =>
    obtain ⟨pre, rfl⟩ := List.getLast?_eq_some_iff.1 hl
    have hsorted := hok.sorted
    rw [List.pairwise_append] at hsorted
    have hpre : pre.filter (fun q => q.persist && decide (∀ r ∈ b.values.flatten, SameSeries r q → binOf w r ≤ binOf w q)) = [] := by
      rw [List.filter_eq_nil_iff]
      intro a ha hp
      rw [Bool.and_eq_true, decide_eq_true_eq] at hp
      have hser : q.hashInput = a.hashInput :=
        hinj _ _ (hok.known q (by simp)) (hok.known a (by simp [ha])) ((hok.key q (by simp)).trans (hok.key a (by simp [ha])).symm)
      have h1 := hp.2 q (List.mem_flatten.2 ⟨_, hrow, by simp⟩) (sameSeries_iff.2 hser)
      have h1 : q.bin w ≤ a.bin w := h1
      have := hsorted.2.2 a ha q (by simp)
      omega
    have hmax : ∀ r ∈ b.values.flatten, SameSeries r q → binOf w r ≤ binOf w q := by
      intro r hr hser
      obtain ⟨row2, hrow2, hr⟩ := List.mem_flatten.1 hr
      have : row2 = pre ++ [q] := hi.same_row hrow2 hrow hr (by simp) (sameSeries_iff.1 hser)
      subst this
      show r.bin w ≤ q.bin w
      rcases List.mem_append.1 hr with hr | hr
      · exact Int.le_of_lt (hsorted.2.2 r hr q (by simp))
      · rw [List.mem_singleton] at hr; subst hr; exact Int.le_refl _
    rw [List.filter_append, hpre, List.nil_append]
    by_cases hp : q.persist = true
    · have hd : (q.persist && decide (∀ r ∈ b.values.flatten, SameSeries r q → binOf w r ≤ binOf w q)) = true := by
        rw [hp, decide_eq_true hmax]; rfl
      rw [List.filter_cons, if_pos hd]
      simp [hp]
    · simp [hp]

theorem run_perm {hash : Str × TagMap → Nat} {S : Str × TagMap → Prop} {w : Int} (hw : w ≠ 0)
    (hinj : ∀ x y, S x → S y → hash x = hash y → x = y) :
    ∀ (ops : List (BucketOp F)) (b : Buckets F) (pts : List (Telemetry F)), Inv hash S w b →
      b.values.flatten.Perm pts → (∀ v ∈ addedPoints ops, S v.hashInput) →
      ∃ b', runBucket hash b ops = some b' ∧ Inv hash S w b' ∧ b'.values.flatten.Perm (run w pts ops) := by
  intro ops
  induction ops with
  | nil => intro b pts hi hp _; exact ⟨b, rfl, hi, hp⟩
  | cons o ops ih =>
    intro b pts hi hp hS
    have hu : Unique w b.values.flatten := hi.pairwise.imp fun {x y} hxy hs => by
      have := hxy (sameSeries_iff.1 hs.1)
      have h2 : x.bin w = y.bin w := hs.2
      omega
    cases o with
    | add now v =>
      have hSv := hS v (by simp [addedPoints])
      obtain ⟨b1, _, _, _, _, _, _, _, h1, h2, h3, h4, h5⟩ := hi.add hw hinj now v hSv
      have hstep := h3.flatStep hinj hSv h4 h5 h2
      simp only [runBucket, h1]
      exact ih b1 _ h2 ((flatStep_perm hstep hi.pairwise h2.pairwise).trans (add_perm hu hp v))
        (fun u hm => hS u (by simp [addedPoints, hm]))
    | reset now =>
      simp only [runBucket]
      refine ih _ _ (hi.reset now) ?_ (fun u hm => hS u (by simpa [addedPoints] using hm))
      rw [reset_flatten hi hinj now]
      exact reset_perm hp

end
end Verif.Store
