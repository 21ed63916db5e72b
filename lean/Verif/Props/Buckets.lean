import Verif.Lemmas.BucketsInv
/-!
# Properties C08–C13: the bucket store
-/
namespace Verif
open Buckets
section
variable {F : Type} [F64 F]

/-! ## C08 -/

private theorem c08_run (hash : Str × TagMap → Nat) (w : Int) (hw : w ≠ 0) :
    ∀ (ops : List (BucketOp F)) (b : Buckets F) (n : Nat), Wf b → b.binWidth = w →
      b.count = b.values.flatten.length → b.count ≤ n →
      n + (addedPoints ops).length ≤ u64Max →
      ∃ b', runBucket hash b ops = some b' ∧ Wf b' ∧ b'.count = b'.values.flatten.length ∧
        (∀ k, k ∈ b'.keys ↔ k ∈ b.keys ∨ ∃ v ∈ addedPoints ops, hash v.hashInput = k) := by
  intro ops
  induction ops with
  | nil => intro b n h1 _ h3 _ _; exact ⟨b, rfl, h1, h3, by simp [addedPoints]⟩
  | cons o ops ih =>
    intro b n h1 h2 h3 h4 h5
    cases o with
    | add now v =>
      simp only [addedPoints, List.length_cons] at h5
      obtain ⟨b1, kp, kq, vp, vq, row, row', ins, e, s, r⟩ := add_total hash now b v h1 (h2 ▸ hw)
      have hcount : b1.count = b1.values.flatten.length ∧ b1.count ≤ n + 1 := by
        obtain ⟨f1, f2⟩ := s.flatten
        have hl := r.length
        have hc := s.count'
        rw [f1] at h3
        rw [f2]
        simp only [List.length_append] at *
        cases ins
        · simp only [Bool.false_eq_true, if_false] at hc hl; omega
        · simp only [if_true] at hc hl
          have : satAdd b.count 1 = b.count + 1 := satAdd_one (m := n + ((addedPoints ops).length + 1)) (by omega) h5
          omega
      obtain ⟨b', e', h1', h3', hk⟩ := ih b1 (n + 1) s.wf (s.width'.trans h2) hcount.1 hcount.2
        (by omega)
      refine ⟨b', by simp only [runBucket, e]; exact e', h1', h3', ?_⟩
      intro k
      rw [hk, s.keys']
      simp only [addedPoints, List.mem_cons, exists_eq_or_imp]
      rcases s.old with ⟨ho, _⟩ | ⟨_, ho, _, _⟩ <;> rw [ho] <;>
        simp only [List.mem_append, List.mem_cons] <;> grind
    | reset now =>
      simp only [addedPoints] at h5
      have hr := reset_count now b (by omega)
      obtain ⟨b', e', h1', h3', hk⟩ := ih (b.reset now) n (h1.reset now) h2 hr.1 (by omega) h5
      refine ⟨b', by simp only [runBucket]; exact e', h1', h3', ?_⟩
      intro k
      rw [hk]
      simp [Buckets.reset, addedPoints]

/-- **C08** For every history of additions and resets (fewer than 2^64 additions),
from an empty store with a non-zero bin width and for any hash function: nothing
panics, the reported count is the number of points iteration yields, the store
reports empty exactly when iteration yields nothing, and `len` is the number of
distinct series keys ever added. -/
theorem C08_bucket_bookkeeping (hash : Str × TagMap → Nat) (w : Int) (hw : w ≠ 0)
    (ops : List (BucketOp F)) (hfew : (addedPoints ops).length < 2 ^ 64) :
    ∃ b pts, runBucket hash (Buckets.new w) ops = some b ∧ b.iter = some pts ∧
      b.count = pts.length ∧ (b.isEmpty = true ↔ pts = []) ∧
      ∃ ks : List Nat, ks.Nodup ∧ b.len = ks.length ∧
        (∀ k, k ∈ ks ↔ ∃ v ∈ addedPoints ops, hash v.hashInput = k) := by
  obtain ⟨b, e, hwf, hc, hk⟩ := c08_run hash w hw ops (Buckets.new w) 0 (Wf.new w) rfl rfl
    (Nat.le_refl _) (by unfold u64Max; omega)
  refine ⟨b, b.values.flatten, e, iter_eq b hwf.len, hc, ?_, b.keys, ?_, rfl, ?_⟩
  · simp only [Buckets.isEmpty, beq_iff_eq, hc, List.length_eq_zero_iff]
  · exact hwf.sorted.imp (fun h => Nat.ne_of_lt h)
  · intro k; rw [hk]; simp [Buckets.new]

/-- Non-vacuity of C08: two series, a merge, a reset. -/
example :
    let p (n : Str) (ts x : Int) (per : Bool) : Telemetry Int := ⟨n, .sum x, per, none, ts, none, none⟩
    let hash : Str × TagMap → Nat := fun x => x.1.length
    let ops : List (BucketOp Int) := [.add 0 (p ['a'] 1 2 false), .add 0 (p ['b', 'b'] 1 3 true),
      .add 0 (p ['a'] 1 5 false), .add 0 (p ['a'] 2 7 false)]
    ((runBucket hash (Buckets.new 1) ops).map (fun b => (b.count, b.len))) = some (3, 2) ∧
    ((runBucket hash (Buckets.new 1) (ops ++ [.reset 9])).map (fun b => (b.count, b.len)))
      = some (1, 2) ∧ (addedPoints ops).length < 2 ^ 64 := by decide

/-! ## C09 -/

/-- **C09** For every history whose series the hash distinguishes, iteration never
yields two points of the same series and time bin, and points of one series come
out in strictly increasing bin order. -/
theorem C09_one_point_per_bin (hash : Str × TagMap → Nat) (w : Int) (hw : w ≠ 0)
    (ops : List (BucketOp F)) (hsep : Separates hash (addedPoints ops)) :
    ∃ b pts, runBucket hash (Buckets.new w) ops = some b ∧ b.iter = some pts ∧
      pts.Pairwise (fun a c => SameSeries a c → a.timestamp.tdiv w < c.timestamp.tdiv w) ∧
      pts.Pairwise (fun a c => ¬ (SameSeries a c ∧ SameBin w a c)) := by
  obtain ⟨b, e, hi⟩ := reachable_inv hw ops _ hsep (fun _ h => h)
  refine ⟨b, _, e, iter_eq b hi.wf.len, ?_, ?_⟩
  · refine hi.pairwise.imp ?_
    intro a c h hs
    exact h (sameSeries_iff.1 hs)
  · refine hi.pairwise.imp ?_
    intro a c h hs
    have h1 : a.timestamp.tdiv w < c.timestamp.tdiv w := h (sameSeries_iff.1 hs.1)
    have h2 : a.timestamp.tdiv w = c.timestamp.tdiv w := hs.2
    omega

/-- Non-vacuity of C09: a hash that separates, and an out-of-order history. -/
example :
    let p (n : Str) (ts x : Int) : Telemetry Int := ⟨n, .sum x, false, none, ts, none, none⟩
    let hash : Str × TagMap → Nat := fun x => x.1.length
    let ops : List (BucketOp Int) := [.add 0 (p ['a'] 25 2), .add 0 (p ['b', 'b'] 1 3),
      .add 0 (p ['a'] 3 5), .add 0 (p ['a'] 21 7)]
    (∀ a ∈ addedPoints ops, ∀ b ∈ addedPoints ops, hash a.hashInput = hash b.hashInput → SameSeries a b) ∧
    ((runBucket hash (Buckets.new 10) ops).bind Buckets.iter) =
      some [p ['a'] 3 5, p ['a'] 25 9, p ['b', 'b'] 1 3] := by decide

/-! ## C10 -/

/-- add every later arrival into the first, in order -/
def foldArrivals : List (Telemetry F) → Option (Telemetry F)
  | [] => none
  | x :: xs => some (xs.foldl Telemetry.addAssign x)

private theorem foldArrivals_concat (l : List (Telemetry F)) (v p : Telemetry F)
    (h : foldArrivals l = some p) : foldArrivals (l ++ [v]) = some (p.addAssign v) := by
  cases l with
  | nil => simp [foldArrivals] at h
  | cons x xs =>
    simp only [foldArrivals, Option.some.injEq] at h
    simp [foldArrivals, h]

/-- same series and bin, as a filter -/
private def same (w : Int) (a : Telemetry F) (b : Telemetry F) : Bool :=
  decide (SameSeries a b ∧ SameBin w a b)

private theorem same_iff {w : Int} {a b : Telemetry F} :
    same w a b = true ↔ a.hashInput = b.hashInput ∧ a.bin w = b.bin w := by
  simp only [same, decide_eq_true_eq, sameSeries_iff]; rfl

private theorem pairwise_mid {α : Type} {R : α → α → Prop} {A B : List α} {c : α}
    (h : (A ++ c :: B).Pairwise R) : (∀ a ∈ A, R a c) ∧ (∀ b ∈ B, R c b) := by
  rw [List.pairwise_append, List.pairwise_cons] at h
  exact ⟨fun a ha => h.2.2 a ha c (by simp), h.2.1.1⟩

private theorem c10_run (hash : Str × TagMap → Nat) (S : Str × TagMap → Prop) (w : Int) (hw : w ≠ 0)
    (hinj : ∀ x y, S x → S y → hash x = hash y → x = y) (now : Telemetry F → Int) :
    ∀ (vs old : List (Telemetry F)) (b : Buckets F), Inv hash S w b →
      (∀ v ∈ vs, S v.hashInput) → (∀ v ∈ vs, v.persist = false) →
      (∀ p ∈ b.values.flatten, foldArrivals (old.filter (same w p)) = some p) →
      (∀ v ∈ old, ∃ p ∈ b.values.flatten, same w p v = true) →
      ∃ b', runBucket hash b (vs.map fun v => .add (now v) v) = some b' ∧ Inv hash S w b' ∧
        (∀ p ∈ b'.values.flatten, foldArrivals ((old ++ vs).filter (same w p)) = some p) ∧
        (∀ v ∈ old ++ vs, ∃ p ∈ b'.values.flatten, same w p v = true) := by
  intro vs
  induction vs with
  | nil =>
    intro old b hi _ _ h1 h2
    exact ⟨b, rfl, hi, by simpa using h1, by simpa using h2⟩
  | cons v vs ih =>
    intro old b hi hS hp h1 h2
    obtain ⟨b1, kp, kq, vp, vq, row, row', ins, e, hi1, st, hrow, rs⟩ :=
      hi.add hw hinj (now v) v (hS v (by simp))
    have fs := st.flatStep hinj (hS v (by simp)) hrow rs hi1
    have hpw := hi1.pairwise
    have key : (∀ p ∈ b1.values.flatten, foldArrivals ((old ++ [v]).filter (same w p)) = some p) ∧
        (∀ u ∈ old ++ [v], ∃ p ∈ b1.values.flatten, same w p u = true) := by
      cases fs with
      | merge A B cur hser hbin h h' =>
        rw [h'] at hpw ⊢
        rw [h] at h1 h2
        obtain ⟨hA, hB⟩ := pairwise_mid hpw
        constructor
        · intro p hpm
          simp only [List.mem_append, List.mem_cons] at hpm
          have other : p ∈ A ∨ p ∈ B → same w p v = false := by
            intro hpo
            rw [Bool.eq_false_iff]
            intro hs
            rw [same_iff] at hs
            rcases hpo with hpo | hpo
            · have := hA p hpo (by rw [addAssign_hashInput, hser]; exact hs.1)
              rw [addAssign_bin] at this; omega
            · have := hB p hpo (by rw [addAssign_hashInput, hser]; exact hs.1.symm)
              rw [addAssign_bin] at this; omega
          rcases hpm with hpm | rfl | hpm
          · rw [List.filter_append, List.filter_cons, other (.inl hpm)]
            simpa using h1 p (by simp [hpm])
          · have hc := h1 cur (by simp)
            have hf : same w (cur.addAssign v) = same w cur := rfl
            rw [hf, List.filter_append, List.filter_cons,
              if_pos (same_iff.2 ⟨hser, hbin⟩)]
            exact foldArrivals_concat _ _ _ hc
          · rw [List.filter_append, List.filter_cons, other (.inr hpm)]
            simpa using h1 p (by simp [hpm])
        · intro u hu
          rw [List.mem_append, List.mem_singleton] at hu
          rcases hu with hu | rfl
          · obtain ⟨p, hpm, hps⟩ := h2 u hu
            simp only [List.mem_append, List.mem_cons] at hpm
            rcases hpm with hpm | rfl | hpm
            · exact ⟨p, by simp [hpm], hps⟩
            · exact ⟨p.addAssign v, by simp, hps⟩
            · exact ⟨p, by simp [hpm], hps⟩
          · exact ⟨cur.addAssign u, by simp, same_iff.2 ⟨hser, hbin⟩⟩
      | fresh A B _ h h' =>
        rw [h'] at hpw ⊢
        rw [h] at h1 h2
        obtain ⟨hA, hB⟩ := pairwise_mid hpw
        have other : ∀ p, p ∈ A ∨ p ∈ B → same w p v = false := by
          intro p hpo
          rw [Bool.eq_false_iff]
          intro hs
          rw [same_iff] at hs
          rcases hpo with hpo | hpo
          · have := hA p hpo hs.1; omega
          · have := hB p hpo hs.1.symm; omega
        constructor
        · intro p hpm
          simp only [List.mem_append, List.mem_cons] at hpm
          rcases hpm with hpm | rfl | hpm
          · rw [List.filter_append, List.filter_cons, other p (.inl hpm)]
            simpa using h1 p (by simp [hpm])
          · have hnil : old.filter (same w p) = [] := by
              rw [List.filter_eq_nil_iff]
              intro u hu hs
              obtain ⟨q, hq, hqs⟩ := h2 u hu
              have := other q (List.mem_append.1 hq)
              rw [same_iff] at hs hqs
              rw [Bool.eq_false_iff] at this
              exact this (same_iff.2 ⟨hqs.1.trans hs.1.symm, hqs.2.trans hs.2.symm⟩)
            rw [List.filter_append, hnil, List.filter_cons, if_pos (same_iff.2 ⟨rfl, rfl⟩)]
            rfl
          · rw [List.filter_append, List.filter_cons, other p (.inr hpm)]
            simpa using h1 p (by simp [hpm])
        · intro u hu
          rw [List.mem_append, List.mem_singleton] at hu
          rcases hu with hu | rfl
          · obtain ⟨p, hpm, hps⟩ := h2 u hu
            rcases List.mem_append.1 hpm with hpm | hpm
            · exact ⟨p, by simp [hpm], hps⟩
            · exact ⟨p, by simp [hpm], hps⟩
          · exact ⟨u, by simp, same_iff.2 ⟨rfl, rfl⟩⟩
      | carry A B q hpt => 
        rw [hp v (by simp)] at hpt; simp at hpt
    obtain ⟨b', e', hi', k1, k2⟩ := ih (old ++ [v]) b1 hi1 (fun u hu => hS u (by simp [hu]))
      (fun u hu => hp u (by simp [hu])) key.1 key.2
    refine ⟨b', ?_, hi', by simpa using k1, by simpa using k2⟩
    simp only [List.map_cons, runBucket, e]
    exact e'

/-- **C10** After adding non-persistent points `vs` (in order, whatever the clock)
to an empty store whose hash distinguishes their series: every point iteration
yields is the in-order sum of exactly the arrivals of its series and bin; every
arrival's series and bin is represented; and no two points share series and bin. -/
theorem C10_bucket_fold (hash : Str × TagMap → Nat) (w : Int) (hw : w ≠ 0)
    (now : Telemetry F → Int) (vs : List (Telemetry F))
    (hnp : ∀ v ∈ vs, v.persist = false) (hsep : Separates hash vs) :
    ∃ b pts, runBucket hash (Buckets.new w) (vs.map fun v => .add (now v) v) = some b ∧
      b.iter = some pts ∧
      (∀ p ∈ pts, foldArrivals (vs.filter fun v => decide (SameSeries p v ∧ SameBin w p v)) = some p) ∧
      (∀ v ∈ vs, ∃ p ∈ pts, SameSeries p v ∧ SameBin w p v) ∧
      pts.Pairwise (fun a c => ¬ (SameSeries a c ∧ SameBin w a c)) := by
  obtain ⟨b, e, hi, h1, h2⟩ := c10_run hash (seriesOf vs) w hw (separates_inj hsep) now vs []
    (Buckets.new w) (Inv.new _ _ _) (fun v hv => ⟨v, hv, rfl⟩) hnp
    (by simp [Buckets.new]) (by simp)
  refine ⟨b, _, e, iter_eq b hi.wf.len, h1, ?_, ?_⟩
  · intro v hv
    obtain ⟨p, hp, hs⟩ := h2 v (by simpa using hv)
    exact ⟨p, hp, by simpa [same] using hs⟩
  · refine hi.pairwise.imp ?_
    intro a c h hs
    have h1 : a.timestamp.tdiv w < c.timestamp.tdiv w := h (sameSeries_iff.1 hs.1)
    have h2 : a.timestamp.tdiv w = c.timestamp.tdiv w := hs.2
    omega

/-- Non-vacuity of C10: a SET after a SUM in the same bin replaces it. -/
example :
    let p (n : Str) (ts : Int) (v : Value Int) : Telemetry Int := ⟨n, v, false, none, ts, none, none⟩
    let hash : Str × TagMap → Nat := fun x => x.1.length
    let vs := [p ['a'] 25 (.sum 2), p ['b', 'b'] 1 (.sum 3), p ['a'] 21 (.set 7), p ['a'] 29 (.sum 1)]
    (∀ v ∈ vs, v.persist = false) ∧
    (∀ a ∈ vs, ∀ b ∈ vs, hash a.hashInput = hash b.hashInput → SameSeries a b) ∧
    ((runBucket hash (Buckets.new 10) (vs.map fun v => .add 0 v)).bind Buckets.iter) =
      some [p ['a'] 25 (.sum 8), p ['b', 'b'] 1 (.sum 3)] := by decide

/-! ## C11 -/

private theorem sumTotal_append [LawfulAdd F] (A B : List (Telemetry F)) :
    sumTotal (A ++ B) = F64.add (sumTotal A) (sumTotal B) := by
  induction A with
  | nil => simp [sumTotal, LawfulAdd.zero_add]
  | cons a A ih =>
    simp only [List.cons_append, sumTotal, ih]
    cases a.sum <;> simp [LawfulAdd.add_assoc]

private theorem sumTotal_insert [LawfulAdd F] (A B : List (Telemetry F)) (v : Telemetry F) (x : F)
    (h : v.value = .sum x) : sumTotal (A ++ v :: B) = F64.add x (sumTotal (A ++ B)) := by
  have hv : v.sum = some x := by simp [Telemetry.sum, h]
  rw [sumTotal_append, sumTotal_append]
  simp only [sumTotal, hv]
  rw [← LawfulAdd.add_assoc, LawfulAdd.add_comm (sumTotal A), LawfulAdd.add_assoc]

private theorem c11_run [LawfulAdd F] (hash : Str × TagMap → Nat) (w : Int) (hw : w ≠ 0) :
    ∀ (ops : List (BucketOp F)) (b : Buckets F), Wf b → b.binWidth = w →
      (∀ p ∈ b.values.flatten, p.kind = .sum ∧ p.persist = false) →
      (∀ v ∈ addedPoints ops, v.kind = .sum ∧ v.persist = false) →
      ∃ snaps, runEmitting hash b ops = some snaps ∧
        (∀ p ∈ snaps.flatten, p.kind = .sum) ∧
        sumTotal snaps.flatten = F64.add (sumTotal b.values.flatten) (sumTotal (addedPoints ops)) := by
  intro ops
  induction ops with
  | nil =>
    intro b hwf _ hk _
    refine ⟨[b.values.flatten], ?_, ?_, ?_⟩
    · simp [runEmitting, iter_eq b hwf.len]
    · simp only [List.flatten_cons, List.flatten_nil, List.append_nil]
      exact fun p hp => (hk p hp).1
    · simp [addedPoints, sumTotal]
      rw [LawfulAdd.add_comm, LawfulAdd.zero_add]
  | cons o ops ih =>
    intro b hwf hbw hk hadd
    cases o with
    | add now v =>
      obtain ⟨b1, kp, kq, vp, vq, row, row', ins, e, s, r⟩ := add_total hash now b v hwf (hbw ▸ hw)
      obtain ⟨hvk, hvp⟩ := hadd v (by simp [addedPoints])
      obtain ⟨x, hx⟩ : ∃ x, v.value = .sum x := by
        simp only [Telemetry.kind] at hvk
        cases hv : v.value <;> simp [hv, Value.kind] at hvk
        exact ⟨_, rfl⟩
      have step : (∀ p ∈ b1.values.flatten, p.kind = .sum ∧ p.persist = false) ∧
          sumTotal b1.values.flatten = F64.add x (sumTotal b.values.flatten) := by
        obtain ⟨f1, f2⟩ := s.flatten
        rw [f1] at hk ⊢
        rw [f2]
        cases r with
        | merge pre post cur h h' =>
          subst h h'
          have hcur := hk cur (by simp)
          obtain ⟨y, hy⟩ : ∃ y, cur.value = .sum y := by
            simp only [Telemetry.kind] at hcur
            cases hv : cur.value <;> simp [hv, Value.kind] at hcur
            exact ⟨_, rfl⟩
          have hnew : (cur.addAssign v).value = .sum (F64.add y x) := by
            simp [Telemetry.addAssign, hx, hy, Value.add]
          constructor
          · intro p hp
            simp only [List.mem_append, List.mem_cons] at hp
            rcases hp with hp | (hp | rfl | hp) | hp
            · exact hk p (by simp [hp])
            · exact hk p (by simp [hp])
            · exact ⟨by simp [Telemetry.kind, hnew, Value.kind], hvp⟩
            · exact hk p (by simp [hp])
            · exact hk p (by simp [hp])
          · have e1 : ∀ c, vp.flatten ++ ((pre ++ c :: post) ++ vq.flatten) =
                (vp.flatten ++ pre) ++ c :: (post ++ vq.flatten) := by simp
            rw [e1, e1, sumTotal_insert _ _ _ _ hnew, sumTotal_insert _ _ _ _ hy,
              ← LawfulAdd.add_assoc, LawfulAdd.add_comm y x]
        | fresh pre post hp h h' =>
          subst h h'
          constructor
          · intro p hp
            simp only [List.mem_append, List.mem_cons] at hp
            rcases hp with hp | (hp | rfl | hp) | hp
            · exact hk p (by simp [hp])
            · exact hk p (by simp [hp])
            · exact ⟨hvk, hvp⟩
            · exact hk p (by simp [hp])
            · exact hk p (by simp [hp])
          · have e1 : ∀ c, vp.flatten ++ ((pre ++ c :: post) ++ vq.flatten) =
                (vp.flatten ++ pre) ++ c :: (post ++ vq.flatten) := by simp
            rw [e1, sumTotal_insert _ _ _ _ hx]
            simp
        | carry pre post q hp => rw [hvp] at hp; simp at hp
      obtain ⟨snaps, h1, h2, h3⟩ := ih b1 s.wf (s.width'.trans hbw) step.1
        (fun u hu => hadd u (by simp [addedPoints, hu]))
      refine ⟨snaps, by simp only [runEmitting, e]; exact h1, h2, ?_⟩
      have hv : v.sum = some x := by simp [Telemetry.sum, hx]
      rw [h3, step.2]
      simp only [addedPoints, sumTotal, hv]
      rw [LawfulAdd.add_comm x, LawfulAdd.add_assoc]
    | reset now =>
      have hres : (b.reset now).values.flatten = [] := by
        simp only [Buckets.reset, List.flatten_eq_nil_iff, List.mem_map]
        rintro l ⟨row, hrow, rfl⟩
        rw [resetRow_eq]
        cases hl : row.getLast? with
        | none => rfl
        | some p =>
          have := (hk p (List.mem_flatten.2 ⟨row, hrow, List.mem_of_getLast? hl⟩)).2
          simp [this]
      obtain ⟨snaps, h1, h2, h3⟩ := ih (b.reset now) (hwf.reset now) hbw
        (by rw [hres]; simp) (fun u hu => hadd u (by simpa [addedPoints] using hu))
      refine ⟨b.values.flatten :: snaps, ?_, ?_, ?_⟩
      · simp only [runEmitting, iter_eq b hwf.len, h1]
      · intro p hp
        simp only [List.flatten_cons, List.mem_append] at hp
        rcases hp with hp | hp
        · exact (hk p hp).1
        · exact h2 p hp
      · rw [hres] at h3
        simp only [List.flatten_cons, sumTotal_append, h3, addedPoints]
        simp [sumTotal, LawfulAdd.zero_add]

/-- **C11** For every history of counter additions (SUM, non-persistent) and
resets, for *any* hash function and any spread over series and bins: the counters
seen just before the resets plus those stored at the end add up to exactly the
values added.  (Exact addition; IEEE addition rounds.) -/
theorem C11_counters_conserved [LawfulAdd F] (hash : Str × TagMap → Nat) (w : Int) (hw : w ≠ 0)
    (ops : List (BucketOp F))
    (hc : ∀ v ∈ addedPoints ops, v.kind = .sum ∧ v.persist = false) :
    ∃ snaps, runEmitting hash (Buckets.new w) ops = some snaps ∧
      (∀ p ∈ snaps.flatten, p.kind = .sum) ∧
      sumTotal snaps.flatten = sumTotal (addedPoints ops) := by
  obtain ⟨snaps, h1, h2, h3⟩ := c11_run hash w hw ops (Buckets.new w) (Wf.new w) rfl
    (by simp [Buckets.new]) hc
  refine ⟨snaps, h1, h2, ?_⟩
  rw [h3]
  simp [Buckets.new, sumTotal, LawfulAdd.zero_add]

/-- Non-vacuity of C11, with colliding hashes and a reset in the middle. -/
example :
    let p (n : Str) (ts x : Int) : Telemetry Int := ⟨n, .sum x, false, none, ts, none, none⟩
    let ops : List (BucketOp Int) := [.add 0 (p ['a'] 25 2), .add 0 (p ['b', 'b'] 1 3),
      .reset 30, .add 0 (p ['a'] 3 5), .add 0 (p ['a'] 21 7)]
    (∀ v ∈ addedPoints ops, v.kind = .sum ∧ v.persist = false) ∧
    ((runEmitting (fun _ => 0) (Buckets.new 10) ops).map fun s => sumTotal s.flatten) = some 17 := by
  decide

/-! ## C12 -/

/-- **C12** In any state reached by a history whose series the hash distinguishes,
a reset at time `now` keeps exactly the newest point of each series whose newest
point is persistent, restamped `now`; at most one point per series remains, and
the number of known series is unchanged. -/
theorem C12_reset_keeps_persistent (hash : Str × TagMap → Nat) (w : Int) (hw : w ≠ 0)
    (ops : List (BucketOp F)) (hsep : Separates hash (addedPoints ops)) (now : Int) :
    ∃ b before after, runBucket hash (Buckets.new w) ops = some b ∧ b.iter = some before ∧
      (b.reset now).iter = some after ∧ (b.reset now).len = b.len ∧
      (∀ p, p ∈ after ↔ ∃ q ∈ before, q.persist = true ∧
        (∀ r ∈ before, SameSeries r q → r.timestamp.tdiv w ≤ q.timestamp.tdiv w) ∧
        p = { q with timestamp := now }) ∧
      after.Pairwise (fun a c => ¬ SameSeries a c) := by
  obtain ⟨b, e, hi⟩ := reachable_inv hw ops _ hsep (fun _ h => h)
  have hi' := hi.reset now
  refine ⟨b, _, _, e, iter_eq b hi.wf.len, iter_eq _ hi'.wf.len, rfl, ?_, ?_⟩
  · intro p
    simp only [Buckets.reset, List.mem_flatten, List.mem_map]
    constructor
    · rintro ⟨_, ⟨row, hrow, rfl⟩, hp⟩
      rw [resetRow_eq] at hp
      cases hl : row.getLast? with
      | none => rw [hl] at hp; simp at hp
      | some q =>
        rw [hl] at hp
        simp only at hp
        split at hp
        · next hqp =>
          rw [List.mem_singleton] at hp
          refine ⟨q, ⟨row, hrow, List.mem_of_getLast? hl⟩, hqp, ?_, hp⟩
          rintro r ⟨row2, hrow2, hr⟩ hser
          have : row2 = row := hi.same_row hrow2 hrow hr (List.mem_of_getLast? hl)
            (sameSeries_iff.1 hser)
          subst this
          obtain ⟨i, hi1, hi2⟩ := List.mem_iff_getElem.1 hrow
          have hsorted : row2.Pairwise (fun a b => a.bin w < b.bin w) := by
            have hz : i < (b.keys.zip b.values).length := by
              have := hi.wf.len; simp; omega
            have := hi.rows _ (List.getElem_mem hz)
            rw [List.getElem_zip] at this
            simp only [hi2] at this
            exact this.sorted
          obtain ⟨pre, rfl⟩ := List.getLast?_eq_some_iff.1 hl
          rw [List.pairwise_append] at hsorted
          rcases List.mem_append.1 hr with hr | hr
          · have := hsorted.2.2 r hr q (by simp)
            exact Int.le_of_lt this
          · rw [List.mem_singleton] at hr; subst hr; exact Int.le_refl _
        · simp at hp
    · rintro ⟨q, ⟨row, hrow, hq⟩, hqp, hmax, rfl⟩
      have hne : row ≠ [] := List.ne_nil_of_mem hq
      have hl : row.getLast? = some (row.getLast hne) := List.getLast?_eq_some_getLast hne
      have hsorted : row.Pairwise (fun a b => a.bin w < b.bin w) := by
        obtain ⟨i, hi1, hi2⟩ := List.mem_iff_getElem.1 hrow
        have hz : i < (b.keys.zip b.values).length := by
          have := hi.wf.len; simp; omega
        have := hi.rows _ (List.getElem_mem hz)
        rw [List.getElem_zip] at this
        simp only [hi2] at this
        exact this.sorted
      have hser : (row.getLast hne).hashInput = q.hashInput := by
        obtain ⟨i, hi1, hi2⟩ := List.mem_iff_getElem.1 hrow
        have hz : i < (b.keys.zip b.values).length := by
          have := hi.wf.len; simp; omega
        have := hi.rows _ (List.getElem_mem hz)
        rw [List.getElem_zip] at this
        simp only [hi2] at this
        exact separates_inj hsep _ _ (this.known _ (List.getLast_mem hne)) (this.known _ hq)
          ((this.key _ (List.getLast_mem hne)).trans (this.key _ hq).symm)
      have hlast : row.getLast hne = q := by
        have hle := hmax (row.getLast hne) ⟨row, hrow, List.getLast_mem hne⟩ (sameSeries_iff.2 hser)
        have hle' : (row.getLast hne).bin w ≤ q.bin w := hle
        obtain ⟨pre, hpre⟩ := List.getLast?_eq_some_iff.1 hl
        rw [hpre, List.pairwise_append] at hsorted
        rw [hpre] at hq
        rcases List.mem_append.1 hq with hq | hq
        · have := hsorted.2.2 q hq (row.getLast hne) (by simp)
          omega
        · rw [List.mem_singleton] at hq; exact hq.symm
      refine ⟨resetRow now row, ⟨row, hrow, rfl⟩, ?_⟩
      rw [resetRow_eq, hl, hlast]
      simp [hqp]
  · -- rows have at most one point after the reset
    have hpw := hi'.pairwise
    rw [List.pairwise_flatten] at hpw ⊢
    have hlen : ∀ l ∈ (b.reset now).values, l = [] ∨ ∃ x, l = [x] := by
      intro l hl
      simp only [Buckets.reset, List.mem_map] at hl
      obtain ⟨row, _, rfl⟩ := hl
      rw [resetRow_eq]
      cases row.getLast? with
      | none => simp
      | some q => simp only; split <;> simp
    constructor
    · intro l hl
      rcases hlen l hl with rfl | ⟨x, rfl⟩ <;> simp
    · rw [List.pairwise_iff_getElem]
      intro i j h1 h2 hij x hx y hy hs
      have hz1 : i < ((b.reset now).keys.zip (b.reset now).values).length := by
        have := hi'.wf.len; simp; omega
      have hz2 : j < ((b.reset now).keys.zip (b.reset now).values).length := by
        have := hi'.wf.len; simp; omega
      have r1 := hi'.rows _ (List.getElem_mem hz1)
      have r2 := hi'.rows _ (List.getElem_mem hz2)
      rw [List.getElem_zip] at r1 r2
      have k1 := r1.key x hx
      have k2 := r2.key y hy
      rw [sameSeries_iff.1 hs] at k1
      have := List.pairwise_iff_getElem.1 hi'.wf.sorted i j (by rw [hi'.wf.len]; exact h1)
        (by rw [hi'.wf.len]; exact h2) hij
      simp only at k1 k2
      omega

/-- Non-vacuity of C12: a gauge survives, a counter does not. -/
example :
    let p (n : Str) (ts x : Int) (per : Bool) : Telemetry Int := ⟨n, .set x, per, none, ts, none, none⟩
    let hash : Str × TagMap → Nat := fun x => x.1.length
    let ops : List (BucketOp Int) := [.add 0 (p ['a'] 1 2 true), .add 0 (p ['b', 'b'] 1 3 false),
      .add 0 (p ['a'] 4 5 true)]
    (∀ a ∈ addedPoints ops, ∀ b ∈ addedPoints ops, hash a.hashInput = hash b.hashInput → SameSeries a b) ∧
    ((runBucket hash (Buckets.new 1) ops).bind fun b => (b.reset 100).iter) =
      some [p ['a'] 100 5 true] := by decide

/-! ## C13 -/

/-- **C13** In any state reached by a history whose series the hash distinguishes,
when a persistent point `v` arrives whose bin holds no point of its series, and `q`
is the newest stored point of the series in an earlier bin, then exactly one point
is added, right after `q`: `q`'s value with `v` added in, at `v`'s time, persistent;
every stored point is left as it was. -/
theorem C13_persist_carries_forward (hash : Str × TagMap → Nat) (w : Int) (hw : w ≠ 0)
    (ops : List (BucketOp F)) (now : Int) (v : Telemetry F)
    (hsep : Separates hash (v :: addedPoints ops)) (hv : v.persist = true) :
    ∃ b before b' after, runBucket hash (Buckets.new w) ops = some b ∧ b.iter = some before ∧
      b.add hash now v = some b' ∧ b'.iter = some after ∧
      ∀ q ∈ before, SameSeries q v → q.timestamp.tdiv w < v.timestamp.tdiv w →
        (∀ r ∈ before, SameSeries r v → ¬ SameBin w r v ∧
          (r.timestamp.tdiv w < v.timestamp.tdiv w → r.timestamp.tdiv w ≤ q.timestamp.tdiv w)) →
        ∃ A B c, before = A ++ q :: B ∧ after = A ++ q :: c :: B ∧
          c.name = q.name ∧ c.tags = q.tags ∧ c.timestamp = v.timestamp ∧ c.persist = true ∧
          c.value = q.value.add v.value := by
  obtain ⟨b, e, hi⟩ := reachable_inv hw ops _ hsep (fun u hu => List.mem_cons_of_mem _ hu)
  have hS : seriesOf (v :: addedPoints ops) v.hashInput := ⟨v, by simp, rfl⟩
  obtain ⟨b1, kp, kq, vp, vq, row, row', ins, e1, hi1, st, hrow, rs⟩ :=
    hi.add hw (separates_inj hsep) now v hS
  have fs := st.flatStep (separates_inj hsep) hS hrow rs hi1
  refine ⟨b, _, b1, _, e, iter_eq b hi.wf.len, e1, iter_eq _ hi1.wf.len, ?_⟩
  intro q hq hser hlt hmax
  have hpw := hi.pairwise
  have hpw1 := hi1.pairwise
  cases fs with
  | merge A B cur hs hb h h' =>
    exact absurd hb (hmax cur (by rw [h]; simp) (sameSeries_iff.2 hs)).1
  | fresh A B hp h h' =>
    rcases hp with hp | hp
    · rw [hv] at hp; simp at hp
    · have := hp q (by rw [← h]; exact hq) (sameSeries_iff.1 hser)
      have h2 : q.bin w < v.bin w := hlt
      omega
  | carry A B q' hp hs hb h h' =>
    have hqq : q' = q := by
      have h1 := (hmax q' (by rw [h]; simp) (sameSeries_iff.2 hs)).2 hb
      have h1' : q'.bin w ≤ q.bin w := h1
      have hlt' : q.bin w < v.bin w := hlt
      have hqs : q.hashInput = q'.hashInput := (sameSeries_iff.1 hser).trans hs.symm
      rw [h] at hq hpw
      rw [h'] at hpw1
      obtain ⟨hA, _⟩ := pairwise_mid hpw
      have hB : ∀ x ∈ B, (carried q' v).hashInput = x.hashInput → (carried q' v).bin w < x.bin w := by
        have : (A ++ q' :: carried q' v :: B) = (A ++ [q']) ++ carried q' v :: B := by simp
        rw [this] at hpw1
        exact (pairwise_mid hpw1).2
      simp only [List.mem_append, List.mem_cons] at hq
      rcases hq with hq | rfl | hq
      · have := hA q hq hqs; omega
      · rfl
      · have := hB q hq (by rw [carried_hashInput]; exact hqs.symm)
        rw [carried_bin] at this; omega
    subst hqq
    refine ⟨A, B, carried q' v, h, h', rfl, rfl, rfl, hv, rfl⟩

/-- Non-vacuity of C13: a signed gauge added in a later bin. -/
example :
    let p (ts : Int) (v : Value Int) : Telemetry Int := ⟨['a'], v, true, none, ts, none, none⟩
    let hash : Str × TagMap → Nat := fun x => x.1.length
    let ops : List (BucketOp Int) := [.add 0 (p 1 (.set 2)), .add 0 (p 9 (.set 50))]
    ((runBucket hash (Buckets.new 1) (ops ++ [.add 0 (p 4 (.sum 3))])).bind Buckets.iter) =
      some [p 1 (.set 2), p 4 (.sum 5), p 9 (.set 50)] := by decide

/-- Why C09–C13 ask that the hash separates the series: if two series collide, a
persistent arrival of one is stored under the *other's* name with the other's value
added in, and its own series is absent (src/buckets.rs:164-172). -/
theorem C13_collision_leaks :
    ∃ (hash : Str × TagMap → Nat) (a v : Telemetry Int) (pts : List (Telemetry Int)),
      a.name ≠ v.name ∧
      ((runBucket hash (Buckets.new 1) [.add 0 a, .add 0 v]).bind Buckets.iter) = some pts ∧
      (∀ p ∈ pts, p.name ≠ v.name) := by
  refine ⟨fun _ => 0, ⟨['a'], .set 2, true, none, 1, none, none⟩,
    ⟨['b'], .sum 3, true, none, 1, none, none⟩,
    [⟨['a'], .set 2, true, none, 1, none, none⟩, ⟨['a'], .sum 5, true, none, 1, none, none⟩], ?_⟩
  decide

end
end Verif
