import Verif.Spec.Totals
import Verif.Lemmas.BucketsInv
import Verif.Lemmas.SinkWavefront
/-!
# Lemmas about totals by name (C112)
-/
namespace Verif
open Buckets
variable {F : Type} [F64 F]

theorem sumTotal_append' [LawfulAdd F] (A B : List (Telemetry F)) :
    sumTotal (A ++ B) = F64.add (sumTotal A) (sumTotal B) := by
  induction A with
  | nil => simp [sumTotal, LawfulAdd.zero_add]
  | cons a A ih =>
    simp only [List.cons_append, sumTotal, ih]
    cases a.sum <;> simp [LawfulAdd.add_assoc]

theorem totalNamed_append [LawfulAdd F] (n : Str) (A B : List (Telemetry F)) :
    totalNamed n (A ++ B) = F64.add (totalNamed n A) (totalNamed n B) := by
  simp only [totalNamed, List.filter_append, sumTotal_append']

theorem totalNamed_cons [LawfulAdd F] (n : Str) (v : Telemetry F) (B : List (Telemetry F)) :
    totalNamed n (v :: B) = F64.add (totalNamed n [v]) (totalNamed n B) := totalNamed_append n [v] B

theorem totalNamed_mid [LawfulAdd F] (n : Str) (A B : List (Telemetry F)) (v : Telemetry F) :
    totalNamed n (A ++ v :: B) = F64.add (totalNamed n [v]) (totalNamed n (A ++ B)) := by
  rw [totalNamed_append, totalNamed_cons, totalNamed_append, ← LawfulAdd.add_assoc,
    LawfulAdd.add_comm (totalNamed n A), LawfulAdd.add_assoc]

theorem totalNamed_other [LawfulAdd F] (n : Str) (v : Telemetry F) (h : v.name ≠ n) : totalNamed n [v] = F64.zero := by
  simp [totalNamed, h, sumTotal]

theorem totalNamed_one [LawfulAdd F] (n : Str) (v : Telemetry F) (x : F) (h : v.name = n) (hv : v.value = .sum x) :
    totalNamed n [v] = x := by
  have : v.sum = some x := by simp [Telemetry.sum, hv]
  simp only [totalNamed, h, decide_true, List.filter_cons_of_pos, List.filter_nil, sumTotal, this]
  rw [LawfulAdd.add_comm, LawfulAdd.zero_add]

theorem totalNamed_perm [LawfulAdd F] (n : Str) {A B : List (Telemetry F)} (h : A.Perm B) : totalNamed n A = totalNamed n B := by
  induction h with
  | nil => rfl
  | cons x _ ih => rw [totalNamed_cons, ih, ← totalNamed_cons]
  | swap x y l =>
    rw [totalNamed_cons n y (x :: l), totalNamed_cons n x l, totalNamed_cons n x (y :: l), totalNamed_cons n y l,
      ← LawfulAdd.add_assoc, LawfulAdd.add_comm (totalNamed n [y]), LawfulAdd.add_assoc]
  | trans _ _ h1 h2 => exact h1.trans h2

/-- the points of a name are counters -/
def CountersNamed (n : Str) (pts : List (Telemetry F)) : Prop :=
  ∀ p ∈ pts, p.name = n → p.kind = .sum ∧ p.persist = false

theorem hashInput_name {a b : Telemetry F} (h : a.hashInput = b.hashInput) : a.name = b.name :=
  (sameSeries_iff.2 h).1

theorem sum_of_kind {p : Telemetry F} (h : p.kind = .sum) : ∃ x, p.value = .sum x := by
  simp only [Telemetry.kind] at h
  cases hv : p.value <;> simp [hv, Value.kind] at h
  exact ⟨_, rfl⟩

theorem FlatStep.total [LawfulAdd F] {w : Int} {l l' : List (Telemetry F)} {v : Telemetry F} (n : Str)
    (s : FlatStep w l l' v) (hl : CountersNamed n l) (hv : v.name = n → v.kind = .sum ∧ v.persist = false) :
    CountersNamed n l' ∧ totalNamed n l' = F64.add (totalNamed n [v]) (totalNamed n l) := by
  cases s with
  | merge A B cur hser hbin h h' =>
    subst h h'
    have hname : (cur.addAssign v).name = cur.name := rfl
    have hcv := hashInput_name hser
    by_cases hn : v.name = n
    · obtain ⟨k1, k2⟩ := hv hn
      obtain ⟨x, hx⟩ := sum_of_kind k1
      obtain ⟨y, hy⟩ := sum_of_kind (hl cur (by simp) (hcv.trans hn)).1
      have hnew : (cur.addAssign v).value = .sum (F64.add y x) := by
        simp [Telemetry.addAssign, hx, hy, Value.add]
      constructor
      · intro p hp hpn
        simp only [List.mem_append, List.mem_cons] at hp
        rcases hp with hp | rfl | hp
        · exact hl p (by simp [hp]) hpn
        · exact ⟨by simp [Telemetry.kind, hnew, Value.kind], k2⟩
        · exact hl p (by simp [hp]) hpn
      · rw [totalNamed_mid, totalNamed_mid n A B cur, totalNamed_one n _ _ (hname.trans (hcv.trans hn)) hnew,
          totalNamed_one n cur y (hcv.trans hn) hy, totalNamed_one n v x hn hx, ← LawfulAdd.add_assoc,
          LawfulAdd.add_comm y x]
    · have hc : cur.name ≠ n := fun e => hn (hcv.symm.trans e)
      constructor
      · intro p hp hpn
        simp only [List.mem_append, List.mem_cons] at hp
        rcases hp with hp | rfl | hp
        · exact hl p (by simp [hp]) hpn
        · exact absurd (hname.symm.trans hpn) hc
        · exact hl p (by simp [hp]) hpn
      · rw [totalNamed_mid, totalNamed_mid n A B cur, totalNamed_other n v hn, totalNamed_other n cur hc,
          totalNamed_other n _ (fun e => hc (hname.symm.trans e)), LawfulAdd.zero_add, LawfulAdd.zero_add]
  | fresh A B hp h h' =>
    subst h h'
    constructor
    · intro p hp hpn
      simp only [List.mem_append, List.mem_cons] at hp
      rcases hp with hp | rfl | hp
      · exact hl p (by simp [hp]) hpn
      · exact hv hpn
      · exact hl p (by simp [hp]) hpn
    · rw [totalNamed_mid]
  | carry A B q hp hser hq h h' =>
    subst h h'
    have hqv := hashInput_name hser
    have hn : v.name ≠ n := fun e => by
      have := (hv e).2; rw [hp] at this; simp at this
    have hc : (carried q v).name ≠ n := fun e => hn (hqv.symm.trans e)
    constructor
    · intro p hp hpn
      simp only [List.mem_append, List.mem_cons] at hp
      rcases hp with hp | rfl | rfl | hp
      · exact hl p (by simp [hp]) hpn
      · exact hl _ (by simp) hpn
      · exact absurd hpn hc
      · exact hl p (by simp [hp]) hpn
    · have : A ++ q :: carried q v :: B = (A ++ [q]) ++ carried q v :: B := by simp
      rw [this, totalNamed_mid, totalNamed_other n v hn, totalNamed_other n _ hc]
      simp

theorem reset_named {b : Buckets F} (n : Str) (now : Int) (h : CountersNamed n b.values.flatten) :
    ∀ p ∈ (b.reset now).values.flatten, p.name ≠ n := by
  intro p hp
  simp only [Buckets.reset, List.mem_flatten, List.mem_map] at hp
  obtain ⟨r, ⟨row, hrow, rfl⟩, hp⟩ := hp
  rw [resetRow_eq] at hp
  cases hl : row.getLast? with
  | none => rw [hl] at hp; simp at hp
  | some q =>
    rw [hl] at hp
    by_cases hq : q.persist = true
    · simp only [hq, if_true, List.mem_singleton] at hp
      subst hp
      intro hn
      have := (h q (List.mem_flatten.2 ⟨row, hrow, List.mem_of_getLast? hl⟩) hn).2
      rw [hq] at this; simp at this
    · simp [hq] at hp

theorem totalNamed_none [LawfulAdd F] (n : Str) (l : List (Telemetry F)) (h : ∀ p ∈ l, p.name ≠ n) :
    totalNamed n l = F64.zero := by
  rw [totalNamed, List.filter_eq_nil_iff.2 (by simpa using h)]; rfl

theorem flushed_total [LawfulAdd F] (hash : Str × TagMap → Nat) (S : Str × TagMap → Prop) (w : Int) (hw : w ≠ 0)
    (hinj : ∀ x y, S x → S y → hash x = hash y → x = y) (n : Str) :
    ∀ (ops : List (BucketOp F)) (b : Buckets F), Inv hash S w b → CountersNamed n b.values.flatten →
      (∀ v ∈ addedPoints ops, S v.hashInput) → CountersNamed n (addedPoints ops) →
      ∃ snaps b', flushSnaps hash b ops = some snaps ∧ runBucket hash b ops = some b' ∧ b'.iter = some b'.values.flatten ∧
        CountersNamed n snaps.flatten ∧ CountersNamed n b'.values.flatten ∧
        F64.add (totalNamed n snaps.flatten) (totalNamed n b'.values.flatten) =
          F64.add (totalNamed n b.values.flatten) (totalNamed n (addedPoints ops)) := by
  intro ops
  induction ops with
  | nil =>
    intro b hb hk _ _
    refine ⟨[], b, rfl, rfl, iter_eq b hb.wf.len, by simp [CountersNamed], hk, ?_⟩
    simp only [List.flatten_nil, addedPoints]
    rw [LawfulAdd.add_comm]
  | cons o ops ih =>
    intro b hb hk hS hc
    cases o with
    | add now v =>
      obtain ⟨b1, kp, kq, vp, vq, row, row', ins, h1, h2, h3, h4, h5⟩ := hb.add hw hinj now v (hS v (by simp [addedPoints]))
      have hfs := AddStep.flatStep hinj (hS v (by simp [addedPoints])) h3 h4 h5 h2
      obtain ⟨c1, c2⟩ := FlatStep.total n hfs hk (hc v (by simp [addedPoints]))
      obtain ⟨snaps, b', s1, s2, s3, s4, s5, s6⟩ := ih b1 h2 c1 (fun u hu => hS u (by simp [addedPoints, hu]))
        (fun u hu => hc u (by simp [addedPoints, hu]))
      refine ⟨snaps, b', by simp only [flushSnaps, h1]; exact s1, by simp only [runBucket, h1]; exact s2, s3, s4, s5, ?_⟩
      rw [s6, c2]
      simp only [addedPoints]
      rw [totalNamed_cons n v (addedPoints ops), ← LawfulAdd.add_assoc, LawfulAdd.add_comm (totalNamed n [v])]
    | reset now =>
      have hr := reset_named n now hk
      obtain ⟨snaps, b', s1, s2, s3, s4, s5, s6⟩ := ih (b.reset now) (hb.reset now) (fun p hp hn => absurd hn (hr p hp))
        (fun u hu => hS u (by simpa [addedPoints] using hu)) (fun u hu => hc u (by simpa [addedPoints] using hu))
      refine ⟨b.values.flatten :: snaps, b', by simp only [flushSnaps, iter_eq b hb.wf.len, s1],
        by simp only [runBucket]; exact s2, s3, ?_, s5, ?_⟩
      · intro p hp hn
        simp only [List.flatten_cons, List.mem_append] at hp
        rcases hp with hp | hp
        · exact hk p hp hn
        · exact s4 p hp hn
      · rw [List.flatten_cons, totalNamed_append, LawfulAdd.add_assoc, s6, totalNamed_none n _ hr, LawfulAdd.zero_add]
        rfl

theorem flushSnaps_append (hash : Str × TagMap → Nat) (more : List (BucketOp F)) :
    ∀ (ops : List (BucketOp F)) (b b' : Buckets F) (pre post : List (List (Telemetry F))),
      flushSnaps hash b ops = some pre → runBucket hash b ops = some b' → flushSnaps hash b' more = some post →
      flushSnaps hash b (ops ++ more) = some (pre ++ post) := by
  intro ops
  induction ops with
  | nil =>
    intro b b' pre post h1 h2 h3
    simp only [flushSnaps, runBucket, Option.some.injEq] at h1 h2
    subst h1 h2
    exact h3
  | cons o ops ih =>
    intro b b' pre post h1 h2 h3
    cases o with
    | add now v =>
      simp only [flushSnaps, runBucket, List.cons_append] at h1 h2 ⊢
      cases ha : b.add hash now v with
      | none => rw [ha] at h1; simp at h1
      | some b1 => rw [ha] at h1 h2; exact ih b1 b' pre post h1 h2 h3
    | reset now =>
      simp only [flushSnaps, runBucket, List.cons_append] at h1 h2 ⊢
      split at h1
      · rename_i pts rest hp hf
        simp only [Option.some.injEq] at h1
        subst h1
        rw [ih _ b' rest post hf h2 h3, hp]
        rfl
      · simp at h1

theorem addedPoints_append (a b : List (BucketOp F)) : addedPoints (a ++ b) = addedPoints a ++ addedPoints b := by
  induction a with
  | nil => rfl
  | cons o a ih => cases o <;> simp [addedPoints, ih]

theorem opTimes_append (a b : List (BucketOp F)) : opTimes (a ++ b) = opTimes a ++ opTimes b := by
  induction a with
  | nil => rfl
  | cons o a ih => cases o <;> simp [opTimes, ih]

end Verif
