import Verif.Spec.Timers
import Verif.Lemmas.Totals
/-!
# Lemmas about anything that adds up when points are merged (C134)
-/
namespace Verif
open Buckets
variable {F : Type} [F64 F] {M : Type}

/-- addition on `M` -/
structure Adds (M : Type) where
  zero : M
  add : M → M → M
  assoc : ∀ a b c, add (add a b) c = add a (add b c)
  comm : ∀ a b, add a b = add b a
  zero_add : ∀ a, add zero a = a

def Adds.nat : Adds Nat := ⟨0, (· + ·), Nat.add_assoc, Nat.add_comm, Nat.zero_add⟩

def Adds.float [LawfulAdd F] : Adds F := ⟨F64.zero, F64.add, LawfulAdd.add_assoc, LawfulAdd.add_comm, LawfulAdd.zero_add⟩

/-- the points of a name, weighed -/
def weigh (mo : Adds M) (m : Telemetry F → M) (n : Str) (pts : List (Telemetry F)) : M :=
  (pts.filter fun t => t.name = n).foldr (fun t acc => mo.add (m t) acc) mo.zero

variable (mo : Adds M) (m : Telemetry F → M)

theorem weigh_append (n : Str) (A B : List (Telemetry F)) :
    weigh mo m n (A ++ B) = mo.add (weigh mo m n A) (weigh mo m n B) := by
  induction A with
  | nil => simp [weigh, mo.zero_add]
  | cons a A ih =>
    simp only [weigh, List.cons_append] at ih ⊢
    by_cases h : a.name = n
    · rw [List.filter_cons_of_pos (by simp [h]), List.filter_cons_of_pos (by simp [h]), List.foldr_cons, List.foldr_cons, ih, mo.assoc]
    · rw [List.filter_cons_of_neg (by simp [h]), List.filter_cons_of_neg (by simp [h]), ih]

theorem weigh_cons (n : Str) (v : Telemetry F) (B : List (Telemetry F)) :
    weigh mo m n (v :: B) = mo.add (weigh mo m n [v]) (weigh mo m n B) := weigh_append mo m n [v] B

theorem weigh_mid (n : Str) (A B : List (Telemetry F)) (v : Telemetry F) :
    weigh mo m n (A ++ v :: B) = mo.add (weigh mo m n [v]) (weigh mo m n (A ++ B)) := by
  rw [weigh_append, weigh_cons, weigh_append, ← mo.assoc, mo.comm (weigh mo m n A), mo.assoc]

theorem weigh_other (n : Str) (v : Telemetry F) (h : v.name ≠ n) : weigh mo m n [v] = mo.zero := by
  simp [weigh, h]

theorem weigh_one (n : Str) (v : Telemetry F) (h : v.name = n) : weigh mo m n [v] = m v := by
  simp only [weigh, h, decide_true, List.filter_cons_of_pos, List.filter_nil, List.foldr_cons, List.foldr_nil]
  rw [mo.comm, mo.zero_add]

theorem weigh_none (n : Str) (l : List (Telemetry F)) (h : ∀ p ∈ l, p.name ≠ n) : weigh mo m n l = mo.zero := by
  rw [weigh, List.filter_eq_nil_iff.2 (by simpa using h)]; rfl

theorem weigh_perm (n : Str) {A B : List (Telemetry F)} (h : A.Perm B) : weigh mo m n A = weigh mo m n B := by
  induction h with
  | nil => rfl
  | cons x _ ih => rw [weigh_cons, ih, ← weigh_cons]
  | swap x y l =>
    rw [weigh_cons mo m n y (x :: l), weigh_cons mo m n x l, weigh_cons mo m n x (y :: l), weigh_cons mo m n y l,
      ← mo.assoc, mo.comm (weigh mo m n [y]), mo.assoc]
  | trans _ _ h1 h2 => exact h1.trans h2

theorem weigh_filter (n : Str) (l : List (Telemetry F)) : weigh mo m n (l.filter fun t => t.name = n) = weigh mo m n l := by
  simp [weigh, List.filter_filter]

/-- points of a name that are `K` -/
def KNamed (K : Telemetry F → Prop) (n : Str) (pts : List (Telemetry F)) : Prop := ∀ p ∈ pts, p.name = n → K p

/-- merging adds the measure, and none of these points persist -/
structure Merges (K : Telemetry F → Prop) : Prop where
  merge : ∀ a b, K a → K b → K (a.addAssign b) ∧ m (a.addAssign b) = mo.add (m a) (m b)
  fleeting : ∀ a, K a → a.persist = false

variable {mo m} {K : Telemetry F → Prop} (hK : Merges mo m K)
include hK

theorem FlatStep.weighs {w : Int} {l l' : List (Telemetry F)} {v : Telemetry F} (n : Str)
    (s : FlatStep w l l' v) (hl : KNamed K n l) (hv : v.name = n → K v) :
    KNamed K n l' ∧ weigh mo m n l' = mo.add (weigh mo m n [v]) (weigh mo m n l) := by
  cases s with
  | merge A B cur hser hbin h h' =>
    subst h h'
    have hname : (cur.addAssign v).name = cur.name := rfl
    have hcv := hashInput_name hser
    by_cases hn : v.name = n
    · obtain ⟨k1, k2⟩ := hK.merge cur v (hl cur (by simp) (hcv.trans hn)) (hv hn)
      constructor
      · intro p hp hpn
        simp only [List.mem_append, List.mem_cons] at hp
        rcases hp with hp | rfl | hp
        · exact hl p (by simp [hp]) hpn
        · exact k1
        · exact hl p (by simp [hp]) hpn
      · rw [weigh_mid, weigh_mid mo m n A B cur, weigh_one mo m n _ (hname.trans (hcv.trans hn)), k2,
          weigh_one mo m n cur (hcv.trans hn), weigh_one mo m n v hn, ← mo.assoc, mo.comm (m cur)]
    · have hc : cur.name ≠ n := fun e => hn (hcv.symm.trans e)
      constructor
      · intro p hp hpn
        simp only [List.mem_append, List.mem_cons] at hp
        rcases hp with hp | rfl | hp
        · exact hl p (by simp [hp]) hpn
        · exact absurd (hname.symm.trans hpn) hc
        · exact hl p (by simp [hp]) hpn
      · rw [weigh_mid, weigh_mid mo m n A B cur, weigh_other mo m n v hn, weigh_other mo m n cur hc,
          weigh_other mo m n _ (fun e => hc (hname.symm.trans e)), mo.zero_add, mo.zero_add]
  | fresh A B hp h h' =>
    subst h h'
    constructor
    · intro p hp hpn
      simp only [List.mem_append, List.mem_cons] at hp
      rcases hp with hp | rfl | hp
      · exact hl p (by simp [hp]) hpn
      · exact hv hpn
      · exact hl p (by simp [hp]) hpn
    · rw [weigh_mid]
  | carry A B q hp hser hq h h' =>
    subst h h'
    have hqv := hashInput_name hser
    have hn : v.name ≠ n := fun e => by
      have := hK.fleeting v (hv e); rw [hp] at this; simp at this
    have hc : (carried q v).name ≠ n := fun e => hn (hqv.symm.trans e)
    constructor
    · intro p hp hpn
      simp only [List.mem_append, List.mem_cons] at hp
      rcases hp with hp | rfl | rfl | hp
      · exact hl p (by simp [hp]) hpn
      · exact hl _ (by simp) hpn
      · exact absurd hpn hc
      · exact hl p (by simp [hp]) hpn
    · have : A ++ q :: carried q v :: B = (A ++ [q]) ++ carried q v :: B := by simp
      rw [this, weigh_mid, weigh_other mo m n v hn, weigh_other mo m n _ hc]
      simp

theorem reset_weighs {b : Buckets F} (n : Str) (now : Int) (h : KNamed K n b.values.flatten) :
    ∀ p ∈ (b.reset now).values.flatten, p.name ≠ n := by
  intro p hp
  simp only [Buckets.reset, List.mem_flatten, List.mem_map] at hp
  obtain ⟨r, ⟨row, hrow, rfl⟩, hp⟩ := hp
  rw [resetRow_eq] at hp
  cases hl : row.getLast? with
  | none => rw [hl] at hp; simp at hp
  | some q =>
    rw [hl] at hp
    by_cases hq : q.persist = true
    · simp only [hq, if_true, List.mem_singleton] at hp
      subst hp
      intro hn
      have := hK.fleeting q (h q (List.mem_flatten.2 ⟨row, hrow, List.mem_of_getLast? hl⟩) hn)
      rw [hq] at this; simp at this
    · simp [hq] at hp

theorem flushed_weighs (hash : Str × TagMap → Nat) (S : Str × TagMap → Prop) (w : Int) (hw : w ≠ 0)
    (hinj : ∀ x y, S x → S y → hash x = hash y → x = y) (n : Str) :
    ∀ (ops : List (BucketOp F)) (b : Buckets F), Inv hash S w b → KNamed K n b.values.flatten →
      (∀ v ∈ addedPoints ops, S v.hashInput) → KNamed K n (addedPoints ops) →
      ∃ snaps b', flushSnaps hash b ops = some snaps ∧ runBucket hash b ops = some b' ∧ b'.iter = some b'.values.flatten ∧
        KNamed K n snaps.flatten ∧ KNamed K n b'.values.flatten ∧
        mo.add (weigh mo m n snaps.flatten) (weigh mo m n b'.values.flatten) =
          mo.add (weigh mo m n b.values.flatten) (weigh mo m n (addedPoints ops)) := by
  intro ops
  induction ops with
  | nil =>
    intro b hb hk _ _
    refine ⟨[], b, rfl, rfl, iter_eq b hb.wf.len, by simp [KNamed], hk, ?_⟩
    simp only [List.flatten_nil, addedPoints]
    rw [mo.comm]
  | cons o ops ih =>
    intro b hb hk hS hc
    cases o with
    | add now v =>
      obtain ⟨b1, kp, kq, vp, vq, row, row', ins, h1, h2, h3, h4, h5⟩ := hb.add hw hinj now v (hS v (by simp [addedPoints]))
      have hfs := AddStep.flatStep hinj (hS v (by simp [addedPoints])) h3 h4 h5 h2
      obtain ⟨c1, c2⟩ := FlatStep.weighs hK n hfs hk (hc v (by simp [addedPoints]))
      obtain ⟨snaps, b', s1, s2, s3, s4, s5, s6⟩ := ih b1 h2 c1 (fun u hu => hS u (by simp [addedPoints, hu]))
        (fun u hu => hc u (by simp [addedPoints, hu]))
      refine ⟨snaps, b', by simp only [flushSnaps, h1]; exact s1, by simp only [runBucket, h1]; exact s2, s3, s4, s5, ?_⟩
      rw [s6, c2]
      simp only [addedPoints]
      rw [weigh_cons mo m n v (addedPoints ops), ← mo.assoc, mo.comm (weigh mo m n [v])]
    | reset now =>
      have hr := reset_weighs hK n now hk
      obtain ⟨snaps, b', s1, s2, s3, s4, s5, s6⟩ := ih (b.reset now) (hb.reset now) (fun p hp hn => absurd hn (hr p hp))
        (fun u hu => hS u (by simpa [addedPoints] using hu)) (fun u hu => hc u (by simpa [addedPoints] using hu))
      refine ⟨b.values.flatten :: snaps, b', by simp only [flushSnaps, iter_eq b hb.wf.len, s1],
        by simp only [runBucket]; exact s2, s3, ?_, s5, ?_⟩
      · intro p hp hn
        simp only [List.flatten_cons, List.mem_append] at hp
        rcases hp with hp | hp
        · exact hk p hp hn
        · exact s4 p hp hn
      · rw [List.flatten_cons, weigh_append, mo.assoc, s6, weigh_none mo m n _ hr, mo.zero_add]
        rfl

omit hK

/-- a predicate that merging keeps holds of all the store has -/
theorem store_closed (hash : Str × TagMap → Nat) (S : Str × TagMap → Prop) (w : Int) (hw : w ≠ 0)
    (hinj : ∀ x y, S x → S y → hash x = hash y → x = y) (Q : Telemetry F → Prop)
    (hmerge : ∀ a b : Telemetry F, a.hashInput = b.hashInput → Q b → Q (a.addAssign b))
    (hreset : ∀ (a : Telemetry F) now, Q a → Q { a with timestamp := now }) :
    ∀ (ops : List (BucketOp F)) (b b' : Buckets F), Inv hash S w b → (∀ p ∈ b.values.flatten, Q p) →
      (∀ v ∈ addedPoints ops, S v.hashInput ∧ Q v) → runBucket hash b ops = some b' →
      ∀ p ∈ b'.values.flatten, Q p := by
  intro ops
  induction ops with
  | nil => intro b b' _ hq _ h; simp only [runBucket, Option.some.injEq] at h; exact h ▸ hq
  | cons o ops ih =>
    intro b b' hb hq hS h
    cases o with
    | add now v =>
      obtain ⟨hSv, hQv⟩ := hS v (by simp [addedPoints])
      obtain ⟨b1, kp, kq, vp, vq, row, row', ins, h1, h2, h3, h4, h5⟩ := hb.add hw hinj now v hSv
      have hfs := AddStep.flatStep hinj hSv h3 h4 h5 h2
      simp only [runBucket, h1] at h
      refine ih b1 b' h2 ?_ (fun u hu => hS u (by simp [addedPoints, hu])) h
      intro p hp
      cases hfs with
      | merge A B cur hser hbin e e' =>
        rw [e'] at hp; rw [e] at hq
        simp only [List.mem_append, List.mem_cons] at hp
        rcases hp with hp | rfl | hp
        · exact hq p (by simp [hp])
        · exact hmerge cur v hser hQv
        · exact hq p (by simp [hp])
      | fresh A B _ e e' =>
        rw [e'] at hp; rw [e] at hq
        simp only [List.mem_append, List.mem_cons] at hp
        rcases hp with hp | rfl | hp
        · exact hq p (by simp [hp])
        · exact hQv
        · exact hq p (by simp [hp])
      | carry A B q _ hser _ e e' =>
        rw [e'] at hp; rw [e] at hq
        simp only [List.mem_append, List.mem_cons] at hp
        rcases hp with hp | rfl | rfl | hp
        · exact hq p (by simp [hp])
        · exact hq _ (by simp)
        · exact hmerge _ v hser hQv
        · exact hq p (by simp [hp])
    | reset now =>
      refine ih _ b' (hb.reset now) ?_ (fun u hu => hS u (by simpa [addedPoints] using hu)) h
      intro p hp
      simp only [Buckets.reset, List.mem_flatten, List.mem_map] at hp
      obtain ⟨r, ⟨row, hrow, rfl⟩, hp⟩ := hp
      rw [resetRow_eq] at hp
      cases hl : row.getLast? with
      | none => rw [hl] at hp; simp at hp
      | some q =>
        rw [hl] at hp
        have hqm := hq q (List.mem_flatten.2 ⟨row, hrow, List.mem_of_getLast? hl⟩)
        by_cases hqp : q.persist = true
        · simp only [hqp, if_true, List.mem_singleton] at hp
          subst hp
          have h2 := hreset q now hqm
          rw [hqp] at h2
          exact h2
        · simp [hqp] at hp

end Verif
