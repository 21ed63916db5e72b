import Verif.Model.Telemetry
/-! # Lemmas about the comparisons used by the bucket store -/
namespace Verif

theorem cmpStr_refl (a : Str) : cmpStr a a = .eq := by
  induction a with
  | nil => rfl
  | cons c a ih => simp [cmpStr, ih, Ordering.then]

theorem compare_nat_eq {a b : Nat} : compare a b = .eq ↔ a = b := Nat.compare_eq_eq

theorem cmpStr_eq {a b : Str} : cmpStr a b = .eq ↔ a = b := by
  induction a generalizing b with
  | nil => cases b <;> simp [cmpStr]
  | cons c a ih =>
    cases b with
    | nil => simp [cmpStr]
    | cons d b =>
      simp only [cmpStr, Ordering.then_eq_eq, ih, compare_nat_eq, List.cons.injEq]
      constructor
      · rintro ⟨h, rfl⟩; exact ⟨Char.toNat_inj.1 h, rfl⟩
      · rintro ⟨rfl, rfl⟩; exact ⟨rfl, rfl⟩

theorem compare_nat_swap (a b : Nat) : (compare a b).swap = compare b a := Nat.compare_swap a b

theorem cmpStr_swap (a b : Str) : (cmpStr a b).swap = cmpStr b a := by
  induction a generalizing b with
  | nil => cases b <;> rfl
  | cons c a ih =>
    cases b with
    | nil => rfl
    | cons d b => simp only [cmpStr, Ordering.swap_then, ih, compare_nat_swap]

theorem then_lt_trans {o1 o2 o3 p1 p2 p3 : Ordering}
    (ho : o1 = .lt → o2 = .lt → o3 = .lt)
    (heq1 : o1 = .eq → o3 = o2) (heq2 : o2 = .eq → o3 = o1)
    (hp : p1 = .lt → p2 = .lt → p3 = .lt)
    (h1 : o1.then p1 = .lt) (h2 : o2.then p2 = .lt) : o3.then p3 = .lt := by
  cases o1 <;> cases o2 <;> simp_all [Ordering.then]

theorem cmpStr_lt_trans {a b c : Str} (h1 : cmpStr a b = .lt) (h2 : cmpStr b c = .lt) :
    cmpStr a c = .lt := by
  induction a generalizing b c with
  | nil => cases b <;> cases c <;> simp_all [cmpStr]
  | cons x a ih =>
    cases b with
    | nil => simp [cmpStr] at h1
    | cons y b =>
      cases c with
      | nil => simp [cmpStr] at h2
      | cons z c =>
        simp only [cmpStr] at *
        refine then_lt_trans ?_ ?_ ?_ (ih (b := b) (c := c)) h1 h2
        · simp only [Nat.compare_eq_lt]; omega
        · simp only [Nat.compare_eq_eq]; intro h; rw [h]
        · simp only [Nat.compare_eq_eq]; intro h; rw [h]

theorem cmpPairs_eq {a b : TagMap} : cmpPairs a b = .eq ↔ a = b := by
  induction a generalizing b with
  | nil => cases b <;> simp [cmpPairs]
  | cons c a ih =>
    obtain ⟨k, v⟩ := c
    cases b with
    | nil => simp [cmpPairs]
    | cons d b =>
      obtain ⟨k', v'⟩ := d
      simp only [cmpPairs, Ordering.then_eq_eq, ih, cmpStr_eq, List.cons.injEq, Prod.mk.injEq]

theorem cmpPairs_swap (a b : TagMap) : (cmpPairs a b).swap = cmpPairs b a := by
  induction a generalizing b with
  | nil => cases b <;> rfl
  | cons c a ih =>
    obtain ⟨k, v⟩ := c
    cases b with
    | nil => rfl
    | cons d b =>
      obtain ⟨k', v'⟩ := d
      simp only [cmpPairs, Ordering.swap_then, ih, cmpStr_swap]

theorem cmpPairs_lt_trans {a b c : TagMap} (h1 : cmpPairs a b = .lt) (h2 : cmpPairs b c = .lt) :
    cmpPairs a c = .lt := by
  induction a generalizing b c with
  | nil => cases b <;> cases c <;> simp_all [cmpPairs]
  | cons x a ih =>
    cases b with
    | nil => simp [cmpPairs] at h1
    | cons y b =>
      cases c with
      | nil => simp [cmpPairs] at h2
      | cons z c =>
        simp only [cmpPairs] at *
        refine then_lt_trans ?_ ?_ ?_ (ih (b := b) (c := c)) h1 h2
        · refine then_lt_trans cmpStr_lt_trans ?_ ?_ cmpStr_lt_trans
          · intro h; rw [cmpStr_eq.1 h]
          · intro h; rw [cmpStr_eq.1 h]
        · intro h
          simp only [Ordering.then_eq_eq, cmpStr_eq] at h
          rw [h.1, h.2]
        · intro h
          simp only [Ordering.then_eq_eq, cmpStr_eq] at h
          rw [h.1, h.2]

theorem cmpTagmap_swap (a b : Option TagMap) : (cmpTagmap a b).swap = cmpTagmap b a := by
  cases a <;> cases b <;> try rfl
  simp only [cmpTagmap]
  split
  · next h => rw [if_pos (Ne.symm h), compare_nat_swap]
  · next h => rw [if_neg (by omega), cmpPairs_swap]

theorem cmpTagmap_refl (a : Option TagMap) : cmpTagmap a a = .eq := by
  cases a with
  | none => rfl
  | some m => simp only [cmpTagmap, ne_eq, not_true, if_false]; exact cmpPairs_eq.2 rfl

theorem cmpTagmap_eq_some {a b : TagMap} : cmpTagmap (some a) (some b) = .eq ↔ a = b := by
  simp only [cmpTagmap]
  split
  · next h =>
    rw [Nat.compare_eq_eq]
    constructor
    · intro h'; exact absurd h' h
    · rintro rfl; exact absurd rfl h
  · exact cmpPairs_eq

theorem cmpTagmap_some_lt_trans {a b c : TagMap} (h1 : cmpTagmap (some a) (some b) = .lt)
    (h2 : cmpTagmap (some b) (some c) = .lt) : cmpTagmap (some a) (some c) = .lt := by
  simp only [cmpTagmap] at *
  split at h1 <;> split at h2 <;> split <;> (try simp only [Nat.compare_eq_lt] at *) <;>
    first | omega | exact cmpPairs_lt_trans h1 h2

section
variable {F : Type} [F64 F]

/-- the time bin of a point -/
def Telemetry.bin (t : Telemetry F) (w : Int) : Int := t.timestamp.tdiv w

theorem within_eq_then (a b : Telemetry F) (w : Int) :
    a.within w b = (cmpStr a.name b.name).then ((cmpTagmap a.tags b.tags).then
      (compare (a.bin w) (b.bin w))) := by
  unfold Telemetry.within Telemetry.bin
  cases cmpStr a.name b.name <;> simp [Ordering.then]
  cases cmpTagmap a.tags b.tags <;> simp

theorem compare_int_swap (a b : Int) : (compare a b).swap = compare b a := by
  simp only [compare, compareOfLessAndEq]
  by_cases h : a < b
  · simp [h, show ¬ b < a by omega, show b ≠ a by omega]
  · by_cases h' : a = b
    · simp [h']
    · simp [h, h', show b < a by omega]

theorem compare_int_lt {a b : Int} : compare a b = .lt ↔ a < b := by
  simp only [compare, compareOfLessAndEq]; split <;> (try split) <;> simp_all

theorem compare_int_eq {a b : Int} : compare a b = .eq ↔ a = b := by
  simp only [compare, compareOfLessAndEq]; split
  · simp; omega
  · split <;> simp_all

theorem compare_int_gt {a b : Int} : compare a b = .gt ↔ b < a := by
  rw [← compare_int_lt (a := b), ← compare_int_swap b a]; cases compare b a <;> simp

theorem within_swap (a b : Telemetry F) (w : Int) : (a.within w b).swap = b.within w a := by
  rw [within_eq_then, within_eq_then, Ordering.swap_then, Ordering.swap_then, cmpStr_swap,
    cmpTagmap_swap, compare_int_swap]

theorem within_refl (a : Telemetry F) (w : Int) : a.within w a = .eq := by
  rw [within_eq_then, cmpStr_refl, cmpTagmap_refl]; simp [Ordering.then]

/-- Points of the same series (equal hash input) compare by time bin. -/
theorem within_same_series {a b : Telemetry F} (h : a.hashInput = b.hashInput) (w : Int) :
    a.within w b = compare (a.bin w) (b.bin w) := by
  simp only [Telemetry.hashInput, Prod.mk.injEq] at h
  rw [within_eq_then, h.1, cmpStr_refl]
  have : cmpTagmap a.tags b.tags = .eq := by
    cases ha : a.tags <;> cases hb : b.tags <;> try rfl
    rw [ha, hb] at h
    simp only [Option.getD_some] at h
    rw [h.2, cmpTagmap_refl]
  rw [this]; rfl

end
end Verif
