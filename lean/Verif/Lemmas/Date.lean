import Verif.Model.Date
/-!
# The calendar of the model counts days
-/
namespace Verif.Chrono
open Date

/-- Days of a year before a month. -/
def before (y : Int) (m : Nat) : Nat :=
  (if m ≤ 1 then 0 else if m = 2 then 31 else if m = 3 then 59 else if m = 4 then 90 else if m = 5 then 120 else if m = 6 then 151 else if m = 7 then 181
   else if m = 8 then 212 else if m = 9 then 243 else if m = 10 then 273 else if m = 11 then 304 else 334) + (if 2 < m ∧ Leap y then 1 else 0)

/-- The number of a date, 1970-01-01 being 0. -/
def number (d : Date) : Int :=
  365 * d.year + (d.year + 3) / 4 - (d.year + 99) / 100 + (d.year + 399) / 400 + (before d.year d.month + d.day : Nat) - 719529

/-- Days of a year. -/
def yearLength (y : Int) : Nat := if Leap y then 366 else 365

theorem before_succ (y : Int) (m : Nat) (h1 : 1 ≤ m) (h2 : m < 12) : before y (m + 1) = before y m + monthLength y m := by
  unfold before monthLength
  obtain rfl | rfl | rfl | rfl | rfl | rfl | rfl | rfl | rfl | rfl | rfl : m = 1 ∨ m = 2 ∨ m = 3 ∨ m = 4 ∨ m = 5 ∨ m = 6 ∨ m = 7 ∨ m = 8 ∨ m = 9 ∨ m = 10 ∨ m = 11 := by omega
  all_goals by_cases h : Leap y <;> simp [h]

theorem before_last (y : Int) : before y 12 + monthLength y 12 = yearLength y := by
  unfold before monthLength yearLength
  by_cases h : Leap y <;> simp [h]

theorem before_next (y : Int) (m j : Nat) (h1 : 1 ≤ m) (h2 : m + 1 + j ≤ 12) : before y m + monthLength y m ≤ before y (m + 1 + j) := by
  induction j with
  | zero => rw [← before_succ y m h1 (by omega)]; exact Nat.le_refl _
  | succ j ih =>
    have := before_succ y (m + 1 + j) (by omega) (by omega)
    have := ih (by omega)
    rw [show m + 1 + (j + 1) = m + 1 + j + 1 by omega]
    omega

theorem before_le (y : Int) (m : Nat) (h1 : 1 ≤ m) (h2 : m ≤ 12) : before y m + monthLength y m ≤ yearLength y := by
  by_cases h : m = 12
  · subst h; exact Nat.le_of_eq (before_last y)
  · have := before_next y m (11 - m) h1 (by omega)
    rw [show m + 1 + (11 - m) = 12 by omega] at this
    have := before_last y
    omega

theorem year_succ (y : Int) : 365 * (y + 1) + (y + 1 + 3) / 4 - (y + 1 + 99) / 100 + (y + 1 + 399) / 400 =
    365 * y + (y + 3) / 4 - (y + 99) / 100 + (y + 399) / 400 + (yearLength y : Nat) := by
  unfold yearLength
  by_cases h : Leap y
  · rw [if_pos h]; unfold Leap at h; omega
  · rw [if_neg h]; unfold Leap at h; omega

theorem number_next (d : Date) (h : d.Valid) : number d.next = number d + 1 := by
  obtain ⟨h1, h2, h3, h4⟩ := h
  unfold next
  by_cases c1 : d.day < monthLength d.year d.month
  · rw [if_pos c1]; simp only [number]; omega
  · rw [if_neg c1]
    by_cases c2 : d.month < 12
    · rw [if_pos c2]; simp only [number, before_succ _ _ h1 c2]; omega
    · rw [if_neg c2]
      have h12 : d.month = 12 := by omega
      have hl := before_last d.year
      have hy := year_succ d.year
      rw [h12] at h4 c1
      simp only [number, h12, show before (d.year + 1) 1 = 0 by simp [before]]
      omega

theorem valid_next (d : Date) (h : d.Valid) : d.next.Valid := by
  obtain ⟨h1, h2, h3, h4⟩ := h
  have pos : ∀ y m, 1 ≤ monthLength y m := fun y m => by unfold monthLength; (repeat' split) <;> omega
  unfold next
  by_cases c1 : d.day < monthLength d.year d.month
  · rw [if_pos c1]; exact ⟨h1, h2, by simp, c1⟩
  · rw [if_neg c1]
    by_cases c2 : d.month < 12
    · rw [if_pos c2]; exact ⟨by simp, c2, by simp, pos _ _⟩
    · rw [if_neg c2]; exact ⟨by simp, by simp, by simp, pos _ _⟩

theorem year_mono (y z : Int) (h : y < z) : 365 * y + (y + 3) / 4 - (y + 99) / 100 + (y + 399) / 400 + (yearLength y : Nat) ≤
    365 * z + (z + 3) / 4 - (z + 99) / 100 + (z + 399) / 400 := by
  have := year_succ y
  omega

theorem number_lt (d e : Date) (hd : d.Valid) (he : e.Valid) (h : Before d e) : number d < number e := by
  obtain ⟨h1, h2, h3, h4⟩ := hd
  obtain ⟨g1, g2, g3, g4⟩ := he
  have hb := before_le d.year d.month h1 h2
  unfold number
  rcases h with h | ⟨h, h' | ⟨h', h''⟩⟩
  · have := year_mono d.year e.year h
    omega
  · have := before_next d.year d.month (e.month - d.month - 1) h1 (by omega)
    rw [show d.month + 1 + (e.month - d.month - 1) = e.month by omega] at this
    rw [← h]; omega
  · rw [← h, ← h']; omega

theorem before_total (d e : Date) : Before d e ∨ d = e ∨ Before e d := by
  obtain ⟨y, m, a⟩ := d
  obtain ⟨z, n, b⟩ := e
  simp only [Before, Date.mk.injEq]
  omega

theorem number_lt_iff (d e : Date) (hd : d.Valid) (he : e.Valid) : Before d e ↔ number d < number e := by
  refine ⟨number_lt d e hd he, fun h => ?_⟩
  rcases before_total d e with h' | rfl | h'
  · exact h'
  · omega
  · have := number_lt e d he hd h'; omega

theorem number_inj (d e : Date) (hd : d.Valid) (he : e.Valid) (h : number d = number e) : d = e := by
  rcases before_total d e with h' | rfl | h'
  · have := number_lt d e hd he h'; omega
  · rfl
  · have := number_lt e d he hd h'; omega

/-! ## The date of a day -/

theorem yearDay_spec (c : Nat) (h : c < 146097) :
    (yearDay c).1 < 400 ∧ c = 365 * (yearDay c).1 + delta (yearDay c).1 + (yearDay c).2 ∧ (yearDay c).2 < yearLength (yearDay c).1 := by
  have hd : ∀ y : Nat, y ≤ 400 → delta y ≤ 97 ∧ (y < 400 → delta (y + 1) + 365 = delta y + yearLength y) := by
    intro y hy
    unfold delta yearLength
    refine ⟨by omega, fun _ => ?_⟩
    by_cases hl : Leap y
    · rw [if_pos hl]; unfold Leap at hl; omega
    · rw [if_neg hl]; unfold Leap at hl; omega
  have h0 : delta 0 = 0 := rfl
  have h400 : delta 400 = 97 := rfl
  unfold yearDay
  simp only
  obtain ⟨y, hy⟩ : ∃ y, c / 365 = y := ⟨_, rfl⟩
  rw [hy]
  have hle : y ≤ 400 := by omega
  have hm : c = 365 * y + c % 365 := by omega
  have hlt : c % 365 < 365 := by omega
  generalize c % 365 = o at hm hlt
  by_cases h1 : o < delta y
  · rw [if_pos h1]
    simp only
    have hy0 : y ≠ 0 := fun e => by rw [e, h0] at h1; omega
    have := hd (y - 1) (by omega)
    have h2 := this.2 (by omega)
    rw [show y - 1 + 1 = y by omega] at h2
    have := hd y hle
    refine ⟨by omega, by omega, by omega⟩
  · rw [if_neg h1]
    simp only
    have hne : y ≠ 400 := fun e => by rw [e, h400] at h1; rw [e] at hm; omega
    have := hd y hle
    have h2 := this.2 (by omega)
    have := hd (y + 1) (by omega)
    have hge : 365 ≤ yearLength y := by unfold yearLength; split <;> omega
    refine ⟨by omega, by omega, by omega⟩

/-- Month and day, given where the month starts. -/
theorem monthDay_spec (Y : Int) : ∀ (ls : List Nat) (m o : Nat), 1 ≤ m → m + ls.length = 12 → (∀ i l, ls[i]? = some l → l = monthLength Y (m + i)) →
    before Y m + o < yearLength Y →
    m ≤ (monthDay ls m o).1 ∧ (monthDay ls m o).1 ≤ 12 ∧ 1 ≤ (monthDay ls m o).2 ∧ (monthDay ls m o).2 ≤ monthLength Y (monthDay ls m o).1 ∧
      before Y (monthDay ls m o).1 + (monthDay ls m o).2 = before Y m + o + 1 := by
  intro ls
  induction ls with
  | nil =>
    intro m o h1 h12 _ ho
    simp only [List.length_nil, Nat.add_zero] at h12
    subst h12
    have := before_last Y
    simp only [monthDay]
    omega
  | cons l ls ih =>
    intro m o h1 h12 hl ho
    have hl0 : l = monthLength Y m := hl 0 l rfl
    simp only [List.length_cons] at h12
    simp only [monthDay]
    by_cases hc : o < l
    · rw [if_pos hc]
      simp only
      omega
    · rw [if_neg hc]
      have hs := before_succ Y m h1 (by omega)
      have := ih (m + 1) (o - l) (by omega) (by omega) (fun i l' h => by
        have := hl (i + 1) l' (by simpa using h)
        rw [this]; congr 1; omega) (by omega)
      omega

theorem lengths_spec (y : Nat) (k : Int) (i l : Nat) (h : (lengths y)[i]? = some l) : l = monthLength (k * 400 + y) (1 + i) := by
  have hl : Leap (k * 400 + y) ↔ (y % 4 = 0 ∧ (y % 100 ≠ 0 ∨ y % 400 = 0)) := by unfold Leap; omega
  have hi : i < 11 := (List.getElem?_eq_some_iff.1 h).1
  unfold monthLength
  simp only [hl]
  obtain rfl | rfl | rfl | rfl | rfl | rfl | rfl | rfl | rfl | rfl | rfl : i = 0 ∨ i = 1 ∨ i = 2 ∨ i = 3 ∨ i = 4 ∨ i = 5 ∨ i = 6 ∨ i = 7 ∨ i = 8 ∨ i = 9 ∨ i = 10 := by omega
  all_goals (simp only [lengths, List.getElem?_cons_zero, List.getElem?_cons_succ, Option.some.injEq] at h; rw [← h]; simp)

theorem civil_spec (n : Int) : (civil n).Valid ∧ number (civil n) = n := by
  obtain ⟨q, hq⟩ : ∃ q, (n + 719163 + 365) / 146097 = q := ⟨_, rfl⟩
  obtain ⟨c, hc⟩ : ∃ c, ((n + 719163 + 365) % 146097).toNat = c := ⟨_, rfl⟩
  have hn : n = q * 146097 + c - 719528 := by omega
  have hlt : c < 146097 := by omega
  obtain ⟨h1, h2, h3⟩ := yearDay_spec c hlt
  have hyl : yearLength (q * 400 + (yearDay c).1) = yearLength (yearDay c).1 := by
    have : Leap (q * 400 + (yearDay c).1) ↔ Leap (yearDay c).1 := by unfold Leap; omega
    unfold yearLength
    simp only [this]
  have hb : ∀ Y : Int, before Y 1 = 0 := fun Y => by simp [before]
  have key := monthDay_spec (q * 400 + (yearDay c).1) (lengths (yearDay c).1) 1 (yearDay c).2 (by omega) rfl
    (fun i l h => lengths_spec _ _ i l h) (by rw [hb, hyl]; omega)
  have hcv : civil n = ⟨q * 400 + (yearDay c).1, (monthDay (lengths (yearDay c).1) 1 (yearDay c).2).1,
      (monthDay (lengths (yearDay c).1) 1 (yearDay c).2).2⟩ := by
    simp only [civil, hq, hc]
  rw [hcv]
  obtain ⟨k1, k2, k3, k4, k5⟩ := key
  refine ⟨⟨k1, k2, k3, k4⟩, ?_⟩
  simp only [number]
  rw [k5, hb]
  unfold delta at h2
  omega

theorem civil_zero : civil 0 = epoch := by decide

theorem civil_succ (n : Int) : civil (n + 1) = (civil n).next :=
  number_inj _ _ (civil_spec _).1 (valid_next _ (civil_spec n).1) (by rw [number_next _ (civil_spec n).1, (civil_spec n).2, (civil_spec (n + 1)).2])

theorem civil_onto (d : Date) (h : d.Valid) : civil (number d) = d := number_inj _ _ (civil_spec _).1 h (civil_spec _).2

theorem civil_before (a b : Int) : Before (civil a) (civil b) ↔ a < b := by
  rw [number_lt_iff _ _ (civil_spec a).1 (civil_spec b).1, (civil_spec a).2, (civil_spec b).2]

theorem civil_inj {a b : Int} (h : civil a = civil b) : a = b := by
  have := (civil_spec a).2
  rw [h, (civil_spec b).2] at this
  exact this.symm

theorem ofDay_iff (n : Int) (d : Date) : OfDay n d ↔ civil n = d := by
  constructor
  · intro h
    induction h with
    | epoch => exact civil_zero
    | next n d _ ih => rw [civil_succ, ih]
    | previous n d _ hv ih =>
      have h1 := (civil_spec (n + 1)).2
      rw [ih, number_next d hv] at h1
      have : number d = n := by omega
      rw [← this]; exact civil_onto d hv
  · rintro rfl
    have up : ∀ k : Nat, OfDay k (civil k) := by
      intro k
      induction k with
      | zero => rw [show ((0 : Nat) : Int) = 0 from rfl, civil_zero]; exact .epoch
      | succ k ih => rw [show ((k + 1 : Nat) : Int) = (k : Int) + 1 from rfl, civil_succ]; exact .next _ _ ih
    have down : ∀ k : Nat, OfDay (-(k : Int)) (civil (-(k : Int))) := by
      intro k
      induction k with
      | zero => simpa using up 0
      | succ k ih =>
        refine .previous _ _ ?_ (civil_spec _).1
        rw [← civil_succ, show -((k + 1 : Nat) : Int) + 1 = -(k : Int) by omega]
        exact ih
    by_cases h : 0 ≤ n
    · have := up n.toNat
      rwa [Int.toNat_of_nonneg h] at this
    · have := down (-n).toNat
      rwa [Int.toNat_of_nonneg (by omega), Int.neg_neg] at this

/-! ## The range -/

theorem year_low (d : Date) (h : d.Valid) (y : Int) : d.year < y ↔ Before d ⟨y, 1, 1⟩ := by
  obtain ⟨h1, h2, h3, h4⟩ := h
  simp only [Before]
  omega

theorem civil_year_lt (n y : Int) : (civil n).year < y ↔ n < number ⟨y, 1, 1⟩ := by
  have hv : (⟨y, 1, 1⟩ : Date).Valid := ⟨by simp, by simp, by simp, by simp [monthLength]⟩
  rw [year_low _ (civil_spec n).1, number_lt_iff _ _ (civil_spec n).1 hv, (civil_spec n).2]

theorem fromTimestamp_some (t : Int) (h : -8334632851200 ≤ t ∧ t ≤ 8210298412799) :
    fromTimestamp t = some (civil (t / 86400), (t % 86400).toNat) := by
  have h1 := civil_year_lt (t / 86400) (-262144)
  have h2 := civil_year_lt (t / 86400) 262144
  rw [show number ⟨-262144, 1, 1⟩ = -96465658 by decide] at h1
  rw [show number ⟨262144, 1, 1⟩ = 95026602 by decide] at h2
  simp only [fromTimestamp]
  rw [if_pos (by omega)]

theorem fromTimestamp_none (t : Int) : fromTimestamp t = none ↔ t < -8334632851200 ∨ 8210298412799 < t := by
  by_cases h : -8334632851200 ≤ t ∧ t ≤ 8210298412799
  · rw [fromTimestamp_some t h]; simp; omega
  · have h1 := civil_year_lt (t / 86400) (-262144)
    have h2 := civil_year_lt (t / 86400) 262144
    rw [show number ⟨-262144, 1, 1⟩ = -96465658 by decide] at h1
    rw [show number ⟨262144, 1, 1⟩ = 95026602 by decide] at h2
    simp only [fromTimestamp]
    rw [if_neg (by omega)]
    simp; omega

/-! ## The texts -/

theorem digit_toNat (n : Nat) : (digit n).toNat = 48 + n % 10 := by
  have h : n % 10 < 10 := Nat.mod_lt _ (by omega)
  unfold digit
  generalize n % 10 = k at h
  obtain rfl | rfl | rfl | rfl | rfl | rfl | rfl | rfl | rfl | rfl : k = 0 ∨ k = 1 ∨ k = 2 ∨ k = 3 ∨ k = 4 ∨ k = 5 ∨ k = 6 ∨ k = 7 ∨ k = 8 ∨ k = 9 := by omega
  all_goals rfl

theorem digit_inj {a b : Nat} (h : digit a = digit b) : a % 10 = b % 10 := by
  have := congrArg Char.toNat h
  rw [digit_toNat, digit_toNat] at this
  omega

theorem digit_ok (n : Nat) : 48 ≤ (digit n).toNat ∧ (digit n).toNat ≤ 57 := by rw [digit_toNat]; omega

theorem digit_lt (a b : Nat) : digit a < digit b ↔ a % 10 < b % 10 := by
  rw [show (digit a < digit b) = ((digit a).toNat < (digit b).toNat) from rfl, digit_toNat, digit_toNat]; omega

theorem two_digits (n : Nat) (h : n < 100) : Digits 2 (two n) n := by
  refine ⟨rfl, fun c hc => ?_, ?_⟩
  · simp only [two, List.mem_cons, List.not_mem_nil, or_false] at hc
    rcases hc with rfl | rfl <;> exact digit_ok _
  · simp only [two, value, List.foldl_cons, List.foldl_nil, digit_toNat]; omega

theorem yearText_isYear (y : Int) (h : y.natAbs < 1000000) : IsYear (yearText y) y := by
  unfold IsYear yearText
  simp only
  by_cases h1 : 0 ≤ y ∧ y ≤ 9999
  · rw [if_pos h1, if_pos h1]
    refine ⟨rfl, fun c hc => ?_, ?_⟩
    · simp only [List.mem_cons, List.not_mem_nil, or_false] at hc
      rcases hc with rfl | rfl | rfl | rfl <;> exact digit_ok _
    · simp only [value, List.foldl_cons, List.foldl_nil, digit_toNat]; omega
  · rw [if_neg h1, if_neg h1]
    by_cases h2 : y.natAbs < 10000
    · rw [if_pos h2]
      refine ⟨4, _, by omega, ⟨rfl, fun c hc => ?_, ?_⟩, rfl⟩
      · simp only [List.mem_cons, List.not_mem_nil, or_false] at hc
        rcases hc with rfl | rfl | rfl | rfl <;> exact digit_ok _
      · simp only [value, List.foldl_cons, List.foldl_nil, digit_toNat]; omega
    · rw [if_neg h2]
      by_cases h3 : y.natAbs < 100000
      · rw [if_pos h3]
        refine ⟨5, _, by omega, ⟨rfl, fun c hc => ?_, ?_⟩, rfl⟩
        · simp only [List.mem_cons, List.not_mem_nil, or_false] at hc
          rcases hc with rfl | rfl | rfl | rfl | rfl <;> exact digit_ok _
        · simp only [value, List.foldl_cons, List.foldl_nil, digit_toNat]; omega
      · rw [if_neg h3]
        refine ⟨6, _, by omega, ⟨rfl, fun c hc => ?_, ?_⟩, rfl⟩
        · simp only [List.mem_cons, List.not_mem_nil, or_false] at hc
          rcases hc with rfl | rfl | rfl | rfl | rfl | rfl <;> exact digit_ok _
        · simp only [value, List.foldl_cons, List.foldl_nil, digit_toNat]; omega

theorem valid_small {d : Date} (h : d.Valid) : d.month < 100 ∧ d.day < 100 := by
  obtain ⟨h1, h2, h3, h4⟩ := h
  have : monthLength d.year d.month ≤ 31 := by unfold monthLength; (repeat' split) <;> omega
  omega

theorem dateText_isDate (d : Date) (h : d.Valid) (hy : d.year.natAbs < 1000000) : IsDate (dateText d) d :=
  ⟨_, _, _, yearText_isYear _ hy, two_digits _ (valid_small h).1, two_digits _ (valid_small h).2, rfl⟩

theorem timeText_isTime (d : Date) (s : Nat) (z : Str) (h : d.Valid) (hy : d.year.natAbs < 1000000) (hs : s < 86400) : IsTime z (timeText d s z) d s :=
  ⟨_, _, _, _, s / 3600, s / 60 % 60, s % 60, dateText_isDate d h hy, two_digits _ (by omega), two_digits _ (by omega), two_digits _ (by omega), by omega,
    by omega, by omega, by omega, rfl⟩

/-! ## A text is the text of one date -/

theorem value_append (a : Str) (c : Char) : value (a ++ [c]) = 10 * value a + (c.toNat - 48) := by simp [value]

theorem isYear_unique {s : Str} {y z : Int} (hy : IsYear s y) (hz : IsYear s z) : y = z := by
  have sign : ∀ (b : Bool) (ds : Str) (k n : Nat), Digits k ((if b = true then '-' else '+') :: ds) n → False := by
    intro b ds k n h
    have := h.2.1 _ (List.mem_cons_self)
    cases b <;> revert this <;> decide
  unfold IsYear at hy hz
  by_cases h1 : 0 ≤ y ∧ y ≤ 9999
  · rw [if_pos h1] at hy
    by_cases h2 : 0 ≤ z ∧ z ≤ 9999
    · rw [if_pos h2] at hz
      have := hy.2.2.symm.trans hz.2.2
      omega
    · rw [if_neg h2] at hz
      obtain ⟨k, ds, -, -, rfl⟩ := hz
      by_cases hz0 : z < 0
      · rw [if_pos hz0] at hy; exact (sign true ds _ _ hy).elim
      · rw [if_neg hz0] at hy; exact (sign false ds _ _ hy).elim
  · rw [if_neg h1] at hy
    obtain ⟨k, ds, -, hd, rfl⟩ := hy
    by_cases h2 : 0 ≤ z ∧ z ≤ 9999
    · rw [if_pos h2] at hz
      by_cases hy0 : y < 0
      · rw [if_pos hy0] at hz; exact (sign true ds _ _ hz).elim
      · rw [if_neg hy0] at hz; exact (sign false ds _ _ hz).elim
    · rw [if_neg h2] at hz
      obtain ⟨k', ds', -, hd', he⟩ := hz
      simp only [List.cons.injEq] at he
      obtain ⟨hs, rfl⟩ := he
      have hn := hd.2.2.symm.trans hd'.2.2
      by_cases hy0 : y < 0
      · by_cases hz0 : z < 0
        · omega
        · rw [if_pos hy0, if_neg hz0] at hs; exact absurd hs (by decide)
      · by_cases hz0 : z < 0
        · rw [if_neg hy0, if_pos hz0] at hs; exact absurd hs (by decide)
        · omega

theorem isDate_unique {s : Str} {d e : Date} (hd : IsDate s d) (he : IsDate s e) : d = e := by
  obtain ⟨y, m, a, h1, h2, h3, rfl⟩ := hd
  obtain ⟨y', m', a', g1, g2, g3, hs⟩ := he
  obtain ⟨k1, k2⟩ := List.append_inj' hs (by simp [h2.1, h3.1, g2.1, g3.1])
  simp only [List.cons.injEq, true_and] at k2
  obtain ⟨k2, k3⟩ := List.append_inj k2 (by rw [h2.1, g2.1])
  simp only [List.cons.injEq, true_and] at k3
  subst k1; subst k2; subst k3
  have e1 := isYear_unique h1 g1
  have e2 := h2.2.2.symm.trans g2.2.2
  have e3 := h3.2.2.symm.trans g3.2.2
  cases d; cases e; simp_all

theorem isTime_unique {z s : Str} {d e : Date} {i j : Nat} (hd : IsTime z s d i) (he : IsTime z s e j) : d = e ∧ i = j := by
  obtain ⟨date, h, m, sec, hh, mm, ss, h0, h1, h2, h3, -, -, -, h4, rfl⟩ := hd
  obtain ⟨date', h', m', sec', hh', mm', ss', g0, g1, g2, g3, -, -, -, g4, hs⟩ := he
  obtain ⟨k1, k2⟩ := List.append_inj' hs (by simp [h1.1, h2.1, h3.1, g1.1, g2.1, g3.1])
  simp only [List.cons.injEq, true_and] at k2
  obtain ⟨k2, k3⟩ := List.append_inj k2 (by rw [h1.1, g1.1])
  simp only [List.cons.injEq, true_and] at k3
  obtain ⟨k3, k4⟩ := List.append_inj k3 (by rw [h2.1, g2.1])
  simp only [List.cons.injEq, true_and] at k4
  obtain ⟨k4, -⟩ := List.append_inj k4 (by rw [h3.1, g3.1])
  subst k1; subst k2; subst k3; subst k4
  have e1 := h1.2.2.symm.trans g1.2.2
  have e2 := h2.2.2.symm.trans g2.2.2
  have e3 := h3.2.2.symm.trans g3.2.2
  exact ⟨isDate_unique h0 g0, by omega⟩

theorem four_lt (a b : Nat) (ha : a < 10000) (hb : b < 10000) (P : Prop) :
    (a / 1000 % 10 < b / 1000 % 10 ∨ a / 1000 % 10 = b / 1000 % 10 ∧ (a / 100 % 10 < b / 100 % 10 ∨ a / 100 % 10 = b / 100 % 10 ∧
      (a / 10 % 10 < b / 10 % 10 ∨ a / 10 % 10 = b / 10 % 10 ∧ (a % 10 < b % 10 ∨ a % 10 = b % 10 ∧ P)))) ↔ (a < b ∨ a = b ∧ P) := by
  have e : ∀ n, n < 10000 → n = 1000 * (n / 1000 % 10) + 100 * (n / 100 % 10) + 10 * (n / 10 % 10) + n % 10 := by intro n hn; omega
  have ea := e a ha
  have eb := e b hb
  have l : ∀ n : Nat, n % 10 < 10 := fun n => Nat.mod_lt _ (by omega)
  have := l (a / 1000); have := l (a / 100); have := l (a / 10); have := l a
  have := l (b / 1000); have := l (b / 100); have := l (b / 10); have := l b
  generalize a / 1000 % 10 = a3 at *; generalize a / 100 % 10 = a2 at *; generalize a / 10 % 10 = a1 at *; generalize a % 10 = a0 at *
  generalize b / 1000 % 10 = b3 at *; generalize b / 100 % 10 = b2 at *; generalize b / 10 % 10 = b1 at *; generalize b % 10 = b0 at *
  by_cases hP : P
  · simp only [hP, and_true]; omega
  · simp only [hP, and_false, or_false]; omega

theorem two_lt (a b : Nat) (ha : a < 100) (hb : b < 100) (P : Prop) :
    (a / 10 % 10 < b / 10 % 10 ∨ a / 10 % 10 = b / 10 % 10 ∧ (a % 10 < b % 10 ∨ a % 10 = b % 10 ∧ P)) ↔ (a < b ∨ a = b ∧ P) := by
  by_cases hP : P
  · simp only [hP, and_true]; omega
  · simp only [hP, and_false, or_false]; omega

/-- From year 0 to 9999, texts are in the order of the dates. -/
theorem dateText_lt (d e : Date) (hd : d.Valid) (he : e.Valid) (h1 : 0 ≤ d.year ∧ d.year ≤ 9999) (h2 : 0 ≤ e.year ∧ e.year ≤ 9999) :
    dateText d < dateText e ↔ Before d e := by
  obtain ⟨hm, ha⟩ := valid_small hd
  obtain ⟨gm, ga⟩ := valid_small he
  have eqd : ∀ a b : Nat, digit a = digit b ↔ a % 10 = b % 10 := fun a b => ⟨digit_inj, fun h => by unfold digit; rw [h]⟩
  have ir : ¬ ('-' < '-') := by decide
  simp only [dateText, yearText, if_pos h1, if_pos h2, two, List.cons_append, List.nil_append, List.cons_lt_cons_iff, digit_lt, eqd, ir, false_or, true_and]
  rw [four_lt _ _ (by omega) (by omega), two_lt _ _ hm gm, two_lt _ _ ha ga]
  simp only [List.lt_irrefl, or_false, and_false, Before]
  omega

end Verif.Chrono
