import Verif.Model.Num
/-!
# Dates

What a calendar date is and which date comes after which, without day numbers; for C130.
-/
namespace Verif

/-- A date of the Gregorian calendar. -/
structure Date where
  year : Int
  month : Nat
  day : Nat
deriving DecidableEq

namespace Date

/-- Every fourth year has a day more, but of the years that end a century only every fourth. -/
def Leap (y : Int) : Prop := y % 4 = 0 ∧ (y % 100 = 0 → y % 400 = 0)

instance (y : Int) : Decidable (Leap y) := inferInstanceAs (Decidable (_ ∧ (_ → _)))

/-- The lengths of the months. -/
def monthLength (y : Int) (m : Nat) : Nat :=
  if m = 2 then (if Leap y then 29 else 28) else if m = 4 ∨ m = 6 ∨ m = 9 ∨ m = 11 then 30 else 31

/-- Is there such a date? -/
def Valid (d : Date) : Prop := 1 ≤ d.month ∧ d.month ≤ 12 ∧ 1 ≤ d.day ∧ d.day ≤ monthLength d.year d.month

instance (d : Date) : Decidable d.Valid := inferInstanceAs (Decidable (_ ∧ _ ∧ _ ∧ _))

/-- The next day. -/
def next (d : Date) : Date :=
  if d.day < monthLength d.year d.month then { d with day := d.day + 1 }
  else if d.month < 12 then { d with month := d.month + 1, day := 1 }
  else { year := d.year + 1, month := 1, day := 1 }

/-- The day Unix time starts at. -/
def epoch : Date := ⟨1970, 1, 1⟩

/-- Earlier. -/
def Before (d e : Date) : Prop :=
  d.year < e.year ∨ d.year = e.year ∧ (d.month < e.month ∨ d.month = e.month ∧ d.day < e.day)

/-- The date of a day: 1970-01-01 is day 0, and the next day has the next number. -/
inductive OfDay : Int → Date → Prop where
  | epoch : OfDay 0 epoch
  | next (n : Int) (d : Date) (h : OfDay n d) : OfDay (n + 1) d.next
  | previous (n : Int) (d : Date) (h : OfDay (n + 1) d.next) (hv : d.Valid) : OfDay n d

/-- The number a string of decimal digits stands for. -/
def value (s : Str) : Nat := s.foldl (fun n c => 10 * n + (c.toNat - 48)) 0

/-- `s` is the number `n` in `k` decimal digits. -/
def Digits (k : Nat) (s : Str) (n : Nat) : Prop := s.length = k ∧ (∀ c ∈ s, 48 ≤ c.toNat ∧ c.toNat ≤ 57) ∧ value s = n

/-- `s` is the year `y`: in four digits, before 0 and after 9999 in four or more digits after a sign. -/
def IsYear (s : Str) (y : Int) : Prop :=
  if 0 ≤ y ∧ y ≤ 9999 then Digits 4 s y.toNat
  else ∃ k ds, 4 ≤ k ∧ Digits k ds y.natAbs ∧ s = (if y < 0 then '-' else '+') :: ds

/-- `s` is the date, year, month and day with hyphens between. -/
def IsDate (s : Str) (d : Date) : Prop :=
  ∃ y m a, IsYear y d.year ∧ Digits 2 m d.month ∧ Digits 2 a d.day ∧ s = y ++ '-' :: (m ++ '-' :: a)

/-- `s` is the date and the second of the day, in hours, minutes and seconds, with `z` after them. -/
def IsTime (z s : Str) (d : Date) (second : Nat) : Prop :=
  ∃ date h m sec hh mm ss, IsDate date d ∧ Digits 2 h hh ∧ Digits 2 m mm ∧ Digits 2 sec ss ∧ hh < 24 ∧ mm < 60 ∧ ss < 60 ∧
    second = 3600 * hh + 60 * mm + ss ∧ s = date ++ 'T' :: (h ++ ':' :: (m ++ ':' :: (sec ++ z)))

end Date
end Verif
