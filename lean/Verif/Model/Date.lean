import Verif.Spec.Date
import Verif.Model.Elasticsearch
/-!
# Dates and times

`chrono` 0.4.2 (Cargo.lock:230) is external; this is what src/sink/elasticsearch.rs:360-374, src/filter/json_encode_filter.rs:75-78 and src/sink/console.rs:204-208
ask of it, modelled after the crate's source: `NaiveDateTime::from_timestamp`, and the formats `%Y-%m-%d`, `%+` and the console's.
Simplification: the crate finds month and day of a day of the year in a table, here the lengths of the months are subtracted.
-/
namespace Verif
namespace Chrono

/-- `YEAR_DELTAS` of the crate: leap days of a cycle of 400 years before its year `y`.  For src/sink/elasticsearch.rs:361. -/
def delta (y : Nat) : Nat := (y + 3) / 4 + (y + 399) / 400 - (y + 99) / 100

/-- `cycle_to_yo` of the crate: year and day, from 0, of a day of the cycle.  For src/sink/elasticsearch.rs:361. -/
def yearDay (cycle : Nat) : Nat × Nat :=
  let y := cycle / 365
  let o := cycle % 365
  if o < delta y then (y - 1, o + 365 - delta (y - 1)) else (y, o - delta y)

/-- Month and day of a day of the year, by subtracting lengths of months.  For src/sink/elasticsearch.rs:361. -/
def monthDay : List Nat → Nat → Nat → Nat × Nat
  | [], m, o => (m, o + 1)
  | l :: ls, m, o => if o < l then (m, o + 1) else monthDay ls (m + 1) (o - l)

/-- The lengths of the months but the last.  For src/sink/elasticsearch.rs:361. -/
def lengths (y : Nat) : List Nat :=
  [31, if y % 4 = 0 ∧ (y % 100 ≠ 0 ∨ y % 400 = 0) then 29 else 28, 31, 30, 31, 30, 31, 31, 30, 31, 30]

/-- The date of a day, counted from 1970-01-01 (`from_num_days_from_ce_opt`, whose day 1 is 0001-01-01, but for its bounds).  For
src/sink/elasticsearch.rs:361. -/
def civil (n : Int) : Date :=
  let days := n + 719163 + 365
  let (y, o) := yearDay (days % 146097).toNat
  let (m, d) := monthDay (lengths y) 1 o
  { year := days / 146097 * 400 + y, month := m, day := d }

/-- `NaiveDateTime::from_timestamp(time, 0)`: the date and the second of the day; `none` is a panic — src/sink/elasticsearch.rs:361, 368. -/
def fromTimestamp (time : Int) : Option (Date × Nat) :=
  let date := civil (time / 86400)
  if -262144 ≤ date.year ∧ date.year ≤ 262143 then some (date, (time % 86400).toNat) else none

/-- A digit.  For src/sink/elasticsearch.rs:363. -/
def digit (n : Nat) : Char := Char.ofNat (48 + n % 10)

/-- `{:02}` of a number below 100.  For src/sink/elasticsearch.rs:363. -/
def two (n : Nat) : Str := [digit (n / 10), digit n]

/-- A year: `{:04}` from 0 to 9999, `{:+05}` otherwise.  For src/sink/elasticsearch.rs:371. -/
def yearText (y : Int) : Str :=
  let a := y.natAbs
  let four := [digit (a / 1000), digit (a / 100), digit (a / 10), digit a]
  if 0 ≤ y ∧ y ≤ 9999 then four
  else (if y < 0 then '-' else '+') ::
    (if a < 10000 then four else if a < 100000 then digit (a / 10000) :: four else digit (a / 100000) :: digit (a / 10000) :: four)

/-- The format `%Y-%m-%d` — src/sink/elasticsearch.rs:371-372. -/
def dateText (d : Date) : Str := yearText d.year ++ '-' :: (two d.month ++ '-' :: two d.day)

/-- A date and a second of the day, and what is written after it: for `%+` and `to_rfc3339` without a fraction and in UTC, `+00:00` —
src/sink/elasticsearch.rs:363, src/filter/json_encode_filter.rs:78 — and for the console `.000Z` — src/sink/console.rs:207. -/
def timeText (d : Date) (s : Nat) (z : Str) : Str :=
  dateText d ++ 'T' :: (two (s / 3600) ++ ':' :: (two (s / 60 % 60) ++ ':' :: (two (s % 60) ++ z)))

/-- `format_time` of the console — src/sink/console.rs:204-208; `none` is a panic. -/
def consoleTime (time : Int) : Option Str := (fromTimestamp time).map fun p => timeText p.1 p.2 ['.', '0', '0', '0', 'Z']

/-- `format_time` — src/sink/elasticsearch.rs:360-364; `none` is a panic. -/
def formatTime (time : Int) : Option Str := (fromTimestamp time).map fun p => timeText p.1 p.2 ['+', '0', '0', ':', '0', '0']

/-- The date in `idx` — src/sink/elasticsearch.rs:367-374; `none` is a panic. -/
def formatDate (time : Int) : Option Str := (fromTimestamp time).map fun p => dateText p.1

end Chrono

/-- What the Elasticsearch sink takes from outside, with the times of `chrono` — src/sink/elasticsearch.rs:360-374. -/
def Elastic.chrono (showId : Nat → Str) : Elastic.Ext :=
  { time := Chrono.formatTime, date := Chrono.formatDate, showId := showId }

end Verif
