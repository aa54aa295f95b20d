import Verif.Model.From
import Verif.Model.Show
import Verif.Model.Iter

/-!
Model of the calendar dates behind the day numbers: what /repo asks `chrono` for (0.4, not in /repo), as it documents it. The rest of
the model has day numbers; here are the functions that turn dates into them and back.

Years are unbounded (`chrono` has the years -262143 to 262142, all that a `u16` of days or a `u32` of seconds reaches).
-/

namespace CH

/-- `chrono::NaiveDate`: a date of the proleptic Gregorian calendar (`AppDate`, /repo/src/types/value.rs:3-20). -/
structure NaiveDate where
  year : Int
  month : Nat
  day : Nat
deriving DecidableEq, Repr

/-- Leap years of that calendar. -/
def leapYear (y : Int) : Bool := y % 4 = 0 && (y % 100 ≠ 0 || y % 400 = 0)

/-- Days of the year before each of the months. -/
def monthStarts (leap : Bool) : List Nat :=
  if leap then [0, 31, 60, 91, 121, 152, 182, 213, 244, 274, 305, 335] else [0, 31, 59, 90, 120, 151, 181, 212, 243, 273, 304, 334]

/-- `NaiveDate::ordinal`: the day of the year, from 1. -/
def NaiveDate.ordinal (d : NaiveDate) : Nat := (monthStarts (leapYear d.year)).getD (d.month - 1) 0 + d.day

/-- `Datelike::num_days_from_ce`, asked for in /repo/src/types/date_converter.rs:13: 0001-01-01 is day 1. -/
def NaiveDate.numDaysFromCe (d : NaiveDate) : Int :=
  let y := d.year - 1
  y * 365 + y / 4 - y / 100 + y / 400 + d.ordinal

/-- The month that the day `n` of the year, from 0, is in, and the day of the month. -/
def monthOf (leap : Bool) (n : Nat) : Nat × Nat :=
  let m := ((monthStarts leap).filter (· ≤ n)).length
  (m, n - (monthStarts leap).getD (m - 1) 0 + 1)

/-- The date with the given number, by cycles of 400, 100, 4 and 1 years, as `chrono` adds to dates. -/
def NaiveDate.ofDaysFromCe (n : Int) : NaiveDate :=
  let z := n - 1
  let q := z / 146097
  let r := (z % 146097).toNat
  let c := min (r / 36524) 3
  let r := r - c * 36524
  let f := r / 1461
  let r := r % 1461
  let g := min (r / 365) 3
  let y := 400 * q + 100 * c + 4 * f + g + 1
  let md := monthOf (leapYear y) (r - g * 365)
  ⟨y, md.1, md.2⟩

/-- `NaiveDate + Duration::days(n)`. -/
def NaiveDate.addDays (d : NaiveDate) (n : Int) : NaiveDate := .ofDaysFromCe (d.numDaysFromCe + n)

/-- The date as `getDays` and `colOf` take it: its distance from day 719163, /repo/src/types/date_converter.rs:12-14. -/
def NaiveDate.stamp (d : NaiveDate) : Int := d.numDaysFromCe - 719163

/-- `Value::from(NaiveDate)`, /repo/src/types/value.rs:365-369 with `get_days`, date_converter.rs:11-15. -/
def NaiveDate.toValue (d : NaiveDate) : Value := .date (getDays d.stamp)

/-- `NaiveDate::from_ymd_opt(1970, 1, 1)` and so many days more, /repo/src/types/value.rs:551-553, value_ref.rs:445-447,
from_sql.rs:303-305. -/
def dateAfter (days : Int) : NaiveDate := (⟨1970, 1, 1⟩ : NaiveDate).addDays days

/-- A number with at least so many digits, as in `%Y`, `%m`, `%H`. -/
def digits (width n : Nat) : Str := padLeft '0' width (natChars n)

/-- `%Y` of the years 0 to 9999; other years get a sign. -/
def yearText (y : Int) : Str :=
  if 0 ≤ y ∧ y ≤ 9999 then digits 4 y.toNat else if y < 0 then '-' :: digits 4 (-y).toNat else '+' :: digits 4 y.toNat

/-- `%Y-%m-%d`, /repo/src/types/value.rs:240, value_ref.rs:156. -/
def NaiveDate.text (d : NaiveDate) : Str := yearText d.year ++ '-' :: digits 2 d.month ++ '-' :: digits 2 d.day

/-- The text of a day, /repo/src/types/value.rs:230-241, value_ref.rs:146-157 (for `TextLib.day`). -/
def dayText (days : Nat) : Str := (dateAfter days).text

/-- `%H:%M:%S` of a second of the day. -/
def clockText (s : Nat) : Str := digits 2 (s / 3600) ++ ':' :: digits 2 (s / 60 % 60) ++ ':' :: digits 2 (s % 60)

/-- `%Y-%m-%d %H:%M:%S` of a point in time in its zone, /repo/src/types/value_ref.rs:162-170 (for `TextLib.stamp`). -/
def stampText (zones : Zones) (secs : Int) (_nanos : Nat) (tz : Tz) : Str :=
  let wall := secs + zones tz secs
  (dateAfter (wall / 86400)).text ++ ' ' :: clockText (wall % 86400).toNat

end CH
