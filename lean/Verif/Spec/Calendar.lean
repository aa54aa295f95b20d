import Verif.Model.Calendar

/-!
# The calendar (C90)

Only the lengths of the months and what the day after a date is.
-/

namespace CH.Spec

/-- A year with a 29th of February. -/
def Leap (y : Int) : Prop := (4 ∣ y ∧ ¬ 100 ∣ y) ∨ 400 ∣ y

/-- The month has `n` days in the year `y`. -/
inductive MonthHas (y : Int) : Nat → Nat → Prop where
  | long {m} (h : m = 1 ∨ m = 3 ∨ m = 5 ∨ m = 7 ∨ m = 8 ∨ m = 10 ∨ m = 12) : MonthHas y m 31
  | short {m} (h : m = 4 ∨ m = 6 ∨ m = 9 ∨ m = 11) : MonthHas y m 30
  | leap (h : Leap y) : MonthHas y 2 29
  | common (h : ¬ Leap y) : MonthHas y 2 28

/-- A date that there is. -/
def IsDate (d : NaiveDate) : Prop := ∃ n, MonthHas d.year d.month n ∧ 1 ≤ d.day ∧ d.day ≤ n

/-- The day after. -/
inductive DayAfter : NaiveDate → NaiveDate → Prop where
  | day {y m d n} (h : MonthHas y m n) (h1 : 1 ≤ d) (hd : d < n) : DayAfter ⟨y, m, d⟩ ⟨y, m, d + 1⟩
  | month {y m d} (h : MonthHas y m d) (hm : m < 12) : DayAfter ⟨y, m, d⟩ ⟨y, m + 1, 1⟩
  | year {y} : DayAfter ⟨y, 12, 31⟩ ⟨y + 1, 1, 1⟩

/-- So many days later. -/
inductive DaysAfter : Nat → NaiveDate → NaiveDate → Prop where
  | zero {d} : DaysAfter 0 d d
  | succ {n d e f} (h : DaysAfter n d e) (hf : DayAfter e f) : DaysAfter (n + 1) d f

/-- The date `e` is `n` days after `d`, or `-n` before it. -/
def Distant (n : Int) (d e : NaiveDate) : Prop := (∃ k : Nat, n = k ∧ DaysAfter k d e) ∨ ∃ k : Nat, n = -k ∧ DaysAfter k e d

/-- 1970-01-01. -/
def epoch : NaiveDate := ⟨1970, 1, 1⟩

/-- Earlier in the calendar. -/
def Before (d e : NaiveDate) : Prop :=
  d.year < e.year ∨ d.year = e.year ∧ (d.month < e.month ∨ d.month = e.month ∧ d.day < e.day)

/-- A decimal digit. -/
def decDigit (n : Nat) : Char := Char.ofNat (48 + n)

/-- A date written with four, two and two digits. -/
inductive Written : NaiveDate → Str → Prop where
  | mk {a b c d e f g h : Nat} (ha : a < 10) (hb : b < 10) (hc : c < 10) (hd : d < 10) (he : e < 10) (hf : f < 10) (hg : g < 10) (hh : h < 10) :
      Written ⟨a * 1000 + b * 100 + c * 10 + d, e * 10 + f, g * 10 + h⟩
        [decDigit a, decDigit b, decDigit c, decDigit d, '-', decDigit e, decDigit f, '-', decDigit g, decDigit h]

/-- A time of day written with three times two digits. -/
inductive Clock : Nat → Str → Prop where
  | mk {a b c d e f : Nat} (ha : a * 10 + b < 24) (hb : b < 10) (hc : c < 6) (hd : d < 10) (he : e < 6) (hf : f < 10) :
      Clock ((a * 10 + b) * 3600 + (c * 10 + d) * 60 + (e * 10 + f))
        [decDigit a, decDigit b, ':', decDigit c, decDigit d, ':', decDigit e, decDigit f]

end CH.Spec
