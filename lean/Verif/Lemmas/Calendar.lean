import Verif.Spec.Calendar

/-!
# The calendar: lemmas
-/

namespace CH

open CH.Spec

namespace Calendar

theorem leap_iff (y : Int) : leapYear y = true ↔ Leap y := by
  simp only [leapYear, Leap, Bool.and_eq_true, Bool.or_eq_true, decide_eq_true_eq]
  omega

theorem leap_false (y : Int) : leapYear y = false ↔ ¬ Leap y := by
  rw [← leap_iff]; simp

/-- The length of a month by the table. -/
def len (l : Bool) (m : Nat) : Nat :=
  (if l then [31, 29, 31, 30, 31, 30, 31, 31, 30, 31, 30, 31] else [31, 28, 31, 30, 31, 30, 31, 31, 30, 31, 30, 31]).getD (m - 1) 0

/-- The days before a month. -/
def cum (l : Bool) (m : Nat) : Nat := (monthStarts l).getD (m - 1) 0

theorem month_range {y : Int} {m n : Nat} (h : MonthHas y m n) : 1 ≤ m ∧ m ≤ 12 := by
  cases h <;> omega

theorem month_len {y : Int} {m n : Nat} (h : MonthHas y m n) : n = len (leapYear y) m := by
  cases h with
  | long h => cases leapYear y <;> rcases h with rfl | rfl | rfl | rfl | rfl | rfl | rfl <;> rfl
  | short h => cases leapYear y <;> rcases h with rfl | rfl | rfl | rfl <;> rfl
  | leap h => rw [(leap_iff y).mpr h]; rfl
  | common h => rw [(leap_false y).mpr h]; rfl

theorem len_month (y : Int) {m : Nat} (h1 : 1 ≤ m) (h2 : m ≤ 12) : MonthHas y m (len (leapYear y) m) := by
  have hm : m = 1 ∨ m = 2 ∨ m = 3 ∨ m = 4 ∨ m = 5 ∨ m = 6 ∨ m = 7 ∨ m = 8 ∨ m = 9 ∨ m = 10 ∨ m = 11 ∨ m = 12 := by omega
  cases hl : leapYear y with
  | true =>
    have := (leap_iff y).mp hl
    rcases hm with rfl | rfl | rfl | rfl | rfl | rfl | rfl | rfl | rfl | rfl | rfl | rfl
    case inr.inl => exact .leap this
    all_goals first | exact .long (by omega) | exact .short (by omega)
  | false =>
    have := (leap_false y).mp hl
    rcases hm with rfl | rfl | rfl | rfl | rfl | rfl | rfl | rfl | rfl | rfl | rfl | rfl
    case inr.inl => exact .common this
    all_goals first | exact .long (by omega) | exact .short (by omega)

theorem isDate_iff (d : NaiveDate) : IsDate d ↔ 1 ≤ d.month ∧ d.month ≤ 12 ∧ 1 ≤ d.day ∧ d.day ≤ len (leapYear d.year) d.month := by
  constructor
  · rintro ⟨n, h, h1, h2⟩
    have := month_range h
    have := month_len h
    omega
  · rintro ⟨h1, h2, h3, h4⟩
    exact ⟨_, len_month _ h1 h2, h3, h4⟩

theorem cum_succ (l : Bool) : ∀ m, m < 12 → 1 ≤ m → cum l (m + 1) = cum l m + len l m := by
  cases l <;> decide

theorem cum_last (l : Bool) : cum l 12 + len l 12 = if l then 366 else 365 := by
  cases l <;> rfl

theorem cum_mono (l : Bool) : ∀ m, m < 13 → ∀ k, k < 13 → 1 ≤ m → m < k → cum l m + len l m ≤ cum l k := by
  cases l <;> decide

theorem ordinal_eq (d : NaiveDate) : d.ordinal = cum (leapYear d.year) d.month + d.day := rfl

theorem ordinal_le {d : NaiveDate} (h : IsDate d) : 1 ≤ d.ordinal ∧ d.ordinal ≤ if leapYear d.year then 366 else 365 := by
  obtain ⟨h1, h2, h3, h4⟩ := (isDate_iff d).mp h
  rw [ordinal_eq, ← cum_last]
  rcases Nat.lt_or_ge d.month 12 with hm | hm
  · have := cum_mono (leapYear d.year) d.month (by omega) 12 (by omega) h1 hm
    omega
  · have : d.month = 12 := by omega
    rw [this] at h4 ⊢
    omega

/-- The number of the last day of the year before. -/
def start (y : Int) : Int := (y - 1) * 365 + (y - 1) / 4 - (y - 1) / 100 + (y - 1) / 400

theorem num_eq (d : NaiveDate) : d.numDaysFromCe = start d.year + d.ordinal := rfl

theorem start_succ (y : Int) : start (y + 1) = start y + if leapYear y then 366 else 365 := by
  cases hl : leapYear y with
  | true =>
    have := (leap_iff y).mp hl
    simp only [Leap] at this
    simp only [start, if_true]
    omega
  | false =>
    have := (leap_false y).mp hl
    simp only [Leap] at this
    simp only [start, Bool.false_eq_true, if_false]
    omega

theorem start_mono {y z : Int} (h : y < z) : start (y + 1) ≤ start z := by
  unfold start; omega

theorem num_lt_of_year {d e : NaiveDate} (hd : IsDate d) (he : IsDate e) (h : d.year < e.year) : d.numDaysFromCe < e.numDaysFromCe := by
  have h1 := ordinal_le hd
  have h2 := ordinal_le he
  have h3 := start_mono h
  rw [start_succ] at h3
  rw [num_eq, num_eq]
  split at h3 <;> rename_i hl <;> simp only [hl] at h1 <;> simp at h1 <;> omega

theorem num_lt {d e : NaiveDate} (hd : IsDate d) (he : IsDate e) (h : Before d e) : d.numDaysFromCe < e.numDaysFromCe := by
  rcases h with h | ⟨hy, h⟩
  · exact num_lt_of_year hd he h
  · obtain ⟨a1, a2, a3, a4⟩ := (isDate_iff d).mp hd
    obtain ⟨b1, b2, b3, b4⟩ := (isDate_iff e).mp he
    rw [num_eq, num_eq, ordinal_eq, ordinal_eq, hy] at *
    rcases h with h | ⟨hm, h⟩
    · have := cum_mono (leapYear e.year) d.month (by omega) e.month (by omega) a1 h
      omega
    · rw [hm]; omega

theorem before_or (d e : NaiveDate) : Before d e ∨ d = e ∨ Before e d := by
  obtain ⟨y, m, x⟩ := d
  obtain ⟨y', m', x'⟩ := e
  simp only [Before, NaiveDate.mk.injEq]
  omega

theorem num_inj {d e : NaiveDate} (hd : IsDate d) (he : IsDate e) (h : d.numDaysFromCe = e.numDaysFromCe) : d = e := by
  rcases before_or d e with hb | hb | hb
  · have := num_lt hd he hb; omega
  · exact hb
  · have := num_lt he hd hb; omega

theorem before_iff {d e : NaiveDate} (hd : IsDate d) (he : IsDate e) : Before d e ↔ d.numDaysFromCe < e.numDaysFromCe := by
  refine ⟨num_lt hd he, fun h => ?_⟩
  rcases before_or d e with hb | hb | hb
  · exact hb
  · rw [hb] at h; omega
  · have := num_lt he hd hb; omega

theorem dayAfter_num {d e : NaiveDate} (h : DayAfter d e) : IsDate d ∧ IsDate e ∧ e.numDaysFromCe = d.numDaysFromCe + 1 := by
  cases h with
  | @day y m x n h hd hx =>
    refine ⟨⟨n, h, hd, by simp only; omega⟩, ⟨n, h, by simp only; omega, hx⟩, ?_⟩
    simp only [num_eq, ordinal_eq]; omega
  | @month y m x h hm =>
    have hr := month_range h
    have hl := month_len h
    refine ⟨⟨x, h, by cases h <;> simp, Nat.le_refl _⟩, (isDate_iff _).mpr ⟨by simp only; omega, by simp only; omega, Nat.le_refl _, ?_⟩, ?_⟩
    · have : ∀ l : Bool, ∀ m, m < 12 → 1 ≤ len l (m + 1) := by intro l; cases l <;> decide
      exact this _ m hm
    · simp only [num_eq, ordinal_eq]
      rw [cum_succ _ m hm hr.1]
      omega
  | @year y =>
    refine ⟨⟨31, .long (by simp), by simp, by simp⟩, ⟨31, .long (by simp), by simp, by simp⟩, ?_⟩
    simp only [num_eq, ordinal_eq]
    rw [start_succ]
    have h1 : ∀ l, cum l 12 = if l then 335 else 334 := by intro l; cases l <;> rfl
    have h2 : ∀ l, cum l 1 = 0 := by intro l; cases l <;> rfl
    rw [h1, h2]
    split <;> omega

theorem daysAfter_num {n : Nat} {d e : NaiveDate} (h : DaysAfter n d e) (hd : IsDate d) : IsDate e ∧ e.numDaysFromCe = d.numDaysFromCe + n := by
  induction h with
  | zero => exact ⟨hd, by simp⟩
  | succ _ hf ih =>
    obtain ⟨h1, h2⟩ := ih hd
    obtain ⟨-, h3, h4⟩ := dayAfter_num hf
    exact ⟨h3, by omega⟩

theorem daysAfter_from {n : Nat} {d e : NaiveDate} (h : DaysAfter n d e) (he : IsDate e) : IsDate d := by
  induction h with
  | zero => exact he
  | succ _ hf ih => exact ih (dayAfter_num hf).1

theorem distant_isDate {n : Int} {d e : NaiveDate} (h : Distant n d e) (hd : IsDate d) : IsDate e := by
  rcases h with ⟨k, rfl, hk⟩ | ⟨k, rfl, hk⟩
  · exact (daysAfter_num hk hd).1
  · exact daysAfter_from hk hd

theorem exists_dayAfter {d : NaiveDate} (h : IsDate d) : ∃ e, DayAfter d e := by
  obtain ⟨n, hm, h1, h2⟩ := h
  obtain ⟨y, m, x⟩ := d
  simp only at hm h1 h2
  rcases Nat.lt_or_ge x n with hx | hx
  · exact ⟨_, .day hm h1 hx⟩
  · obtain rfl : x = n := by omega
    rcases Nat.lt_or_ge m 12 with h | h
    · exact ⟨_, .month hm h⟩
    · have : m = 12 := by have := month_range hm; omega
      subst this
      obtain rfl : x = 31 := by cases hm <;> simp_all
      exact ⟨_, .year⟩

theorem exists_daysAfter {d : NaiveDate} (h : IsDate d) (n : Nat) : ∃ e, DaysAfter n d e := by
  induction n with
  | zero => exact ⟨_, .zero⟩
  | succ n ih =>
    obtain ⟨e, he⟩ := ih
    obtain ⟨f, hf⟩ := exists_dayAfter (daysAfter_num he h).1
    exact ⟨f, .succ he hf⟩

theorem daysAfter_iff {n : Nat} {d e : NaiveDate} (hd : IsDate d) (he : IsDate e) : DaysAfter n d e ↔ e.numDaysFromCe = d.numDaysFromCe + n := by
  refine ⟨fun h => (daysAfter_num h hd).2, fun h => ?_⟩
  obtain ⟨f, hf⟩ := exists_daysAfter hd n
  obtain ⟨h1, h2⟩ := daysAfter_num hf hd
  rwa [num_inj he h1 (by omega)]

theorem distant_iff {n : Int} {d e : NaiveDate} (hd : IsDate d) (he : IsDate e) : Distant n d e ↔ e.numDaysFromCe = d.numDaysFromCe + n := by
  simp only [Distant, daysAfter_iff hd he, daysAfter_iff he hd]
  constructor
  · rintro (⟨k, rfl, h⟩ | ⟨k, rfl, h⟩) <;> omega
  · intro h
    rcases Int.le_total 0 n with hn | hn
    · exact .inl ⟨n.toNat, by omega, by omega⟩
    · exact .inr ⟨(-n).toNat, by omega, by omega⟩

theorem monthOf_spec (l : Bool) : ∀ n, n < (if l then 366 else 365) →
    1 ≤ (monthOf l n).1 ∧ (monthOf l n).1 ≤ 12 ∧ 1 ≤ (monthOf l n).2 ∧ (monthOf l n).2 ≤ len l (monthOf l n).1 ∧
      cum l (monthOf l n).1 + (monthOf l n).2 = n + 1 := by
  cases l <;> decide +kernel

theorem ofDays_spec (n : Int) : IsDate (.ofDaysFromCe n) ∧ (NaiveDate.ofDaysFromCe n).numDaysFromCe = n := by
  let z := n - 1
  let q := z / 146097
  let r := (z % 146097).toNat
  let c := min (r / 36524) 3
  let r1 := r - c * 36524
  let f := r1 / 1461
  let r2 := r1 % 1461
  let g := min (r2 / 365) 3
  let y : Int := 400 * q + 100 * c + 4 * f + g + 1
  have e : NaiveDate.ofDaysFromCe n = ⟨y, (monthOf (leapYear y) (r2 - g * 365)).1, (monthOf (leapYear y) (r2 - g * 365)).2⟩ := rfl
  have hz : z = 146097 * q + r := by omega
  have hr : r < 146097 := by omega
  have hc : c ≤ 3 ∧ r1 = r - c * 36524 ∧ c * 36524 ≤ r ∧ (c < 3 → r1 < 36524) ∧ r1 ≤ 36524 := by omega
  have hf : r1 = 1461 * f + r2 ∧ r2 < 1461 ∧ f ≤ 24 := by omega
  have hg : g ≤ 3 ∧ g * 365 ≤ r2 ∧ (g < 3 → r2 - g * 365 < 365) ∧ r2 - g * 365 ≤ 365 := by omega
  have hy : y = 400 * q + 100 * c + 4 * f + g + 1 := rfl
  have hleap : leapYear y = true ↔ g = 3 ∧ (f ≠ 24 ∨ c = 3) := by
    rw [leap_iff, Leap]
    omega
  have hdoy : r2 - g * 365 < if leapYear y then 366 else 365 := by
    cases hl : leapYear y with
    | true => simp only [if_true]; omega
    | false =>
      have : ¬ (g = 3 ∧ (f ≠ 24 ∨ c = 3)) := by rw [← hleap]; simp [hl]
      simp only [Bool.false_eq_true, if_false]
      omega
  obtain ⟨m1, m2, m3, m4, m5⟩ := monthOf_spec (leapYear y) _ hdoy
  rw [e]
  refine ⟨(isDate_iff _).mpr ⟨m1, m2, m3, m4⟩, ?_⟩
  rw [num_eq, ordinal_eq]
  simp only
  rw [m5]
  have hs : start y = 146097 * q + 36524 * c + 1461 * f + 365 * g := by
    unfold start
    omega
  rw [hs]
  omega

theorem epoch_isDate : IsDate epoch := ⟨31, .long (by simp [epoch]), by simp [epoch], by simp [epoch]⟩

theorem epoch_num : epoch.numDaysFromCe = 719163 := by decide +kernel

theorem dateAfter_isDate (n : Int) : IsDate (dateAfter n) := (ofDays_spec _).1

theorem dateAfter_num (n : Int) : (dateAfter n).numDaysFromCe = 719163 + n := by
  rw [← epoch_num]; exact (ofDays_spec _).2

theorem dateAfter_distant (n : Int) : Distant n epoch (dateAfter n) := by
  rw [distant_iff epoch_isDate (dateAfter_isDate n), dateAfter_num, epoch_num]

theorem distant_stamp {n : Int} {d : NaiveDate} (hd : IsDate d) (h : Distant n epoch d) : d.stamp = n := by
  rw [distant_iff epoch_isDate hd, epoch_num] at h
  unfold NaiveDate.stamp; omega

theorem dateAfter_stamp {d : NaiveDate} (hd : IsDate d) : dateAfter d.stamp = d :=
  num_inj (dateAfter_isDate _) hd (by rw [dateAfter_num]; unfold NaiveDate.stamp; omega)

theorem chars1 {n : Nat} (h : n < 10) : natChars n = [decDigit n] := by rw [natChars, if_pos h]; rfl
theorem chars_next {n : Nat} (h : 10 ≤ n) : natChars n = natChars (n / 10) ++ [decDigit (n % 10)] := by rw [natChars, if_neg (by omega)]; rfl

theorem digits_two {n : Nat} (h : n < 100) : digits 2 n = [decDigit (n / 10), decDigit (n % 10)] := by
  unfold digits padLeft
  rcases Nat.lt_or_ge n 10 with h1 | h1
  · rw [chars1 h1, show n / 10 = 0 by omega, show n % 10 = n by omega]; rfl
  · rw [chars_next h1, chars1 (show n / 10 < 10 by omega)]; rfl

theorem digits_four {n : Nat} (h : n < 10000) :
    digits 4 n = [decDigit (n / 1000), decDigit (n / 100 % 10), decDigit (n / 10 % 10), decDigit (n % 10)] := by
  unfold digits padLeft
  rcases Nat.lt_or_ge n 10 with h1 | h1
  · rw [chars1 h1, show n / 1000 = 0 by omega, show n / 100 % 10 = 0 by omega, show n / 10 % 10 = 0 by omega, show n % 10 = n by omega]; rfl
  rw [chars_next h1]
  rcases Nat.lt_or_ge n 100 with h2 | h2
  · rw [chars1 (show n / 10 < 10 by omega), show n / 1000 = 0 by omega, show n / 100 % 10 = 0 by omega, show n / 10 % 10 = n / 10 by omega]; rfl
  rw [chars_next (show 10 ≤ n / 10 by omega)]
  rcases Nat.lt_or_ge n 1000 with h3 | h3
  · rw [chars1 (show n / 10 / 10 < 10 by omega), show n / 1000 = 0 by omega, show n / 100 % 10 = n / 10 / 10 by omega]; rfl
  rw [chars_next (show 10 ≤ n / 10 / 10 by omega), chars1 (show n / 10 / 10 / 10 < 10 by omega), show n / 10 / 10 / 10 = n / 1000 by omega,
    show n / 10 / 10 % 10 = n / 100 % 10 by omega]; rfl

theorem text_written {d : NaiveDate} (h1 : 0 ≤ d.year) (h2 : d.year < 10000) (hd : IsDate d) : Written d d.text := by
  obtain ⟨m1, m2, d1, d2⟩ := (isDate_iff d).mp hd
  have : ∀ l : Bool, ∀ m, m < 13 → len l m ≤ 31 := by intro l; cases l <;> decide
  have hx := this (leapYear d.year) d.month (by omega)
  obtain ⟨y, m, x⟩ := d
  simp only at h1 h2 m1 m2 d1 d2 hx
  obtain ⟨n, rfl⟩ := Int.eq_ofNat_of_zero_le h1
  have e : NaiveDate.text ⟨n, m, x⟩ = [decDigit (n / 1000), decDigit (n / 100 % 10), decDigit (n / 10 % 10), decDigit (n % 10), '-',
      decDigit (m / 10), decDigit (m % 10), '-', decDigit (x / 10), decDigit (x % 10)] := by
    unfold NaiveDate.text yearText
    rw [if_pos (by simp only; omega), digits_two (show m < 100 by omega), digits_two (show x < 100 by omega)]
    simp only [Int.toNat_natCast]
    rw [digits_four (by omega)]
    rfl
  rw [e]
  have := Written.mk (a := n / 1000) (b := n / 100 % 10) (c := n / 10 % 10) (d := n % 10) (e := m / 10) (f := m % 10) (g := x / 10) (h := x % 10)
    (by omega) (by omega) (by omega) (by omega) (by omega) (by omega) (by omega) (by omega)
  have e1 : (↑(n / 1000) * 1000 + ↑(n / 100 % 10) * 100 + ↑(n / 10 % 10) * 10 + ↑(n % 10) : Int) = n := by omega
  have e2 : m / 10 * 10 + m % 10 = m := by omega
  have e3 : x / 10 * 10 + x % 10 = x := by omega
  rw [e1, e2, e3] at this
  exact this

theorem clock_text {s : Nat} (h : s < 86400) : Clock s (clockText s) := by
  unfold clockText
  rw [digits_two (show s / 3600 < 100 by omega), digits_two (show s / 60 % 60 < 100 by omega), digits_two (show s % 60 < 100 by omega)]
  have := Clock.mk (a := s / 3600 / 10) (b := s / 3600 % 10) (c := s / 60 % 60 / 10) (d := s / 60 % 60 % 10) (e := s % 60 / 10) (f := s % 60 % 10)
    (by omega) (by omega) (by omega) (by omega) (by omega) (by omega)
  have e1 : (s / 3600 / 10 * 10 + s / 3600 % 10) * 3600 + (s / 60 % 60 / 10 * 10 + s / 60 % 60 % 10) * 60 + (s % 60 / 10 * 10 + s % 60 % 10) = s := by omega
  rw [e1] at this
  exact this

theorem decDigit_inj {a b : Nat} (ha : a < 10) (hb : b < 10) (h : decDigit a = decDigit b) : a = b := by
  have : ∀ a, a < 10 → ∀ b, b < 10 → decDigit a = decDigit b → a = b := by decide +kernel
  exact this a ha b hb h

theorem written_inj {d e : NaiveDate} {t : Str} (h1 : Written d t) (h2 : Written e t) : d = e := by
  cases h1 with
  | mk ha hb hc hd he hf hg hh =>
    generalize hq : [_, _, _, _, _, _, _, _, _, _] = q at h2
    cases h2 with
    | mk ha' hb' hc' hd' he' hf' hg' hh' =>
      simp only [List.cons.injEq, true_and, and_true] at hq
      obtain ⟨q1, q2, q3, q4, q5, q6, q7, q8⟩ := hq
      rw [decDigit_inj ha ha' q1, decDigit_inj hb hb' q2, decDigit_inj hc hc' q3, decDigit_inj hd hd' q4, decDigit_inj he he' q5, decDigit_inj hf hf' q6,
        decDigit_inj hg hg' q7, decDigit_inj hh hh' q8]

theorem clock_inj {s u : Nat} {t : Str} (h1 : Clock s t) (h2 : Clock u t) : s = u := by
  cases h1 with
  | mk ha hb hc hd he hf =>
    generalize hq : [_, _, _, _, _, _, _, _] = q at h2
    cases h2 with
    | mk ha' hb' hc' hd' he' hf' =>
      simp only [List.cons.injEq, true_and, and_true] at hq
      obtain ⟨q1, q2, q3, q4, q5, q6⟩ := hq
      rw [decDigit_inj (by omega) (by omega) q1, decDigit_inj hb hb' q2, decDigit_inj (by omega) (by omega) q3, decDigit_inj hd hd' q4,
        decDigit_inj (by omega) (by omega) q5, decDigit_inj hf hf' q6]

theorem written_length {d : NaiveDate} {t : Str} (h : Written d t) : t.length = 10 := by cases h; rfl

/-- Which years the days of four-digit years have. -/
theorem year_of_days {n : Int} (h1 : -719528 ≤ n) (h2 : n < 2932897) : 0 ≤ (dateAfter n).year ∧ (dateAfter n).year < 10000 := by
  have hn := dateAfter_num n
  have hd := dateAfter_isDate n
  have ho := ordinal_le hd
  rw [num_eq] at hn
  generalize (dateAfter n).year = y at *
  generalize (dateAfter n).ordinal = o at *
  have ho' : o ≤ 366 := by have := ho.2; split at this <;> omega
  unfold start at hn
  constructor
  · by_cases hy : 0 ≤ y
    · exact hy
    · exfalso
      have := start_mono (y := y) (z := 0) (by omega)
      rw [start_succ] at this
      have e0 : start 0 = -366 := by decide
      unfold start at this e0
      split at ho <;> rename_i hl <;> simp only [hl] at this <;> simp at this <;> omega
  · by_cases hy : y < 10000
    · exact hy
    · exfalso
      rcases Int.lt_or_eq_of_le (show (10000 : Int) ≤ y by omega) with hy' | hy'
      · omega
      · subst hy'; omega

end Calendar

end CH
