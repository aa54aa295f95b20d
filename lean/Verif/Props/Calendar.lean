import Verif.Lemmas.Calendar
import Verif.Props.From
import Verif.Props.Show

/-!
# Dates as calendar dates: C90
-/

namespace CH.Props

open CH CH.Spec CH.Calendar

/-- 2149-06-06, the last date a `Date` holds. -/
def lastDate : NaiveDate := ⟨2149, 6, 6⟩

theorem lastDate_isDate : IsDate lastDate := ⟨30, .short (by simp [lastDate]), by simp [lastDate], by simp [lastDate]⟩

theorem lastDate_after : DaysAfter 65535 epoch lastDate := (daysAfter_iff epoch_isDate lastDate_isDate).mpr (by decide +kernel)

/-- C90. The value made of the date `v` days after 1970-01-01 holds `v`, and the value `v` is read as that date, up to 2149-06-06. -/
theorem C90_value (d : NaiveDate) (v : Nat) (hv : v < 65536) (h : DaysAfter v epoch d) :
    d.toValue = .date v ∧ fromSql .date d.toValue = .ok (.date v) ∧ dateAfter v = d := by
  obtain ⟨hd, hn⟩ := daysAfter_num h epoch_isDate
  have hs : d.stamp = v := by rw [epoch_num] at hn; unfold NaiveDate.stamp; omega
  have hg : getDays (v : Int) = v := by unfold getDays; omega
  have : d.toValue = .date v := by unfold NaiveDate.toValue; rw [hs, hg]
  exact ⟨this, by rw [this]; rfl, by rw [← hs]; exact dateAfter_stamp hd⟩

/-- The first and the last date, and the 29th of February 2000. -/
example : DaysAfter 0 epoch ⟨1970, 1, 1⟩ ∧ DaysAfter 65535 epoch ⟨2149, 6, 6⟩ ∧ DaysAfter 11016 epoch ⟨2000, 2, 29⟩ := by
  refine ⟨.zero, lastDate_after, (daysAfter_iff epoch_isDate ?_).mpr (by decide +kernel)⟩
  exact ⟨29, .leap (.inr ⟨5, rfl⟩), by simp, by simp⟩

theorem in_range {d : NaiveDate} (hd : IsDate d) : (¬ Before d epoch ∧ ¬ Before lastDate d) ↔ 0 ≤ d.stamp ∧ d.stamp < 65536 := by
  rw [before_iff hd epoch_isDate, before_iff lastDate_isDate hd, epoch_num, show lastDate.numDaysFromCe = 784698 by decide +kernel]
  unfold NaiveDate.stamp
  omega

/-- C90. Dates from 1970-01-01 to 2149-06-06 put in a column are read back as the same dates, from the column and when it was sent
and received; iterating over it gives them too where the zone is not west of UTC. Missing: iteration west of UTC and other dates, both shown
to fail below. -/
theorem C90_column_partial {ds : List NaiveDate} (hl : ds.length < 2 ^ 56) (h : ∀ d ∈ ds, IsDate d ∧ ¬ Before d epoch ∧ ¬ Before lastDate d) :
    ∃ c, colOf .date (ds.map NaiveDate.stamp) = .ok c ∧
      (∀ (i : Nat) d, ds[i]? = some d → ∃ v r, c.at i = .ok v ∧ fromSql .date v = .ok (.date r) ∧ dateAfter r = d) ∧
      ∃ ws, c.save 0 ds.length = .ok ws ∧ ∀ (tz : Tz) (rest : Bytes), ∃ c',
        (Plan.date tz).load ds.length (ws ++ rest) = .ok c' rest ∧
        (∀ (i : Nat) d, ds[i]? = some d → ∃ v r, c'.at i = .ok v ∧ fromSql .date v = .ok (.date r) ∧ dateAfter r = d) ∧
        ∀ zones, East zones tz → ∃ ns : List Int, c'.iter zones .date = .ok ⟨ns.map .date, .done⟩ ∧ ns.map dateAfter = ds := by
  obtain ⟨c, h1, h2, ws, h3, h4⟩ := C28_partial (ds := ds.map NaiveDate.stamp) (by simpa using hl) (fun n hn => by
    obtain ⟨d, hd, rfl⟩ := List.mem_map.mp hn
    exact (in_range (h d hd).1).mp (h d hd).2)
  have conv : ∀ {P : Nat → Value → Nat → Prop}, (∀ (i : Nat) n, (ds.map NaiveDate.stamp)[i]? = some n → ∃ v r, P i v r ∧ (r : Int) = n) →
      ∀ (i : Nat) d, ds[i]? = some d → ∃ v r, P i v r ∧ dateAfter r = d := by
    intro P hP i d hd
    obtain ⟨v, r, g1, g2⟩ := hP i d.stamp (by rw [List.getElem?_map, hd]; rfl)
    exact ⟨v, r, g1, by rw [g2]; exact dateAfter_stamp (h d (List.mem_of_getElem? hd)).1⟩
  rw [List.length_map] at h3
  refine ⟨c, h1, fun i d hd => ?_, ws, h3, fun tz rest => ?_⟩
  · obtain ⟨v, r, g1, g2⟩ := conv (P := fun i v r => c.at i = .ok v ∧ fromSql .date v = .ok (.date r))
      (fun i n hn => by obtain ⟨v, r, a, b, e⟩ := h2 i n hn; exact ⟨v, r, ⟨a, b⟩, e⟩) i d hd
    exact ⟨v, r, g1.1, g1.2, g2⟩
  · obtain ⟨c', k1, k2, k3⟩ := h4 tz rest
    rw [List.length_map] at k1
    refine ⟨c', k1, fun i d hd => ?_, fun zones hz => ⟨_, k3 zones hz, ?_⟩⟩
    · obtain ⟨v, r, g1, g2⟩ := conv (P := fun i v r => c'.at i = .ok v ∧ fromSql .date v = .ok (.date r))
        (fun i n hn => by obtain ⟨v, r, a, b, e⟩ := k2 i n hn; exact ⟨v, r, ⟨a, b⟩, e⟩) i d hd
      exact ⟨v, r, g1.1, g1.2, g2⟩
    · rw [List.map_map]
      conv => rhs; rw [← List.map_id ds]
      exact List.map_congr_left fun d hd => dateAfter_stamp (h d hd).1

example : ∀ d ∈ [epoch, lastDate], IsDate d ∧ ¬ Before d epoch ∧ ¬ Before lastDate d := by
  simp only [List.mem_cons, List.not_mem_nil, or_false, forall_eq_or_imp, forall_eq]
  exact ⟨⟨epoch_isDate, by simp [Before], by simp [Before, epoch, lastDate]⟩, lastDate_isDate, by simp [Before, epoch, lastDate], by simp [Before]⟩

/-- C90. West of UTC every date is iterated as the day before it. -/
theorem C90_west_violated (zones : Zones) (tz : Tz) (h : ∀ s, -86400 < zones tz s ∧ zones tz s < 0) (d : NaiveDate) (v : Nat) (hv : v < 65536)
    (hd : DaysAfter v epoch d) :
    ∃ n, (Col.date tz [getDays d.stamp]).iter zones .date = .ok ⟨[.date n], .done⟩ ∧ DayAfter (dateAfter n) d := by
  have h1 := C90_value d v hv hd
  have e : getDays d.stamp = v := by
    have := h1.1
    unfold NaiveDate.toValue at this
    injection this
  rw [e]
  obtain ⟨hdd, hn⟩ := daysAfter_num hd epoch_isDate
  refine ⟨_, (C28_west_violated zones tz h v).2, ?_⟩
  have : DaysAfter 1 (dateAfter ((v : Int) - 1)) d := by
    rw [daysAfter_iff (dateAfter_isDate _) hdd, dateAfter_num, hn, epoch_num]
    omega
  cases this with
  | succ h hf => cases h; exact hf

example : (∀ s, -86400 < (fun _ _ => -18000 : Zones) [] s ∧ (fun _ _ => -18000 : Zones) [] s < 0) ∧ DaysAfter 0 epoch epoch := ⟨by simp, .zero⟩

/-- C90. Every date before 1970-01-01 or after 2149-06-06 is silently replaced by another date. -/
theorem C90_range_violated (d : NaiveDate) (hd : IsDate d) (h : Before d epoch ∨ Before lastDate d) :
    ∃ r, fromSql .date d.toValue = .ok (.date r) ∧ dateAfter r ≠ d := by
  refine ⟨getDays d.stamp, rfl, fun e => ?_⟩
  have h1 := dateAfter_num (getDays d.stamp)
  rw [e] at h1
  have h2 : ¬ (0 ≤ d.stamp ∧ d.stamp < 65536) := fun h' => h.elim ((in_range hd).mpr h').1 ((in_range hd).mpr h').2
  unfold NaiveDate.stamp at *
  unfold getDays at h1
  omega

example : IsDate ⟨1969, 12, 31⟩ ∧ Before ⟨1969, 12, 31⟩ epoch ∧ IsDate ⟨2149, 6, 7⟩ ∧ Before lastDate ⟨2149, 6, 7⟩ :=
  ⟨⟨31, .long (by simp), by simp, by simp⟩, by simp [Before, epoch], ⟨30, .short (by simp), by simp, by simp⟩, by simp [Before, lastDate]⟩

/-- C90. The numbers stored are in the order of the dates. -/
theorem C90_order (d e : NaiveDate) (v w : Nat) (hv : v < 65536) (hw : w < 65536) (hd : DaysAfter v epoch d) (he : DaysAfter w epoch e) :
    Before d e ↔ getDays d.stamp < getDays e.stamp := by
  have h1 := (C90_value d v hv hd).1
  have h2 := (C90_value e w hw he).1
  unfold NaiveDate.toValue at h1 h2
  injection h1 with h1
  injection h2 with h2
  rw [h1, h2]
  obtain ⟨d1, d2⟩ := daysAfter_num hd epoch_isDate
  obtain ⟨e1, e2⟩ := daysAfter_num he epoch_isDate
  rw [before_iff d1 e1]
  omega

example : DaysAfter 0 epoch epoch ∧ DaysAfter 65535 epoch lastDate ∧ Before epoch lastDate := ⟨.zero, lastDate_after, by simp [Before, epoch, lastDate]⟩

/-- C90. The text of a date, of owned and borrowed values, plain and alternate, is its year, month and day with four, two and two digits;
so different dates have different texts. -/
theorem C90_text (lib : TextLib) (hlib : lib.day = dayText) (alt : Bool) (v : Nat) (hv : v < 65536) :
    ∃ d t, DaysAfter v epoch d ∧ Written d t ∧ ownText lib alt (.date v) = .ok t ∧ refText lib alt (.date v) = .ok t := by
  have hd := dateAfter_isDate v
  have hy := year_of_days (n := v) (by omega) (by omega)
  refine ⟨dateAfter v, dayText v, (daysAfter_iff epoch_isDate hd).mpr (by rw [dateAfter_num, epoch_num]), text_written hy.1 hy.2 hd, ?_, ?_⟩
  · rw [ownText, hlib]
  · rw [refText, hlib]

/-- C90. Texts of dates tell them apart. -/
theorem C90_text_inj (lib : TextLib) (hlib : lib.day = dayText) (alt : Bool) (v w : Nat) (hv : v < 65536) (hw : w < 65536)
    (h : ownText lib alt (.date v) = ownText lib alt (.date w)) : v = w := by
  obtain ⟨d, t, a1, a2, a3, -⟩ := C90_text lib hlib alt v hv
  obtain ⟨e, u, b1, b2, b3, -⟩ := C90_text lib hlib alt w hw
  rw [a3, b3] at h
  injection h with h
  subst h
  obtain rfl := written_inj a2 b2
  have := (daysAfter_num a1 epoch_isDate).2
  have := (daysAfter_num b1 epoch_isDate).2
  omega

example : { plainLib with day := dayText }.day = dayText ∧ ownText { plainLib with day := dayText } false (.date 11016) = .ok "2000-02-29".toList :=
  ⟨rfl, by
    have h : dayText 11016 = "2000-02-29".toList := by decide +kernel
    rw [ownText]; exact congrArg Out.ok h⟩

/-- C90. The text of a borrowed `DateTime` is the date and the time of day that clocks of its zone show at that instant. -/
theorem C90_clock (lib : TextLib) (zones : Zones) (hlib : lib.stamp = stampText zones) (s : Nat) (tz : Tz) (hs : s < 2 ^ 32)
    (hz : -86400 < zones tz s ∧ zones tz s < 86400) :
    ∃ n d c date clock, Distant n epoch d ∧ Written d date ∧ Clock c clock ∧ n * 86400 + c = s + zones tz s ∧
      refText lib false (.datetime s tz) = .ok (date ++ ' ' :: clock) := by
  have hy := year_of_days (n := (s + zones tz s) / 86400) (by omega) (by omega)
  refine ⟨(s + zones tz s) / 86400, dateAfter ((s + zones tz s) / 86400), ((s + zones tz s) % 86400).toNat, _, _, dateAfter_distant _,
    text_written hy.1 hy.2 (dateAfter_isDate _), clock_text (by omega), by omega, ?_⟩
  rw [refText, hlib]
  rfl

/-- Half an hour past midnight of 1970-01-01 UTC, five hours west. -/
example : (-86400 < (fun _ _ => -18000 : Zones) [] 1800 ∧ (fun _ _ => -18000 : Zones) [] 1800 < 86400) ∧
    refText { plainLib with stamp := stampText (fun _ _ => -18000) } false (.datetime 1800 []) = .ok "1969-12-31 19:30:00".toList :=
  ⟨by simp, by
    have h : stampText (fun _ _ => -18000) 1800 0 [] = "1969-12-31 19:30:00".toList := by decide +kernel
    rw [refText]; exact congrArg Out.ok h⟩

/-- C90. Two such texts are equal only if the clocks showed the same: the same date and time of day. -/
theorem C90_clock_inj (lib : TextLib) (zones : Zones) (hlib : lib.stamp = stampText zones) (s u : Nat) (tz tz' : Tz) (hs : s < 2 ^ 32)
    (hu : u < 2 ^ 32) (hz : -86400 < zones tz s ∧ zones tz s < 86400) (hz' : -86400 < zones tz' u ∧ zones tz' u < 86400)
    (h : refText lib false (.datetime s tz) = refText lib false (.datetime u tz')) : (s : Int) + zones tz s = u + zones tz' u := by
  obtain ⟨n, d, c, date, clock, a1, a2, a3, a4, a5⟩ := C90_clock lib zones hlib s tz hs hz
  obtain ⟨n', d', c', date', clock', b1, b2, b3, b4, b5⟩ := C90_clock lib zones hlib u tz' hu hz'
  rw [a5, b5] at h
  injection h with h
  obtain ⟨e1, e2⟩ := List.append_inj h (by rw [written_length a2, written_length b2])
  injection e2 with _ e2
  subst e1 e2
  obtain rfl := written_inj a2 b2
  obtain rfl := clock_inj a3 b3
  have hd := distant_isDate a1 epoch_isDate
  have := (distant_iff epoch_isDate hd).mp a1
  have := (distant_iff epoch_isDate hd).mp b1
  omega

/-- Times that do not panic fit 64 bits in nanoseconds. -/
theorem toDatetime_range {v : Int} {p : Nat} {s : Int} {f : Nat} (ht : toDatetime v p = .ok (s, f)) : -9223372037 ≤ s ∧ s ≤ 9223372037 := by
  have key : ∀ x : Int, -(2 ^ 63) ≤ x → x ≤ 2 ^ 63 - 1 → (if x - Int.tdiv x 1000000000 * 1000000000 < 0 then Out.panic
      else Out.ok (Int.tdiv x 1000000000, (x - Int.tdiv x 1000000000 * 1000000000).toNat)) = .ok (s, f) → -9223372037 ≤ s ∧ s ≤ 9223372037 := by
    intro x h1 h2 h
    split at h
    · cases h
    · injection h with h
      injection h with h _
      subst h
      by_cases hx : 0 ≤ x
      · rw [Int.tdiv_eq_ediv_of_nonneg hx]; omega
      · have : Int.tdiv x 1000000000 = -((-x) / 1000000000) := by
          rw [← Int.tdiv_eq_ediv_of_nonneg (by omega), Int.neg_tdiv, Int.neg_neg]
        omega
  unfold toDatetime at ht
  split at ht
  · split at ht
    · obtain ⟨x, hx, h⟩ := out_bind_ok.mp ht
      have hb : -(2 ^ 63) ≤ x ∧ x ≤ 2 ^ 63 - 1 := by
        unfold checkI64 at hx
        split at hx
        · cases hx; simp only [i64Min, i64Max] at *; omega
        · cases hx
      exact key x hb.1 hb.2 h
    · cases ht
  · exact key 0 (by decide) (by decide) ht

/-- C90. The same for every borrowed `DateTime64` that has a text at all; the fraction is not shown. -/
theorem C90_clock64 (lib : TextLib) (zones : Zones) (hlib : lib.stamp = stampText zones) (v : Int) (p : Nat) (tz : Tz) (s : Int) (f : Nat)
    (ht : toDatetime v p = .ok (s, f)) (hz : -86400 < zones tz s ∧ zones tz s < 86400) :
    ∃ n d c date clock, Distant n epoch d ∧ Written d date ∧ Clock c clock ∧ n * 86400 + c = s + zones tz s ∧
      refText lib false (.dt64 v p tz) = .ok (date ++ ' ' :: clock) := by
  have hr := toDatetime_range ht
  have hy := year_of_days (n := (s + zones tz s) / 86400) (by omega) (by omega)
  refine ⟨(s + zones tz s) / 86400, dateAfter ((s + zones tz s) / 86400), ((s + zones tz s) % 86400).toNat, _, _, dateAfter_distant _,
    text_written hy.1 hy.2 (dateAfter_isDate _), clock_text (by omega), by omega, ?_⟩
  rw [refText, ht, hlib]
  rfl

/-- A time before 1970 with a precision of seconds, and the last one. -/
example : toDatetime (-1) 0 = .ok (-1, 0) ∧ stampText (fun _ _ => 0) (-1) 0 [] = "1969-12-31 23:59:59".toList ∧
    toDatetime (2 ^ 63 - 1) 9 = .ok (9223372036, 854775807) ∧ stampText (fun _ _ => 0) 9223372036 0 [] = "2262-04-11 23:47:16".toList := by
  refine ⟨by decide +kernel, by decide +kernel, by decide +kernel, by decide +kernel⟩

end CH.Props
