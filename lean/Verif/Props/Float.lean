import Verif.Lemmas.Float

/-! C94: decimals from floating-point numbers and back. -/

namespace CH.Props
open CH CH.Spec CH.Float

theorem tdiv_cut (v D : Int) (hD : 0 < D) :
    (0 ≤ v → Int.tdiv v D * D ≤ v ∧ v < (Int.tdiv v D + 1) * D) ∧ (v ≤ 0 → v ≤ Int.tdiv v D * D ∧ (Int.tdiv v D - 1) * D < v) := by
  constructor
  · intro h0
    rw [Int.tdiv_eq_ediv_of_nonneg h0]
    have h1 := Int.mul_ediv_add_emod v D
    have h2 := Int.emod_nonneg v (b := D) (by omega)
    have h3 := Int.emod_lt_of_pos v hD
    rw [Int.add_mul, Int.one_mul, Int.mul_comm (v / D) D]
    omega
  · intro h
    have h0 : 0 ≤ -v := by omega
    have e : Int.tdiv v D = -(-v / D) := by
      rw [← Int.tdiv_eq_ediv_of_nonneg h0, Int.neg_tdiv, Int.neg_neg]
    rw [e]
    have h1 := Int.mul_ediv_add_emod (-v) D
    have h2 := Int.emod_nonneg (-v) (b := D) (by omega)
    have h3 := Int.emod_lt_of_pos (-v) hD
    rw [Int.sub_mul, Int.one_mul, Int.neg_mul, Int.mul_comm (-v / D) D]
    omega

theorem pow_cast (k : Nat) : ((2 ^ k : Nat) : Int) = (2 : Int) ^ k := by simp

theorem pow_pos' (k : Nat) : (0 : Int) < (2 : Int) ^ k := Int.pow_pos (by decide)

theorem cutOff_tdiv (m : Int) (s k : Nat) : CutOff (Int.tdiv (m * 10 ^ s) (2 ^ k : Nat)) s m k := by
  rw [pow_cast]
  have ht : (0 : Int) < (10 : Int) ^ s := Int.pow_pos (by decide)
  obtain ⟨h1, h2⟩ := tdiv_cut (m * 10 ^ s) _ (pow_pos' k)
  refine ⟨fun h => h1 (Int.mul_nonneg h (by omega)), fun h => h2 ?_⟩
  have := Int.mul_nonneg (a := -m) (by omega) (Int.le_of_lt ht)
  rw [Int.neg_mul] at this
  omega

/-- Truncation stays within bounds that are whole numbers. -/
theorem tdiv_bounds {v D a b : Int} (hD : 0 < D) (ha : a ≤ 0) (hb : 0 ≤ b) (h1 : a * D ≤ v) (h2 : v < (b + 1) * D) :
    a ≤ Int.tdiv v D ∧ Int.tdiv v D ≤ b := by
  obtain ⟨c1, c2⟩ := tdiv_cut v D hD
  by_cases h : 0 ≤ v
  · obtain ⟨d1, d2⟩ := c1 h
    have e1 : -1 < Int.tdiv v D := by
      have : (0 : Int) * D < (Int.tdiv v D + 1) * D := by omega
      have := Int.lt_of_mul_lt_mul_right this (Int.le_of_lt hD)
      omega
    have e2 := Int.lt_of_mul_lt_mul_right (Int.lt_of_le_of_lt d1 h2) (Int.le_of_lt hD)
    omega
  · obtain ⟨d1, d2⟩ := c2 (by omega)
    have e1 : Int.tdiv v D - 1 < 0 := by
      have : (Int.tdiv v D - 1) * D < 0 * D := by omega
      exact Int.lt_of_mul_lt_mul_right this (Int.le_of_lt hD)
    have e2 := Int.le_of_mul_le_mul_right (Int.le_trans h1 d1) hD
    omega

/-- The factors: every power of ten of the table is a `f64`. -/
theorem ten_significant (s : Nat) (h : s ≤ 18) : Significant 53 (10 ^ s) := by
  refine ⟨5 ^ s, s, ?_, ?_⟩
  · rw [← Nat.mul_pow]
  · have : 5 ^ s ≤ 5 ^ 18 := Nat.pow_le_pow_right (by decide) h
    omega

theorem satI64_id {t : Int} (h1 : -(2 ^ 63) ≤ t) (h2 : t ≤ 10 ^ 18) : satI64 t = t := by
  have e1 : i64Min = -(2 ^ 63) := rfl
  have e2 : i64Max = 2 ^ 63 - 1 := rfl
  rw [satI64, if_neg (by omega), if_neg (by omega)]

theorem satI64_low {t : Int} (h1 : t ≤ -(2 ^ 63)) : satI64 t = -(2 ^ 63) := by
  have e1 : i64Min = -(2 ^ 63) := rfl
  have e2 : i64Max = 2 ^ 63 - 1 := rfl
  rw [satI64]
  split
  · rfl
  · rw [if_neg (by omega)]; omega

theorem satI64_inside {t : Int} (h1 : -(2 ^ 63) < satI64 t) (h2 : satI64 t ≤ 10 ^ 18) : satI64 t = t := by
  have e1 : i64Min = -(2 ^ 63) := rfl
  have e2 : i64Max = 2 ^ 63 - 1 := rfl
  rw [satI64] at *
  split at *
  · omega
  · split at * <;> omega

theorem ofFlt_eq (p : Nat) (x : Flt) (s : Nat) (hs : s ≤ 18) :
    Decimal.ofFlt p x s = if x.scaleBy p (10 ^ s) > 10 ^ 18 then .panic else .ok ⟨x.scaleBy p (10 ^ s), .n64, 18, s⟩ := by
  rw [Decimal.ofFlt, if_neg (by omega), factor10, if_pos hs]
  rfl

theorem scaleBy_eq {p : Nat} {m : Int} {k s : Nat} (hf : Significant p (10 ^ s)) :
    Flt.scaleBy p (.fin m k) (10 ^ s) = satI64 (Int.tdiv (roundInt p (m * 10 ^ s)) (2 ^ k)) := by
  have hf' : roundInt p (10 ^ s) = 10 ^ s := roundInt_exact (by simpa [Int.natAbs_pow] using hf)
  rw [Flt.scaleBy, hf', Flt.mulFin, Flt.asI64, pow_cast]

/-- C94: the roundings are those of IEEE 754 for the conversions of integers and the products: the result is a number of the type,
no number of the type is closer, and if another is as close the last bit of the result is 0. -/
theorem C94_rounding (p : Nat) (hp : 1 < p) (v : Int) : Significant p (roundInt p v).natAbs ∧
    ∀ m : Int, Significant p m.natAbs → (roundInt p v - v).natAbs ≤ (m - v).natAbs ∧
      (m ≠ roundInt p v → (m - v).natAbs = (roundInt p v - v).natAbs → Significant (p - 1) (roundInt p v).natAbs) := by
  rw [roundInt_natAbs]
  refine ⟨roundNat_significant p _ (by omega), fun m hm => ?_⟩
  have h0 := (roundNat_best p v.natAbs 0 (by omega) ⟨0, 0, rfl, Nat.two_pow_pos _⟩).1
  have h1 := (roundNat_best p v.natAbs m.natAbs (by omega) hm).1
  have h2 := roundNat_shorter p v.natAbs m.natAbs hp hm
  have h3 := roundInt_natAbs p v
  have h4 : (v < 0 → roundInt p v ≤ 0) ∧ (0 ≤ v → 0 ≤ roundInt p v) := by
    simp only [roundInt]; constructor <;> intro h <;> split <;> omega
  simp only [dist] at h0 h1 h2
  generalize roundInt p v = r at *
  generalize roundNat p v.natAbs = q at *
  constructor
  · omega
  · intro h5 h6
    refine h2 ?_ ?_ <;> omega

-- 5 is halfway between 4 and 6, 7 between 6 and 8
example : roundInt 2 5 = 4 ∧ roundInt 2 (-7) = -8 ∧ (4 - 5 : Int).natAbs = (6 - 5 : Int).natAbs ∧ Significant 2 6 :=
  ⟨by decide +kernel, by decide +kernel, by decide, ⟨3, 1, rfl, by decide⟩⟩

/-- C94. A decimal made from a floating-point number is that number with the digits beyond the scale cut off, if the factor and the
product are numbers of the type. (`_partial`: otherwise the product is rounded before the digits are cut off; see
`C94_error` and `C94_of_violated`. Numbers below the range are not refused, `C94_negative_violated`.) -/
theorem C94_of_partial (p : Nat) (m : Int) (k s : Nat) (hs : s ≤ 18) (hf : Significant p (10 ^ s))
    (hm : Significant p (m * 10 ^ s).natAbs) (h1 : -(2 ^ 63) * 2 ^ k ≤ m * 10 ^ s) (h2 : m * 10 ^ s < (10 ^ 18 + 1) * 2 ^ k) :
    ∃ u, Decimal.ofFlt p (.fin m k) s = .ok ⟨u, .n64, 18, s⟩ ∧ CutOff u s m k := by
  refine ⟨Int.tdiv (m * 10 ^ s) (2 ^ k : Nat), ?_, cutOff_tdiv m s k⟩
  have hb := tdiv_bounds (a := -(2 ^ 63)) (b := 10 ^ 18) (pow_pos' k) (by decide) (by decide) h1 h2
  rw [ofFlt_eq p _ s hs, scaleBy_eq hf, roundInt_exact hm, satI64_id hb.1 hb.2, if_neg (by omega), pow_cast]

-- -2.625 at scale 2: -2.62
example : Decimal.ofFlt 53 (.fin (-21) 3) 2 = .ok ⟨-262, .n64, 18, 2⟩ := by decide +kernel
example : ∃ u, Decimal.ofFlt 53 (.fin (-21) 3) 2 = .ok ⟨u, .n64, 18, 2⟩ ∧ CutOff u 2 (-21) 3 :=
  C94_of_partial 53 (-21) 3 2 (by decide) (ten_significant 2 (by decide)) ⟨2100, 0, by decide, by decide⟩ (by decide) (by decide)

/-- C94: a number of more than `10^18` units is refused (by a panic) whenever its product with the factor has at most `p` significant bits. -/
theorem C94_refused (p : Nat) (m : Int) (k s : Nat) (hs : s ≤ 18) (hf : Significant p (10 ^ s))
    (hm : Significant p (m * 10 ^ s).natAbs) (h : (10 ^ 18 + 1) * 2 ^ k ≤ m * 10 ^ s) : Decimal.ofFlt p (.fin m k) s = .panic := by
  obtain ⟨c1, -⟩ := tdiv_cut (m * 10 ^ s) (2 ^ k) (pow_pos' k)
  have hk := pow_pos' k
  obtain ⟨d1, d2⟩ := c1 (by omega)
  have h3 := Int.lt_of_mul_lt_mul_right (Int.lt_of_le_of_lt h d2) (Int.le_of_lt hk)
  have e1 : i64Min = -(2 ^ 63) := rfl
  have e2 : i64Max = 2 ^ 63 - 1 := rfl
  rw [ofFlt_eq p _ s hs, scaleBy_eq hf, roundInt_exact hm, if_pos]
  rw [satI64, if_neg (by omega)]
  split <;> omega

example : Decimal.ofFlt 53 (.fin (2 ^ 60) 0) 0 = .panic := by decide +kernel
example : Decimal.ofFlt 53 (.fin (2 ^ 60) 0) 0 = .panic :=
  C94_refused 53 (2 ^ 60) 0 0 (by decide) (ten_significant 0 (by decide)) ⟨1, 60, by decide, by decide⟩ (by decide)

/-- C94, for any number: what comes out differs from it by less than one unit of the last digit, and what the rounding of the product
to `p` bits adds. -/
theorem C94_error (p : Nat) (m : Int) (k s : Nat) (d : Decimal) (hf : Significant p (10 ^ s))
    (h : Decimal.ofFlt p (.fin m k) s = .ok d) (hd : -(2 ^ 63) < d.underlying) :
    d.scale = s ∧ (d.underlying * 2 ^ k - m * 10 ^ s).natAbs * 2 ^ p < 2 ^ k * 2 ^ p + (m * 10 ^ s).natAbs := by
  have hs : s ≤ 18 := by
    rw [Decimal.ofFlt] at h
    split at h
    · cases h
    · omega
  rw [ofFlt_eq p _ s hs, scaleBy_eq hf] at h
  split at h
  · cases h
  · next hn =>
    cases h
    refine ⟨rfl, ?_⟩
    dsimp only at hd ⊢
    rw [satI64_inside hd (by omega)]
    generalize m * 10 ^ s = M
    have h1 := roundInt_err p M
    obtain ⟨c1, c2⟩ := tdiv_cut (roundInt p M) (2 ^ k) (pow_pos' k)
    rw [Int.add_mul, Int.one_mul] at c1
    rw [Int.sub_mul, Int.one_mul] at c2
    generalize roundInt p M = v at *
    generalize Int.tdiv v (2 ^ k) * 2 ^ k = w at *
    have hk := pow_cast k
    have h3 : (w - v).natAbs + 1 ≤ 2 ^ k := by omega
    have h2 : (w - M).natAbs ≤ (w - v).natAbs + (v - M).natAbs := by omega
    have hP := Nat.two_pow_pos p
    generalize 2 ^ p = P at *
    have g1 := Nat.mul_le_mul_right P h2
    have g2 := Nat.mul_le_mul_right P h3
    rw [Nat.add_mul] at g1 g2
    omega

-- 0.29 at scale 2
example : ∃ d, Decimal.ofFlt 53 (.fin 5224175567749775 54) 2 = .ok d ∧ -(2 ^ 63) < d.underlying ∧ d.underlying = 28 :=
  ⟨⟨28, .n64, 18, 2⟩, by decide +kernel, by decide, rfl⟩
example (d : Decimal) (h : Decimal.ofFlt 53 (.fin 5224175567749775 54) 2 = .ok d) (hd : -(2 ^ 63) < d.underlying) : d.scale = 2 :=
  (C94_error 53 _ 54 2 d (ten_significant 2 (by decide)) h hd).1

/-- C94 is violated: `Decimal::of(0.29, 2)` is 0.28. The double nearest to 0.29 is less than 0.29, its product with 100 is rounded
to the largest double below 29, and that is cut off. -/
theorem C94_of_violated : (5224175567749775 * 100 - 29 * 2 ^ 54 : Int).natAbs * 2 < 100 ∧ 2 ^ 52 ≤ 5224175567749775 ∧
    5224175567749775 < 2 ^ 53 ∧ Decimal.ofFlt 53 (.fin 5224175567749775 54) 2 = .ok ⟨28, .n64, 18, 2⟩ := by
  refine ⟨by decide, by decide, by decide, by decide +kernel⟩

-- `C94_of_violated`: the same holds of 0.57 and 0.58, and of no other of the hundredths below 1; here 0.30 is as it should be
example : Decimal.ofFlt 53 (.fin 5404319552844595 54) 2 = .ok ⟨30, .n64, 18, 2⟩ := by decide +kernel

/-- C94 is violated for `f32` already by whole numbers: the factors from `10^11` on are not `f32` numbers. -/
theorem C94_single_violated : Decimal.ofFlt 24 (.fin 1 0) 11 = .ok ⟨99999997952, .n64, 18, 11⟩ := by decide +kernel

-- `C94_single_violated`: with `f64` it is as it should be
example : Decimal.ofFlt 53 (.fin 1 0) 11 = .ok ⟨10 ^ 11, .n64, 18, 11⟩ := by decide +kernel

/-- C94 is violated by numbers that are too low: they are not refused, as those too high are, but all become the same decimal. -/
theorem C94_negative_violated (p : Nat) (m : Int) (k s : Nat) (hs : s ≤ 18) (hf : Significant p (10 ^ s))
    (hm : Significant p (m * 10 ^ s).natAbs) (h : m * 10 ^ s < -(2 ^ 63) * 2 ^ k) :
    Decimal.ofFlt p (.fin m k) s = .ok ⟨-(2 ^ 63), .n64, 18, s⟩ := by
  obtain ⟨-, c2⟩ := tdiv_cut (m * 10 ^ s) (2 ^ k) (pow_pos' k)
  have hk := pow_pos' k
  obtain ⟨d1, d2⟩ := c2 (by omega)
  have := Int.lt_of_mul_lt_mul_right (Int.lt_trans d2 h) (Int.le_of_lt hk)
  rw [ofFlt_eq p _ s hs, scaleBy_eq hf, roundInt_exact hm, satI64_low (by omega), if_neg (by decide)]

-- -2^70
example : Decimal.ofFlt 53 (.fin (-(2 ^ 70)) 0) 0 = .ok ⟨-(2 ^ 63), .n64, 18, 0⟩ :=
  C94_negative_violated 53 _ 0 0 (by decide) (ten_significant 0 (by decide)) ⟨1, 70, by decide, by decide⟩ (by decide)

/-- C94 is violated by what is not a number: it becomes 0. -/
theorem C94_nan_violated (p s : Nat) (hs : s ≤ 18) : Decimal.ofFlt p .nan s = .ok ⟨0, .n64, 18, s⟩ := by
  rw [ofFlt_eq p _ s hs]
  rfl

-- `C94_nan_violated`, and the infinities
example : Decimal.ofFlt 53 .nan 4 = .ok ⟨0, .n64, 18, 4⟩ := C94_nan_violated 53 4 (by decide)
example : Decimal.ofFlt 53 (.inf false) 4 = .panic ∧ Decimal.ofFlt 53 (.inf true) 4 = .ok ⟨-(2 ^ 63), .n64, 18, 4⟩ := by
  constructor <;> decide +kernel

theorem toFlt_eq (p : Nat) (u : Int) (nb : NoBits) (pr s : Nat) (hs : s ≤ 18) (hf : Significant p (10 ^ s)) (hu : Significant p u.natAbs) :
    Decimal.toFlt p ⟨u, nb, pr, s⟩ = .ok (.fin (if u < 0 then -(divNat p u.natAbs (10 ^ s) : Int) else divNat p u.natAbs (10 ^ s))
      (p + 1 + Nat.log2 (10 ^ s))) := by
  have hf' : roundInt p (10 ^ s) = 10 ^ s := roundInt_exact (by simpa [Int.natAbs_pow] using hf)
  have e : Decimal.toFlt p ⟨u, nb, pr, s⟩ = .ok (.fin (if roundInt p u < 0 then -(divNat p (roundInt p u).natAbs (roundInt p (10 ^ s)).natAbs : Int)
      else divNat p (roundInt p u).natAbs (roundInt p (10 ^ s)).natAbs) (p + 1 + Nat.log2 (roundInt p (10 ^ s)).natAbs)) := by
    rw [Decimal.toFlt, factor10, if_pos hs]; rfl
  have e10 : ((10 : Int) ^ s).natAbs = 10 ^ s := by simp [Int.natAbs_pow]
  rw [e, hf', roundInt_exact hu, e10]

/-- C94, the way back: a decimal whose digits the type can hold becomes a number that differs from it by at most one part in `2^p`. -/
theorem C94_back (p : Nat) (hp : 0 < p) (u : Int) (nb : NoBits) (pr s : Nat) (hs : s ≤ 18) (hf : Significant p (10 ^ s))
    (hu : Significant p u.natAbs) :
    ∃ m k, Decimal.toFlt p ⟨u, nb, pr, s⟩ = .ok (.fin m k) ∧ Within p m k u (10 ^ s) := by
  refine ⟨_, _, toFlt_eq p u nb pr s hs hf hu, ?_⟩
  have h := divNat_err p u.natAbs (10 ^ s) hp (Nat.pow_pos (by decide))
  simp only [Within]
  generalize divNat p u.natAbs (10 ^ s) = q at *
  generalize p + 1 + Nat.log2 (10 ^ s) = t at *
  split
  · next hn =>
    have : ((-(q : Int)) * (10 ^ s : Nat) - u * 2 ^ t).natAbs = ((q : Int) * (10 ^ s : Nat) - (u.natAbs : Int) * 2 ^ t).natAbs := by
      rw [show ((u.natAbs : Int)) = -u by omega, Int.neg_mul, Int.neg_mul, ← Int.natAbs_neg]
      congr 1
      omega
    rw [this]; exact h
  · next hn =>
    rw [show ((u.natAbs : Int)) = u by omega] at h
    exact h

-- 0.29
example : ∃ m k, Decimal.toFlt 53 ⟨29, .n32, 9, 2⟩ = .ok (.fin m k) ∧ Within 53 m k 29 100 :=
  C94_back 53 (by decide) 29 .n32 9 2 (by decide) (ten_significant 2 (by decide)) ⟨29, 0, by decide, by decide⟩

theorem tdiv_near {v D u : Int} (hD : 0 < D) (h : (v - u * D).natAbs < D) : Int.tdiv v D = u ∨ Int.tdiv v D = u - u.sign := by
  obtain ⟨c1, c2⟩ := tdiv_cut v D hD
  have h1 : (u - 1) * D < v := by rw [Int.sub_mul, Int.one_mul]; omega
  have h2 : v < (u + 1) * D := by rw [Int.add_mul, Int.one_mul]; omega
  generalize Int.tdiv v D = t at *
  have hD' := Int.le_of_lt hD
  rcases Int.lt_trichotomy u 0 with hu | rfl | hu
  · rw [Int.sign_eq_neg_one_of_neg hu]
    have h0 : (u + 1) * D ≤ 0 := Int.mul_nonpos_of_nonpos_of_nonneg (by omega) hD'
    obtain ⟨d1, d2⟩ := c2 (by omega)
    have := Int.lt_of_mul_lt_mul_right (Int.lt_of_lt_of_le h1 d1) hD'
    have := Int.lt_of_mul_lt_mul_right (Int.lt_trans d2 h2) hD'
    omega
  · rcases Int.le_total 0 v with hv | hv
    · obtain ⟨d1, d2⟩ := c1 hv
      have := Int.lt_of_mul_lt_mul_right (Int.lt_of_le_of_lt d1 h2) hD'
      have := Int.lt_of_mul_lt_mul_right (Int.lt_of_le_of_lt (by omega : 0 * D ≤ v) d2) hD'
      simp; omega
    · obtain ⟨d1, d2⟩ := c2 hv
      have := Int.lt_of_mul_lt_mul_right (Int.lt_of_lt_of_le h1 d1) hD'
      have := Int.lt_of_mul_lt_mul_right (Int.lt_of_lt_of_le d2 (by omega : v ≤ 0 * D)) hD'
      simp; omega
  · rw [Int.sign_eq_one_of_pos hu]
    have h0 : 0 ≤ (u - 1) * D := Int.mul_nonneg (by omega) hD'
    obtain ⟨d1, d2⟩ := c1 (by omega)
    have := Int.lt_of_mul_lt_mul_right (Int.lt_of_le_of_lt d1 h2) hD'
    have := Int.lt_of_mul_lt_mul_right (Int.lt_trans h1 d2) hD'
    omega

/-- C94, both ways through `f64`: a decimal of up to 15 digits comes back as it was, or one unit of the last digit closer to zero. -/
theorem C94_round_trip_partial (u : Int) (nb : NoBits) (pr s : Nat) (hs : s ≤ 18) (hu : u.natAbs ≤ 2 ^ 51) :
    ∃ x v, Decimal.toFlt 53 ⟨u, nb, pr, s⟩ = .ok x ∧ Decimal.ofFlt 53 x s = .ok ⟨v, .n64, 18, s⟩ ∧ (v = u ∨ v = u - u.sign) := by
  have hf := ten_significant s hs
  obtain ⟨m, k, e, hw⟩ := C94_back 53 (by decide) u nb pr s hs hf ⟨u.natAbs, 0, by simp, Nat.lt_of_le_of_lt hu (by decide)⟩
  simp only [Within] at hw
  have h1 := roundInt_err 53 (m * 10 ^ s)
  rw [show ((10 ^ s : Nat) : Int) = 10 ^ s by simp] at hw
  have hK := pow_pos' k
  have hk := pow_cast k
  have hmul : (u * 2 ^ k).natAbs = u.natAbs * 2 ^ k := by rw [Int.natAbs_mul, ← hk, Int.natAbs_natCast]
  have hle := Nat.mul_le_mul_right (2 ^ k) hu
  have key : (roundInt 53 (m * 10 ^ s) - u * 2 ^ k).natAbs < (2 : Int) ^ k := by omega
  have ht := tdiv_near hK key
  have hv : -(2 ^ 63) ≤ Int.tdiv (roundInt 53 (m * 10 ^ s)) (2 ^ k) ∧ Int.tdiv (roundInt 53 (m * 10 ^ s)) (2 ^ k) ≤ 10 ^ 18 := by
    rcases Int.lt_trichotomy u 0 with h | rfl | h
    · rw [Int.sign_eq_neg_one_of_neg h] at ht; omega
    · simp at ht; omega
    · rw [Int.sign_eq_one_of_pos h] at ht; omega
  refine ⟨_, _, e, ?_, ht⟩
  rw [ofFlt_eq 53 _ s hs, scaleBy_eq hf, satI64_id hv.1 hv.2, if_neg (by omega)]

-- -12.34
example : ∃ x v, Decimal.toFlt 53 ⟨-1234, .n32, 9, 2⟩ = .ok x ∧ Decimal.ofFlt 53 x 2 = .ok ⟨v, .n64, 18, 2⟩ ∧ (v = -1234 ∨ v = -1234 - (-1)) :=
  C94_round_trip_partial (-1234) .n32 9 2 (by decide) (by decide)

/-- C94 is violated: 0.29 does not come back from `f64` as it was. -/
theorem C94_round_trip_violated : ∃ x, Decimal.toFlt 53 (Decimal.mk 29 .n64 18 2) = .ok x ∧ Decimal.ofFlt 53 x 2 = .ok ⟨28, .n64, 18, 2⟩ := by
  refine ⟨_, rfl, by decide +kernel⟩

-- `C94_round_trip_violated`: 0.30 does
example : ∃ x, Decimal.toFlt 53 (Decimal.mk 30 .n64 18 2) = .ok x ∧ Decimal.ofFlt 53 x 2 = .ok ⟨30, .n64, 18, 2⟩ := by
  refine ⟨_, rfl, by decide +kernel⟩

end CH.Props
