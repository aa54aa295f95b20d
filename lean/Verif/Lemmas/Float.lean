import Verif.Spec.Float

/-! Lemmas for C94. -/

namespace CH.Float
open CH CH.Spec

theorem nearest_err (a d : Nat) (hd : 0 < d) :
    2 * (nearest a d * d) ≤ 2 * a + d ∧ 2 * a ≤ 2 * (nearest a d * d) + d := by
  have h1 := Nat.div_add_mod a d
  have h2 := Nat.mod_lt a hd
  have h3 : (a / d + 1) * d = d * (a / d) + d := by rw [Nat.add_mul, Nat.mul_comm]; simp
  have h4 : a / d * d = d * (a / d) := Nat.mul_comm _ _
  simp only [nearest]
  split
  · rw [h4]; omega
  · split
    · rw [h3]; omega
    · split
      · rw [h4]; omega
      · rw [h3]; omega

theorem bitLen_pos {n : Nat} (h : 0 < n) : 0 < bitLen n := by
  simp only [bitLen]; rw [if_neg (by omega)]; omega

theorem bitLen_le {n : Nat} (h : 0 < n) : 2 ^ (bitLen n - 1) ≤ n := by
  simp only [bitLen]; rw [if_neg (by omega)]
  exact Nat.log2_self_le (by omega)

theorem lt_bitLen (n : Nat) : n < 2 ^ bitLen n := by
  simp only [bitLen]
  split
  · subst_vars; decide
  · exact Nat.lt_log2_self

theorem bitLen_of_lt {n m : Nat} (h : n < 2 ^ m) : bitLen n ≤ m := by
  by_cases hn : n = 0
  · subst hn; simp [bitLen]
  · have h1 := bitLen_le (n := n) (by omega)
    have h2 := bitLen_pos (n := n) (by omega)
    by_cases hc : bitLen n ≤ m
    · exact hc
    · have h3 : m ≤ bitLen n - 1 := by omega
      have := Nat.pow_le_pow_right (n := 2) (by decide) h3
      omega

theorem roundNat_exact {p n : Nat} (h : Significant p n) : roundNat p n = n := by
  obtain ⟨a, j, rfl, ha⟩ := h
  simp only [roundNat]
  split
  · rfl
  · next hb =>
    have hl : bitLen (a * 2 ^ j) ≤ p + j := bitLen_of_lt (by rw [Nat.pow_add]; exact Nat.mul_lt_mul_of_pos_right ha (Nat.two_pow_pos _))
    have hd : 2 ^ (bitLen (a * 2 ^ j) - p) ∣ a * 2 ^ j :=
      Nat.dvd_trans (Nat.pow_dvd_pow 2 (by omega)) (Nat.dvd_mul_left _ _)
    generalize 2 ^ (bitLen (a * 2 ^ j) - p) = d at hd
    have hm := Nat.mod_eq_zero_of_dvd hd
    simp only [nearest, hm]
    by_cases h0 : 0 < d
    · rw [if_pos (by omega)]; exact Nat.div_mul_cancel hd
    · obtain rfl : d = 0 := by omega
      have := Nat.eq_zero_of_zero_dvd hd
      rw [this]; simp

theorem roundNat_err (p n : Nat) :
    2 ^ p * roundNat p n ≤ 2 ^ p * n + n ∧ 2 ^ p * n ≤ 2 ^ p * roundNat p n + n := by
  simp only [roundNat]
  split
  · omega
  · next hb =>
    have hn : 0 < n := by
      rcases Nat.eq_zero_or_pos n with rfl | h
      · simp [bitLen] at hb
      · exact h
    have h1 := bitLen_le hn
    have h2 := bitLen_pos hn
    obtain ⟨g1, g2⟩ := nearest_err n (2 ^ (bitLen n - p)) (Nat.two_pow_pos _)
    have h3 : 2 ^ p * 2 ^ (bitLen n - p) = 2 * 2 ^ (bitLen n - 1) := by
      rw [← Nat.pow_add, ← Nat.pow_succ']; congr 1; omega
    generalize nearest n (2 ^ (bitLen n - p)) * 2 ^ (bitLen n - p) = R at g1 g2 ⊢
    generalize 2 ^ (bitLen n - p) = K at g1 g2 h3
    have e1 := Nat.mul_le_mul_left (2 ^ p) g1
    have e2 := Nat.mul_le_mul_left (2 ^ p) g2
    generalize 2 ^ p = P at h3 e1 e2 ⊢
    rw [Nat.mul_add, h3, Nat.mul_left_comm, Nat.mul_left_comm P 2 n] at e1
    rw [Nat.mul_add, h3, Nat.mul_left_comm, Nat.mul_left_comm P 2 R] at e2
    omega

theorem roundNat_zero (p : Nat) : roundNat p 0 = 0 := by simp [roundNat, bitLen]

theorem roundInt_natAbs (p : Nat) (v : Int) : (roundInt p v).natAbs = roundNat p v.natAbs := by
  simp only [roundInt]; split <;> omega

theorem roundInt_exact {p : Nat} {v : Int} (h : Significant p v.natAbs) : roundInt p v = v := by
  simp only [roundInt, roundNat_exact h]; split <;> omega

theorem roundInt_err (p : Nat) (v : Int) : (roundInt p v - v).natAbs * 2 ^ p ≤ v.natAbs := by
  obtain ⟨h1, h2⟩ := roundNat_err p v.natAbs
  have : (roundInt p v - v).natAbs = (roundNat p v.natAbs - v.natAbs) + (v.natAbs - roundNat p v.natAbs) := by
    simp only [roundInt]; split <;> omega
  rw [this, Nat.add_mul, Nat.sub_mul, Nat.sub_mul, Nat.mul_comm _ (2 ^ p), Nat.mul_comm _ (2 ^ p)]
  omega

theorem halves {a b c : Nat} (h1 : 2 * a ≤ 2 * c + b) (h2 : 2 * c ≤ 2 * a + b) : ((a : Int) - c).natAbs * 2 ≤ b := by omega

theorem divNat_zero (p d : Nat) : divNat p 0 d = 0 := by simp [divNat, nearest]

theorem divNat_err (p n d : Nat) (hp : 0 < p) (hd : 0 < d) :
    ((divNat p n d : Int) * d - n * 2 ^ (p + 1 + Nat.log2 d)).natAbs * 2 ^ p ≤ n * 2 ^ (p + 1 + Nat.log2 d) := by
  rcases Nat.eq_zero_or_pos n with rfl | hn
  · simp [divNat_zero]
  · unfold divNat
    dsimp only
    have hlog : d < 2 ^ (1 + Nat.log2 d) := by
      have := Nat.lt_log2_self (n := d)
      rw [Nat.add_comm]; exact this
    have ht : 2 ^ p * d ≤ 2 ^ (p + 1 + Nat.log2 d) := by
      rw [Nat.add_assoc, Nat.pow_add]
      exact Nat.mul_le_mul_left _ (Nat.le_of_lt hlog)
    have hN : ((2 : Int) ^ (p + 1 + Nat.log2 d)) = ((2 ^ (p + 1 + Nat.log2 d) : Nat) : Int) := by simp
    rw [hN]
    generalize 2 ^ (p + 1 + Nat.log2 d) = T at ht ⊢
    have hq : 2 ^ p ≤ n * T / d := by
      rw [Nat.le_div_iff_mul_le hd]
      exact Nat.le_trans ht (Nat.le_mul_of_pos_left _ hn)
    have hb : p < bitLen (n * T / d) := by
      rcases Nat.lt_or_ge p (bitLen (n * T / d)) with h | h
      · exact h
      · have h1 := lt_bitLen (n * T / d)
        have h2 := Nat.pow_le_pow_right (n := 2) (by decide) h
        omega
    have hpos : 0 < n * T / d := Nat.lt_of_lt_of_le (Nat.two_pow_pos p) hq
    have h1 := bitLen_le hpos
    rw [Nat.le_div_iff_mul_le hd] at h1
    obtain ⟨k, hk⟩ : ∃ k, bitLen (n * T / d) = k + p + 1 := ⟨bitLen (n * T / d) - p - 1, by omega⟩
    rw [hk] at h1 ⊢
    have e1 : k + p + 1 - p = k + 1 := by omega
    have e2 : k + p + 1 - 1 = k + p := by omega
    rw [e1]
    rw [e2] at h1
    have h3 := nearest_err (n * T) (d * 2 ^ (k + 1)) (Nat.mul_pos hd (Nat.two_pow_pos _))
    generalize nearest (n * T) (d * 2 ^ (k + 1)) = q at *
    have e3 : (q * 2 ^ (k + 1) * d : Nat) = q * (d * 2 ^ (k + 1)) := by rw [Nat.mul_assoc, Nat.mul_comm d]
    have e4 : (((q * 2 ^ (k + 1) : Nat) : Int) * d - n * T).natAbs * 2 ≤ d * 2 ^ (k + 1) := by
      have e5 : ((q * 2 ^ (k + 1) : Nat) : Int) * d = ((q * (d * 2 ^ (k + 1)) : Nat) : Int) := by rw [← e3]; simp
      have e6 : (n : Int) * T = ((n * T : Nat) : Int) := by simp
      rw [e5, e6]
      exact halves h3.1 h3.2
    have e7 := Nat.mul_le_mul_right (2 ^ p) e4
    have e8 : d * 2 ^ (k + 1) * 2 ^ p = 2 * (2 ^ (k + p) * d) := by
      rw [Nat.mul_assoc, ← Nat.pow_add, show k + 1 + p = (k + p) + 1 by omega, Nat.pow_succ, Nat.mul_comm d, Nat.mul_comm _ 2, Nat.mul_assoc]
    rw [e8, Nat.mul_assoc, Nat.mul_comm 2 (2 ^ p), ← Nat.mul_assoc] at e7
    omega

/-- The distance of two numbers. -/
def dist (a b : Nat) : Nat := (a - b) + (b - a)

/-- No multiple of `d` is closer. -/
theorem nearest_best (a d q : Nat) (hd : 0 < d) : dist (nearest a d * d) a ≤ dist (q * d) a := by
  obtain ⟨h1, h2⟩ := nearest_err a d hd
  generalize nearest a d = n at *
  simp only [dist]
  rcases Nat.lt_trichotomy q n with h | rfl | h
  · have := Nat.mul_le_mul_right d (Nat.succ_le_of_lt h)
    rw [Nat.succ_mul] at this
    omega
  · omega
  · have := Nat.mul_le_mul_right d (Nat.succ_le_of_lt h)
    rw [Nat.succ_mul] at this
    omega

/-- Another multiple is as close only if the nearest is even. -/
theorem nearest_even (a d q : Nat) (hd : 0 < d) (hq : q ≠ nearest a d) (h : dist (q * d) a = dist (nearest a d * d) a) :
    nearest a d % 2 = 0 := by
  obtain ⟨h1, h2⟩ := nearest_err a d hd
  have h3 := Nat.div_add_mod a d
  have h4 := Nat.mod_lt a hd
  have h5 : a / d * d = d * (a / d) := Nat.mul_comm _ _
  have h6 : (a / d + 1) * d = d * (a / d) + d := by rw [Nat.add_mul, Nat.mul_comm]; simp
  have tie : dist (nearest a d * d) a * 2 = d := by
    simp only [dist] at *
    rcases Nat.lt_or_gt_of_ne hq with g | g
    · have := Nat.mul_le_mul_right d (Nat.succ_le_of_lt g)
      rw [Nat.succ_mul] at this
      omega
    · have := Nat.mul_le_mul_right d (Nat.succ_le_of_lt g)
      rw [Nat.succ_mul] at this
      omega
  simp only [dist, nearest] at *
  split at tie
  · rw [h5] at tie; omega
  · split at tie
    · rw [h6] at tie; omega
    · rw [if_neg (by omega), if_neg (by omega)]
      split <;> omega

theorem significant_dvd {p m b : Nat} (h : Significant p m) (hm : 2 ^ (b - 1) ≤ m) (hb : p < b) : 2 ^ (b - p) ∣ m := by
  obtain ⟨a, j, rfl, ha⟩ := h
  refine Nat.dvd_trans (Nat.pow_dvd_pow 2 ?_) (Nat.dvd_mul_left _ _)
  have h1 : a * 2 ^ j < 2 ^ (p + j) := by rw [Nat.pow_add]; exact Nat.mul_lt_mul_of_pos_right ha (Nat.two_pow_pos _)
  have h2 := (Nat.pow_lt_pow_iff_right (a := 2) (by decide)).mp (Nat.lt_of_le_of_lt hm h1)
  omega

theorem roundNat_significant (p n : Nat) (hp : 0 < p) : Significant p (roundNat p n) := by
  simp only [roundNat]
  split
  · next hb => exact ⟨n, 0, by simp, Nat.lt_of_lt_of_le (lt_bitLen n) (Nat.pow_le_pow_right (by decide) hb)⟩
  · next hb =>
    have h1 := lt_bitLen n
    have h2 : 2 ^ bitLen n = 2 ^ p * 2 ^ (bitLen n - p) := by rw [← Nat.pow_add]; congr 1; omega
    rw [h2, ← Nat.div_lt_iff_lt_mul (Nat.two_pow_pos _)] at h1
    have h3 : nearest n (2 ^ (bitLen n - p)) ≤ 2 ^ p := by
      simp only [nearest]; split
      · omega
      · split
        · omega
        · split <;> omega
    rcases Nat.lt_or_eq_of_le h3 with h4 | h4
    · exact ⟨_, _, rfl, h4⟩
    · rw [h4]
      exact ⟨1, p + (bitLen n - p), by rw [Nat.one_mul, Nat.pow_add], Nat.one_lt_two_pow (by omega)⟩

/-- Among the numbers of the type none is closer, and one as close only if the last of the `p` bits is 0. -/
theorem roundNat_best (p n m : Nat) (hp : 0 < p) (hm : Significant p m) :
    dist (roundNat p n) n ≤ dist m n ∧ (m ≠ roundNat p n → dist m n = dist (roundNat p n) n → roundNat p n % 2 ^ (bitLen n - p + 1) = 0) := by
  simp only [roundNat]
  split
  · have : dist n n = 0 := by simp [dist]
    refine ⟨by omega, fun h1 h2 => ?_⟩
    simp only [dist] at h2
    omega
  · next hb =>
    have hn : 0 < n := by
      rcases Nat.eq_zero_or_pos n with rfl | h
      · simp [bitLen] at hb
      · exact h
    have h1 := bitLen_le hn
    have hK := Nat.two_pow_pos (bitLen n - p)
    rcases Nat.lt_or_ge m (2 ^ (bitLen n - 1)) with h | h
    · have e : 2 ^ (bitLen n - 1) = 2 ^ (p - 1) * 2 ^ (bitLen n - p) := by rw [← Nat.pow_add]; congr 1; omega
      have h2 := nearest_best n (2 ^ (bitLen n - p)) (2 ^ (p - 1)) hK
      rw [← e] at h2
      generalize nearest n (2 ^ (bitLen n - p)) * 2 ^ (bitLen n - p) = r at *
      generalize 2 ^ (bitLen n - 1) = f at *
      simp only [dist] at *
      omega
    · obtain ⟨q, rfl⟩ := significant_dvd hm h (by omega)
      rw [Nat.mul_comm _ q]
      refine ⟨nearest_best n _ q hK, fun h2 h3 => ?_⟩
      have h4 := nearest_even n _ q hK (by rintro rfl; exact h2 rfl) h3
      rw [Nat.pow_succ, Nat.mul_comm (nearest _ _), Nat.mul_mod_mul_left, h4, Nat.mul_zero]

theorem roundNat_le (p n : Nat) : roundNat p n ≤ 2 ^ bitLen n := by
  have h1 := lt_bitLen n
  simp only [roundNat]
  split
  · omega
  · next hb =>
    have h2 : 2 ^ bitLen n = 2 ^ p * 2 ^ (bitLen n - p) := by rw [← Nat.pow_add]; congr 1; omega
    rw [h2] at h1 ⊢
    rw [← Nat.div_lt_iff_lt_mul (Nat.two_pow_pos _)] at h1
    refine Nat.mul_le_mul_right _ ?_
    simp only [nearest]; split
    · omega
    · split
      · omega
      · split <;> omega

/-- As long as `p` is at least 2, the number chosen of two that are as close has a shorter binary text. -/
theorem roundNat_shorter (p n m : Nat) (hp : 1 < p) (hm : Significant p m) (h : m ≠ roundNat p n)
    (hd : dist m n = dist (roundNat p n) n) : Significant (p - 1) (roundNat p n) := by
  have h1 := (roundNat_best p n m (by omega) hm).2 h hd
  have h2 := roundNat_le p n
  have hb : p < bitLen n := by
    rcases Nat.lt_or_ge p (bitLen n) with hb | hb
    · exact hb
    · have e : roundNat p n = n := by rw [roundNat, if_pos hb]
      rw [e] at h hd
      simp only [dist] at hd
      omega
  obtain ⟨c, hc⟩ := Nat.dvd_of_mod_eq_zero h1
  have e : 2 ^ bitLen n = 2 ^ (bitLen n - p + 1) * 2 ^ (p - 1) := by rw [← Nat.pow_add]; congr 1; omega
  rw [hc, e] at h2
  have h3 := Nat.le_of_mul_le_mul_left h2 (Nat.two_pow_pos _)
  rw [hc]
  rcases Nat.lt_or_eq_of_le h3 with h4 | h4
  · exact ⟨c, _, Nat.mul_comm _ _, h4⟩
  · rw [h4]
    exact ⟨1, (bitLen n - p + 1) + (p - 1), by rw [Nat.one_mul, ← Nat.pow_add], Nat.one_lt_two_pow (by omega)⟩

end CH.Float
