import Verif.Lemmas.Float

/-! Roundings among all numbers with `p` significant digits, fractions too. -/

namespace CH.Float
open CH CH.Spec

theorem dist_mul (a b c : Nat) : dist (a * c) (b * c) = dist a b * c := by
  simp only [dist, Nat.add_mul, Nat.sub_mul]

theorem nearest_le {a d q : Nat} (h : a < q * d) : nearest a d ≤ q := by
  have h1 := Nat.div_lt_of_lt_mul (Nat.mul_comm q d ▸ h)
  simp only [nearest]
  split
  · omega
  · split
    · omega
    · split <;> omega

/-- A number with `p` digits from `2 ^ (k + p - 1)` on is a multiple of `2 ^ k`. -/
theorem significant_multiple {p m b c : Nat} (h : Significant p m) {t : Nat} (hm : 2 ^ b ≤ m * 2 ^ t) (hb : c + p ≤ b + 1) : 2 ^ c ∣ m * 2 ^ t := by
  obtain ⟨a, j, rfl, ha⟩ := h
  rw [Nat.mul_assoc, ← Nat.pow_add] at hm ⊢
  refine Nat.dvd_trans (Nat.pow_dvd_pow 2 ?_) (Nat.dvd_mul_left _ _)
  have h1 : a * 2 ^ (j + t) < 2 ^ (p + (j + t)) := by rw [Nat.pow_add 2 p]; exact Nat.mul_lt_mul_of_pos_right ha (Nat.two_pow_pos _)
  have h2 := (Nat.pow_lt_pow_iff_right (a := 2) (by decide)).mp (Nat.lt_of_le_of_lt hm h1)
  omega

theorem even_shorter {p k q : Nat} (hp : 1 < p) (hq : q ≤ 2 ^ p) (he : q % 2 = 0) : Significant (p - 1) (q * 2 ^ k) := by
  obtain ⟨c, rfl⟩ := Nat.dvd_of_mod_eq_zero he
  obtain ⟨r, rfl⟩ : ∃ r, p = r + 2 := ⟨p - 2, by omega⟩
  rw [Nat.pow_succ, Nat.mul_comm _ 2] at hq
  have h3 := Nat.le_of_mul_le_mul_left hq (by decide)
  rcases Nat.lt_or_eq_of_le h3 with h4 | h4
  · exact ⟨c, k + 1, by rw [Nat.pow_succ, Nat.mul_comm _ 2, Nat.mul_comm 2 c, Nat.mul_assoc], h4⟩
  · exact ⟨1, (r + 1) + (k + 1), by rw [h4, Nat.one_mul, Nat.pow_add 2 (r + 1), Nat.pow_add 2 k, Nat.pow_one, Nat.mul_comm 2, Nat.mul_assoc, Nat.mul_comm 2], Nat.one_lt_two_pow (by omega)⟩

theorem within_significant {p k q : Nat} (hp : 0 < p) (hq : q ≤ 2 ^ p) : Significant p (q * 2 ^ k) := by
  rcases Nat.lt_or_eq_of_le hq with h4 | h4
  · exact ⟨q, k, rfl, h4⟩
  · exact ⟨1, p + k, by rw [h4, Nat.one_mul, Nat.pow_add], Nat.one_lt_two_pow (by omega)⟩

/-- `A / d` is between `2 ^ (k + p - 1)` and `2 ^ (k + p)`: of the numbers with `p` digits the nearest multiple of `2 ^ k` is closest. -/
theorem nearest_all (p A d k t j m : Nat) (hd : 0 < d) (hp : 1 < p) (hA : 2 ^ (k + p - 1) * d ≤ A) (hA2 : A < 2 ^ (k + p) * d)
    (hm : Significant p m) :
    dist (nearest A (d * 2 ^ k) * 2 ^ k * d * 2 ^ j) (A * 2 ^ j) ≤ dist (m * 2 ^ t * d) (A * 2 ^ j) ∧
    (m * 2 ^ t ≠ nearest A (d * 2 ^ k) * 2 ^ k * 2 ^ j →
      dist (nearest A (d * 2 ^ k) * 2 ^ k * d * 2 ^ j) (A * 2 ^ j) = dist (m * 2 ^ t * d) (A * 2 ^ j) →
      Significant (p - 1) (nearest A (d * 2 ^ k) * 2 ^ k)) := by
  have hK : 0 < d * 2 ^ k := Nat.mul_pos hd (Nat.two_pow_pos _)
  have eq (q : Nat) : q * 2 ^ k * d = q * (d * 2 ^ k) := by rw [Nat.mul_assoc, Nat.mul_comm d]
  have hle : nearest A (d * 2 ^ k) ≤ 2 ^ p := by
    apply nearest_le
    rwa [← eq, ← Nat.pow_add, Nat.add_comm p]
  have hj := Nat.two_pow_pos j
  rcases Nat.lt_or_ge (m * 2 ^ t) (2 ^ (k + p - 1 + j)) with h | h
  · have hb := nearest_best A (d * 2 ^ k) (2 ^ (p - 1)) hK
    rw [← eq, ← eq, ← Nat.pow_add, show p - 1 + k = k + p - 1 by omega] at hb
    have hb' := Nat.mul_le_mul_right (2 ^ j) hb
    rw [← dist_mul, ← dist_mul] at hb'
    have h1 := Nat.mul_lt_mul_of_pos_right h hd
    have h2 := Nat.mul_le_mul_right (2 ^ j) hA
    rw [Nat.pow_add, Nat.mul_right_comm (2 ^ (k + p - 1))] at h1
    have h3 : dist (2 ^ (k + p - 1) * d * 2 ^ j) (A * 2 ^ j) < dist (m * 2 ^ t * d) (A * 2 ^ j) := by
      simp only [dist]; omega
    exact ⟨by omega, fun _ _ => by omega⟩
  · obtain ⟨q, hq⟩ := significant_multiple (c := k + j) hm h (by omega)
    have e : m * 2 ^ t = q * 2 ^ k * 2 ^ j := by rw [hq, Nat.mul_comm, Nat.pow_add, Nat.mul_assoc]
    have e2 : m * 2 ^ t * d = q * 2 ^ k * d * 2 ^ j := by
      rw [e, Nat.mul_assoc, Nat.mul_comm (2 ^ j) d, ← Nat.mul_assoc]
    rw [e2, dist_mul, dist_mul, eq, eq]
    refine ⟨Nat.mul_le_mul_right _ (nearest_best A _ q hK), fun h1 h2 => ?_⟩
    have h3 := Nat.eq_of_mul_eq_mul_right hj h2
    refine even_shorter hp hle (nearest_even A _ q hK ?_ h3.symm)
    rintro rfl
    exact h1 e

/-- What the rounding of a quotient of natural numbers is to be. -/
def Best (p q t n d : Nat) : Prop :=
  Significant p q ∧ ∀ m j, Significant p m →
    dist (q * d * 2 ^ j) (n * 2 ^ t * 2 ^ j) ≤ dist (m * 2 ^ t * d) (n * 2 ^ t * 2 ^ j) ∧
    (m * 2 ^ t ≠ q * 2 ^ j → dist (q * d * 2 ^ j) (n * 2 ^ t * 2 ^ j) = dist (m * 2 ^ t * d) (n * 2 ^ t * 2 ^ j) → Significant (p - 1) q)

theorem best_exact {p q t n d : Nat} (h : Significant p q) (hd : 0 < d) (e : q * d = n * 2 ^ t) : Best p q t n d := by
  refine ⟨h, fun m j _ => ⟨by rw [e]; simp [dist], fun h1 h2 => ?_⟩⟩
  rw [← e] at h2
  have : m * 2 ^ t * d = q * 2 ^ j * d := by
    rw [Nat.mul_right_comm q (2 ^ j) d]
    simp only [dist] at h2
    omega
  exact absurd (Nat.eq_of_mul_eq_mul_right hd this) h1

theorem best_nearest {p k t n d : Nat} (hd : 0 < d) (hp : 1 < p) (hA : 2 ^ (k + p - 1) * d ≤ n * 2 ^ t) (hA2 : n * 2 ^ t < 2 ^ (k + p) * d) :
    Best p (nearest (n * 2 ^ t) (d * 2 ^ k) * 2 ^ k) t n d := by
  refine ⟨within_significant (by omega) (nearest_le ?_), fun m j hm => nearest_all p (n * 2 ^ t) d k t j m hd hp hA hA2 hm⟩
  rwa [Nat.mul_comm d, ← Nat.mul_assoc, ← Nat.pow_add, Nat.add_comm p]

theorem roundNat_all (p n : Nat) (hp : 1 < p) : Best p (roundNat p n) 0 n 1 := by
  rcases Nat.lt_or_ge p (bitLen n) with hb | hb
  · have h := best_nearest (p := p) (k := bitLen n - p) (t := 0) (n := n) (d := 1) (by decide) hp
      (by
        rw [Nat.sub_add_cancel (by omega), Nat.pow_zero, Nat.mul_one, Nat.mul_one]
        refine bitLen_le (Nat.pos_of_ne_zero ?_)
        rintro rfl
        simp [bitLen] at hb)
      (by
        rw [Nat.sub_add_cancel (by omega), Nat.pow_zero, Nat.mul_one, Nat.mul_one]
        exact lt_bitLen n)
    rw [Nat.pow_zero, Nat.mul_one, Nat.one_mul] at h
    rw [roundNat, if_neg (by omega)]
    exact h
  · have e : roundNat p n = n := by rw [roundNat, if_pos hb]
    exact best_exact (roundNat_significant p n (by omega)) (by decide) (by rw [e])

theorem divNat_all (p n d : Nat) (hp : 1 < p) (hd : 0 < d) : Best p (divNat p n d) (p + 1 + Nat.log2 d) n d := by
  rcases Nat.eq_zero_or_pos n with rfl | hn
  · rw [divNat_zero]
    exact best_exact ⟨0, 0, rfl, Nat.two_pow_pos _⟩ hd (by simp)
  · unfold divNat
    dsimp only
    have hlog : d < 2 ^ (1 + Nat.log2 d) := by
      have := Nat.lt_log2_self (n := d)
      rw [Nat.add_comm]; exact this
    have ht : 2 ^ p * d ≤ 2 ^ (p + 1 + Nat.log2 d) := by
      rw [Nat.add_assoc, Nat.pow_add]
      exact Nat.mul_le_mul_left _ (Nat.le_of_lt hlog)
    have hq : 2 ^ p ≤ n * 2 ^ (p + 1 + Nat.log2 d) / d := by
      rw [Nat.le_div_iff_mul_le hd]
      exact Nat.le_trans ht (Nat.le_mul_of_pos_left _ hn)
    have hb : p < bitLen (n * 2 ^ (p + 1 + Nat.log2 d) / d) := by
      rcases Nat.lt_or_ge p (bitLen (n * 2 ^ (p + 1 + Nat.log2 d) / d)) with h | h
      · exact h
      · have h1 := lt_bitLen (n * 2 ^ (p + 1 + Nat.log2 d) / d)
        have h2 := Nat.pow_le_pow_right (n := 2) (by decide) h
        omega
    have h1 := bitLen_le (Nat.lt_of_lt_of_le (Nat.two_pow_pos p) hq)
    have h2 := lt_bitLen (n * 2 ^ (p + 1 + Nat.log2 d) / d)
    rw [Nat.le_div_iff_mul_le hd] at h1
    rw [Nat.div_lt_iff_lt_mul hd] at h2
    refine best_nearest hd hp ?_ ?_
    · rwa [Nat.sub_add_cancel (by omega)]
    · rwa [Nat.sub_add_cancel (by omega)]

/-- With signs. -/
theorem nearestTo_of_best {p q t d : Nat} {a num : Int} (hd : 0 < d) (h : Best p q t a.natAbs d)
    (e : num = if a < 0 then -(q : Int) else q) : NearestTo p num t a d := by
  obtain ⟨h1, h2⟩ := h
  have en : num.natAbs = q := by rw [e]; split <;> omega
  refine ⟨by rw [en]; exact h1, fun m j hm => ?_⟩
  rw [en]
  have key := h2 m.natAbs j hm
  have zero := (h2 0 j ⟨0, 0, rfl, Nat.two_pow_pos _⟩).1
  have hT := Nat.two_pow_pos t
  have hJ := Nat.two_pow_pos j
  simp only [Nat.zero_mul] at zero
  have c1 : ((num * d - a * 2 ^ t).natAbs * 2 ^ j : Nat) = dist (q * d * 2 ^ j) (a.natAbs * 2 ^ t * 2 ^ j) := by
    rw [dist_mul]
    congr 1
    have ec : (q * d : Nat) = (q : Int) * d := by simp
    have ea : ((a.natAbs * 2 ^ t : Nat) : Int) = (a.natAbs : Int) * 2 ^ t := by simp
    generalize a.natAbs * 2 ^ t = A at *
    generalize q * d = Q at *
    simp only [dist]
    rw [e]
    split
    · rw [Int.neg_mul, ← ec, show a * 2 ^ t = -((a.natAbs : Int) * 2 ^ t) by rw [← Int.neg_mul]; congr 1; omega, ← ea]
      omega
    · rw [← ec, show a * 2 ^ t = ((a.natAbs : Int) * 2 ^ t) by congr 1; omega, ← ea]
      omega
  -- the distance of `m`, and that of its amount
  have c2 : (m * d - a * 2 ^ j).natAbs * 2 ^ t = (m * 2 ^ t * d - a * 2 ^ t * 2 ^ j).natAbs := by
    rw [show m * 2 ^ t * d - a * 2 ^ t * 2 ^ j = (m * d - a * 2 ^ j) * 2 ^ t by
      rw [Int.sub_mul, Int.mul_right_comm m, Int.mul_right_comm a], Int.natAbs_mul]
    congr 1
  rw [c1, c2]
  by_cases hs : (a < 0 ∧ m ≤ 0) ∨ (0 ≤ a ∧ 0 ≤ m)
  · have c3 : (m * 2 ^ t * d - a * 2 ^ t * 2 ^ j).natAbs = dist (m.natAbs * 2 ^ t * d) (a.natAbs * 2 ^ t * 2 ^ j) := by
      have e3 : ((m.natAbs * 2 ^ t * d : Nat) : Int) = (m.natAbs : Int) * 2 ^ t * d := by simp
      have e4 : ((a.natAbs * 2 ^ t * 2 ^ j : Nat) : Int) = (a.natAbs : Int) * 2 ^ t * 2 ^ j := by simp
      generalize m.natAbs * 2 ^ t * d = M at *
      generalize a.natAbs * 2 ^ t * 2 ^ j = A at *
      simp only [dist]
      rcases hs with ⟨ha, hm⟩ | ⟨ha, hm⟩
      · rw [show m * 2 ^ t * d = -((m.natAbs : Int) * 2 ^ t * d) by rw [← Int.neg_mul, ← Int.neg_mul]; congr 2; omega,
          show a * 2 ^ t * 2 ^ j = -((a.natAbs : Int) * 2 ^ t * 2 ^ j) by rw [← Int.neg_mul, ← Int.neg_mul]; congr 2; omega, ← e3, ← e4]
        omega
      · rw [show m * 2 ^ t * d = ((m.natAbs : Int) * 2 ^ t * d) by congr 2; omega,
          show a * 2 ^ t * 2 ^ j = ((a.natAbs : Int) * 2 ^ t * 2 ^ j) by congr 2; omega, ← e3, ← e4]
        omega
    rw [c3]
    refine ⟨key.1, fun g1 g2 => key.2 (fun g3 => g1 ?_) g2⟩
    have e5 : ((m.natAbs * 2 ^ t : Nat) : Int) = (m.natAbs : Int) * 2 ^ t := by simp
    have e6 : ((q * 2 ^ j : Nat) : Int) = (q : Int) * 2 ^ j := by simp
    rw [e]
    rcases hs with ⟨ha, hm⟩ | ⟨ha, hm⟩
    · rw [if_pos ha, show m * 2 ^ t = -((m.natAbs : Int) * 2 ^ t) by rw [← Int.neg_mul]; congr 1; omega, Int.neg_mul, ← e5, ← e6, g3]
    · rw [if_neg (by omega), show m * 2 ^ t = ((m.natAbs : Int) * 2 ^ t) by congr 1; omega, ← e5, ← e6, g3]
  · have c3 : (m * 2 ^ t * d - a * 2 ^ t * 2 ^ j).natAbs = m.natAbs * 2 ^ t * d + a.natAbs * 2 ^ t * 2 ^ j := by
      have e3 : ((m.natAbs * 2 ^ t * d : Nat) : Int) = (m.natAbs : Int) * 2 ^ t * d := by simp
      have e4 : ((a.natAbs * 2 ^ t * 2 ^ j : Nat) : Int) = (a.natAbs : Int) * 2 ^ t * 2 ^ j := by simp
      generalize m.natAbs * 2 ^ t * d = M at *
      generalize a.natAbs * 2 ^ t * 2 ^ j = A at *
      rcases Int.lt_or_le a 0 with ha | ha
      · rw [show m * 2 ^ t * d = ((m.natAbs : Int) * 2 ^ t * d) by congr 2; omega,
          show a * 2 ^ t * 2 ^ j = -((a.natAbs : Int) * 2 ^ t * 2 ^ j) by rw [← Int.neg_mul, ← Int.neg_mul]; congr 2; omega, ← e3, ← e4]
        omega
      · rw [show m * 2 ^ t * d = -((m.natAbs : Int) * 2 ^ t * d) by rw [← Int.neg_mul, ← Int.neg_mul]; congr 2; omega,
          show a * 2 ^ t * 2 ^ j = ((a.natAbs : Int) * 2 ^ t * 2 ^ j) by congr 2; omega, ← e3, ← e4]
        omega
    have hM : 0 < m.natAbs * 2 ^ t * d := Nat.mul_pos (Nat.mul_pos (by omega) hT) hd
    have hz : dist 0 (a.natAbs * 2 ^ t * 2 ^ j) = a.natAbs * 2 ^ t * 2 ^ j := by simp [dist]
    rw [hz] at zero
    rw [c3]
    exact ⟨by omega, fun _ _ => by omega⟩

end CH.Float
