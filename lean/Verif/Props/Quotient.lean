import Verif.Lemmas.Quotient
import Verif.Props.Float

/-! C94: the rounding of the quotients, and of the other operations, among all numbers of the type. -/

namespace CH.Props
open CH CH.Spec CH.Float

/-- C94: the conversion of an `i64` gives the nearest number of the type, whole or not. -/
theorem C94_integer (p : Nat) (hp : 1 < p) (v : Int) : NearestTo p (roundInt p v) 0 v 1 :=
  nearestTo_of_best (by decide) (roundNat_all p v.natAbs hp) rfl

-- with two digits, 5 is as close to 6 as to 4; the conversion gives 4, the digits of which are 10
example : roundInt 2 5 = 4 ∧ NearestTo 2 4 0 5 1 := ⟨by decide +kernel, C94_integer 2 (by decide) 5⟩

-- 6 is not what the standard asks for
example : ¬ NearestTo 2 6 0 5 1 := fun h => by
  obtain ⟨a, j, e, ha⟩ := (h.2 4 0 ⟨1, 2, rfl, by decide⟩).2 (by decide) (by decide)
  have : a = 0 ∨ a = 1 := by omega
  rcases this with rfl | rfl
  · simp at e
  · rcases j with _ | _ | _ | j
    · simp at e
    · simp at e
    · simp at e
    · rw [show j + 1 + 1 + 1 = j + 3 by omega, Nat.pow_add] at e
      have := Nat.two_pow_pos j
      simp at e
      omega

/-- C94: a decimal is turned into a floating-point number by three operations of IEEE 754: its digits and the factor become numbers of
the type, and the result is the number of the type nearest to the quotient of the two. -/
theorem C94_quotient (p : Nat) (hp : 1 < p) (u : Int) (nb : NoBits) (pr s : Nat) (hs : s ≤ 18) :
    ∃ a f m k, Decimal.toFlt p ⟨u, nb, pr, s⟩ = .ok (.fin m k) ∧ NearestTo p a 0 u 1 ∧ NearestTo p f 0 (10 ^ s) 1 ∧ 0 < f ∧
      NearestTo p m k a f.natAbs := by
  have e : Decimal.toFlt p ⟨u, nb, pr, s⟩ = .ok (.fin (if roundInt p u < 0 then -(divNat p (roundInt p u).natAbs (roundInt p (10 ^ s)).natAbs : Int)
      else divNat p (roundInt p u).natAbs (roundInt p (10 ^ s)).natAbs) (p + 1 + Nat.log2 (roundInt p (10 ^ s)).natAbs)) := by
    rw [Decimal.toFlt, factor10, if_pos hs]; rfl
  have h10 : (1 : Int) ≤ 10 ^ s := Int.pow_pos (by decide)
  have hf : 0 < roundInt p (10 ^ s) := by
    have h1 := ((C94_integer p hp (10 ^ s)).2 1 0 ⟨1, 0, rfl, Nat.one_lt_two_pow (by omega)⟩).1
    rcases Int.lt_or_le 0 (roundInt p (10 ^ s)) with h | h
    · exact h
    · simp only [Int.pow_zero, Int.mul_one, Nat.pow_zero, Nat.mul_one] at h1
      generalize (10 : Int) ^ s = t at *
      omega
  exact ⟨_, _, _, _, e, C94_integer p hp u, C94_integer p hp _, hf,
    nearestTo_of_best (by omega) (divNat_all p _ _ hp (by omega)) rfl⟩

-- -0.29 in `f32`, the digits and the factor of which are exact
example : roundInt 24 (-29) = -29 ∧ roundInt 24 (10 ^ 2) = 100 ∧
    ∃ a f m k, Decimal.toFlt 24 ⟨-29, .n32, 9, 2⟩ = .ok (.fin m k) ∧ NearestTo 24 a 0 (-29) 1 ∧ NearestTo 24 f 0 (10 ^ 2) 1 ∧ 0 < f ∧
      NearestTo 24 m k a f.natAbs :=
  ⟨by decide +kernel, by decide +kernel, C94_quotient 24 (by decide) (-29) .n32 9 2 (by decide)⟩

/-- C94: in particular a decimal with digits the type can hold becomes the number of the type nearest to it. (`_partial`: with more
digits it need not, `C94_quotient_violated`.) -/
theorem C94_nearest_partial (p : Nat) (hp : 1 < p) (u : Int) (nb : NoBits) (pr s : Nat) (hs : s ≤ 18) (hf : Significant p (10 ^ s))
    (hu : Significant p u.natAbs) :
    ∃ m k, Decimal.toFlt p ⟨u, nb, pr, s⟩ = .ok (.fin m k) ∧ NearestTo p m k u (10 ^ s) :=
  ⟨_, _, toFlt_eq p u nb pr s hs hf hu, nearestTo_of_best (Nat.pow_pos (by decide)) (divNat_all p _ _ hp (Nat.pow_pos (by decide))) rfl⟩

-- 0.29: no double is closer than the one it becomes
example : ∃ m k, Decimal.toFlt 53 ⟨29, .n32, 9, 2⟩ = .ok (.fin m k) ∧ NearestTo 53 m k 29 100 :=
  C94_nearest_partial 53 (by decide) 29 .n32 9 2 (by decide) (ten_significant 2 (by decide)) ⟨29, 0, by decide, by decide⟩

/-- C94, negation: the decimal 900719925474099.5 is a number of `f64`, and becomes 900719925474099.625: its digits are rounded before
the division. -/
theorem C94_quotient_violated : ∃ m k, Decimal.toFlt 53 ⟨9007199254740995, .n64, 18, 1⟩ = .ok (.fin m k) ∧
    m * 8 = 7205759403792797 * 2 ^ k ∧ Significant 53 1801439850948199 ∧ (1801439850948199 * 10 : Int) = 9007199254740995 * 2 ∧
    ¬ NearestTo 53 m k 9007199254740995 10 := by
  have e : Decimal.toFlt 53 ⟨9007199254740995, .n64, 18, 1⟩ = .ok (.fin (7205759403792797 * 2 ^ 54) 57) := by decide +kernel
  refine ⟨_, _, e, by decide +kernel, ⟨1801439850948199, 0, by decide, by decide⟩, by decide, fun h => ?_⟩
  have h1 := (h.2 1801439850948199 1 ⟨1801439850948199, 0, by decide, by decide⟩).1
  revert h1
  decide +kernel

end CH.Props
