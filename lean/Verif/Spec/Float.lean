import Verif.Model.Float

/-! For C94: floating-point numbers as numbers. -/

namespace CH.Spec
open CH

/-- `n` has at most `p` significant binary digits: among the integers these are the values a floating-point type with `p` digits has. -/
def Significant (p n : Nat) : Prop := ∃ a j, n = a * 2 ^ j ∧ a < 2 ^ p

/-- The decimal `u` of the scale is the number `num / 2 ^ sh` with the digits beyond the scale cut off. -/
def CutOff (u : Int) (scale : Nat) (num : Int) (sh : Nat) : Prop :=
  (0 ≤ num → u * 2 ^ sh ≤ num * 10 ^ scale ∧ num * 10 ^ scale < (u + 1) * 2 ^ sh) ∧
  (num ≤ 0 → num * 10 ^ scale ≤ u * 2 ^ sh ∧ (u - 1) * 2 ^ sh < num * 10 ^ scale)

/-- `num / 2 ^ sh` differs from `a / b` by at most `a / b / 2 ^ p`. -/
def Within (p : Nat) (num : Int) (sh : Nat) (a : Int) (b : Nat) : Prop :=
  (num * b - a * 2 ^ sh).natAbs * 2 ^ p ≤ a.natAbs * 2 ^ sh

/-- `num / 2 ^ sh` is what IEEE 754 makes of `a / b` with `p` significant digits: it is a number with that many, no other is closer,
and if another is as close the last of its digits is 0. -/
def NearestTo (p : Nat) (num : Int) (sh : Nat) (a : Int) (b : Nat) : Prop :=
  Significant p num.natAbs ∧ ∀ (m : Int) (j : Nat), Significant p m.natAbs →
    (num * b - a * 2 ^ sh).natAbs * 2 ^ j ≤ (m * b - a * 2 ^ j).natAbs * 2 ^ sh ∧
    (m * 2 ^ sh ≠ num * 2 ^ j → (num * b - a * 2 ^ sh).natAbs * 2 ^ j = (m * b - a * 2 ^ j).natAbs * 2 ^ sh →
      Significant (p - 1) num.natAbs)

end CH.Spec
