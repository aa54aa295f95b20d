import Verif.Model.Decimal

/-!
What a decimal denotes, stated without the model's printer and comparison: `underlying / 10^scale`.
-/

namespace CH.Spec

/-- Two decimals denote the same number (`a / 10^s = b / 10^t`, multiplied out). -/
def SameNumber (a b : Decimal) : Prop := a.underlying * 10 ^ b.scale = b.underlying * 10 ^ a.scale

instance (a b : Decimal) : Decidable (SameNumber a b) := by unfold SameNumber; infer_instance

/-- The number, written with `k` more fractional digits, still fits the 64-bit integer a decimal stores. -/
def RoomFor (d : Decimal) (k : Nat) : Prop :=
  -(2 ^ 63) ≤ d.underlying * 10 ^ k ∧ d.underlying * 10 ^ k ≤ 2 ^ 63 - 1

instance (d : Decimal) (k : Nat) : Decidable (RoomFor d k) := by unfold RoomFor; infer_instance

/-- The `n` low decimal digits of `v`, most significant first. -/
def lowDigits (n v : Nat) : List Char := (List.range n).map fun i => Nat.digitChar (v / 10 ^ (n - 1 - i) % 10)

/-- Ordinary decimal notation of `v / 10^scale`: sign, whole part without leading zeros, a point and exactly `scale` digits
(no point when there are none). -/
def decimalText (v : Int) (scale : Nat) : List Char :=
  (if v < 0 then ['-'] else []) ++ Nat.toDigits 10 (v.natAbs / 10 ^ scale) ++
    (if scale = 0 then [] else '.' :: lowDigits scale v.natAbs)

end CH.Spec
