import Verif.Base

/-! Independent specifications for the primitive wire codec. -/

namespace CH.Spec

/-- The number denoted by a base-128 digit string, least significant digit first; the digit of a byte is its
low seven bits. -/
def base128 : Bytes → Nat
  | [] => 0
  | b :: bs => b.toNat % 128 + 128 * base128 bs

/-- A byte that announces that more digits follow. -/
def isCont (b : UInt8) : Prop := 128 ≤ b.toNat

/-- The number denoted by a base-256 digit string, least significant digit first. -/
def base256 (b : Bytes) : Nat := b.foldr (fun d acc => d.toNat + 256 * acc) 0

end CH.Spec
