import Verif.Model.Decimal

/-!
Decimals from floating-point numbers and back: /repo/src/types/decimal.rs:72-95, 166-177, 194-211 for `f32` and `f64`.

A finite floating-point number is `num / 2 ^ sh`; which such numbers a type has is said where it matters (`Spec/Float`). The
operations are those of IEEE 754, rounding to the nearest number with `p` significant bits (24 or 53), to the even one of two. The
limits of the exponents are left out: they make no difference here. A product too large for the type is infinite, which `as i64`
turns into the same as any number beyond `i64`; a product too small for full precision is less than one and becomes 0; and the
quotient of an `i64` and a power of ten up to `10^18` is within the limits.
-/

namespace CH

/-- A value of `f32` or `f64`: `num / 2 ^ sh`, infinite, or not a number. Signed zeros are not told apart. -/
inductive Flt where
  | fin (num : Int) (sh : Nat)
  | inf (neg : Bool)
  | nan
deriving DecidableEq, Repr

/-- The integer nearest to `a / d`, the even one of two: the rounding of the floating-point operations in decimal.rs:77, 168, 174. -/
def nearest (a d : Nat) : Nat :=
  let q := a / d
  let r := a % d
  if 2 * r < d then q else if d < 2 * r then q + 1 else if q % 2 = 0 then q else q + 1

/-- Number of binary digits, for the roundings of decimal.rs:77, 168, 174. -/
def bitLen (n : Nat) : Nat := if n = 0 then 0 else Nat.log2 n + 1

/-- Rounding to `p` significant bits, in the operations of decimal.rs:77, 168, 174. -/
def roundNat (p n : Nat) : Nat :=
  if bitLen n ≤ p then n else nearest n (2 ^ (bitLen n - p)) * 2 ^ (bitLen n - p)

/-- The same with a sign; also `v as f32`, `v as f64` for an `i64`, decimal.rs:77, 168, 174. -/
def roundInt (p : Nat) (v : Int) : Int := if v < 0 then -(roundNat p v.natAbs : Int) else roundNat p v.natAbs

/-- The product with a positive finite number, decimal.rs:77. -/
def Flt.mulFin (p : Nat) : Flt → Int → Flt
  | .fin m k, f => .fin (roundInt p (m * f)) k
  | .inf n, _ => .inf n
  | .nan, _ => .nan

/-- What `as i64` makes of a whole number, decimal.rs:77. -/
def satI64 (t : Int) : Int := if t < i64Min then i64Min else if i64Max < t then i64Max else t

/-- `x as i64`, decimal.rs:77: truncation, saturating; NaN gives 0. -/
def Flt.asI64 : Flt → Int
  | .fin m k => satI64 (Int.tdiv m (2 ^ k : Nat))
  | .inf n => if n then i64Min else i64Max
  | .nan => 0

/-- `Base::scale` for `f32` and `f64`, decimal.rs:72-86. -/
def Flt.scaleBy (p : Nat) (x : Flt) (factor : Int) : Int := (x.mulFin p (roundInt p factor)).asI64

/-- `Decimal::of` for `f32` and `f64`, decimal.rs:194-211. -/
def Decimal.ofFlt (p : Nat) (x : Flt) (scale : Nat) : Out Decimal :=
  if scale > 18 then .panic else do
    let f ← factor10 scale
    let u := x.scaleBy p f
    if u > 10 ^ 18 then .panic else .ok ⟨u, .n64, 18, scale⟩

/-- The quotient of two positive integers, rounded to `p` significant bits, in units of `2 ^ -(p + 1 + log2 d)`, decimal.rs:168, 174:
`n * 2 ^ t / d` has more than `p` bits, `k` of them are too many. -/
def divNat (p n d : Nat) : Nat :=
  let t := p + 1 + Nat.log2 d
  let k := bitLen (n * 2 ^ t / d) - p
  nearest (n * 2 ^ t) (d * 2 ^ k) * 2 ^ k

/-- `From<Decimal> for f32` and `f64`, decimal.rs:166-177. -/
def Decimal.toFlt (p : Nat) (d : Decimal) : Out Flt := do
  let f ← factor10 d.scale
  let u := roundInt p d.underlying
  let g := (roundInt p f).natAbs
  let q : Nat := divNat p u.natAbs g
  pure (.fin (if u < 0 then -(q : Int) else q) (p + 1 + Nat.log2 g))

end CH
