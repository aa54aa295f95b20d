import Verif.Model.SqlType

/-!
Model of /repo/src/types/decimal.rs. `i64` values are integers; arithmetic leaving the `i64` range is a panic
(overflow checks), as is indexing `FACTORS10` beyond its 19 entries.
-/

namespace CH

/-- Smallest `i64`. -/
def i64Min : Int := -(2 ^ 63)
/-- Largest `i64`. -/
def i64Max : Int := 2 ^ 63 - 1

/-- A checked `i64` result: panic on overflow. -/
def checkI64 (v : Int) : Out Int := if i64Min ≤ v ∧ v ≤ i64Max then .ok v else .panic

/-- `Decimal`, /repo/src/types/decimal.rs:44-50. -/
structure Decimal where
  underlying : Int
  nobits : NoBits
  precision : Nat
  scale : Nat
deriving DecidableEq, Repr

/-- `FACTORS10[i]`, /repo/src/types/decimal.rs:7-27: nineteen entries `10^0 … 10^18`; other indexes panic. -/
def factor10 (i : Nat) : Out Int := if i ≤ 18 then .ok (10 ^ i) else .panic

/-- `PartialEq for Decimal`, /repo/src/types/decimal.rs:123-139. -/
def Decimal.eq (a b : Decimal) : Out Bool :=
  if a.scale < b.scale then do
    let f ← factor10 (b.scale - a.scale)
    let u ← checkI64 (a.underlying * f)
    pure (b.underlying == u)
  else if a.scale = b.scale then .ok (a.underlying == b.underlying)
  else do
    let f ← factor10 (a.scale - b.scale)
    let u ← checkI64 (b.underlying * f)
    pure (a.underlying == u)

/-- `Hash for Decimal`, /repo/src/types/decimal.rs:63-70: the fields fed to the hasher. -/
def Decimal.hashFeed (d : Decimal) : Int × NoBits × Nat × Nat := (d.underlying, d.nobits, d.precision, d.scale)

/-- `set_scale`, /repo/src/types/decimal.rs:244-263. -/
def Decimal.setScale (d : Decimal) (scale : Nat) : Out Decimal :=
  if scale < d.scale then do
    let f ← factor10 (d.scale - scale)
    pure { d with underlying := Int.tdiv d.underlying f, scale := scale }
  else if scale = d.scale then .ok d
  else do
    let f ← factor10 (scale - d.scale)
    let u ← checkI64 (d.underlying * f)
    pure { d with underlying := u, scale := scale }

/-- `Decimal::new`, /repo/src/types/decimal.rs:180-192. -/
def Decimal.new (underlying : Int) (scale : Nat) : Out Decimal :=
  if scale > 18 then .panic else .ok ⟨underlying, .n64, 18, scale⟩

/-- `internal::<i32>()`, /repo/src/types/decimal.rs:97-102: `as i32` truncates. -/
def wrapSigned (w : Nat) (v : Int) : Int :=
  let m : Int := (2 ^ (8 * w) : Nat)
  let r := v % m
  if 2 * r < m then r else r - m

/-- An integer type a decimal can be made from (`i8` … `u64`, the implementors of `Base`), by size in bytes and signedness. -/
structure IntTy where
  bytes : Nat
  signed : Bool
deriving DecidableEq, Repr

/-- `v as $t`: truncation to the integer type. -/
def IntTy.cast (t : IntTy) (v : Int) : Int :=
  if t.signed then wrapSigned t.bytes v else v % ((2 ^ (8 * t.bytes) : Nat) : Int)

/-- Values representable in the integer type. -/
def IntTy.holds (t : IntTy) (v : Int) : Bool := t.cast v == v

/-- `Base::scale` for an integer type, /repo/src/types/decimal.rs:72-95: the factor is first cast to the source type, the product
is computed (and overflow-checked) in that type and then converted to `i64` (`as i64` wraps a large `u64`). For `f32` and `f64`
see Model/Float. -/
def IntTy.scaleBy (t : IntTy) (source factor : Int) : Out Int :=
  if t.holds (source * t.cast factor) then .ok (wrapSigned 8 (source * t.cast factor)) else .panic

/-- `Decimal::of` for an integer source, /repo/src/types/decimal.rs:194-211. -/
def Decimal.of (t : IntTy) (source : Int) (scale : Nat) : Out Decimal :=
  if scale > 18 then .panic else do
    let f ← factor10 scale
    let u ← t.scaleBy source f
    if u > 10 ^ 18 then .panic else .ok ⟨u, .n64, 18, scale⟩

/-- `PartialEq for Decimal`, /repo/src/types/decimal.rs:123-139, in a build without overflow checks (the default release
profile), where the `i64` product wraps. -/
def Decimal.eqRelease (a b : Decimal) : Out Bool :=
  if a.scale < b.scale then do
    let f ← factor10 (b.scale - a.scale)
    pure (b.underlying == wrapSigned 8 (a.underlying * f))
  else if a.scale = b.scale then .ok (a.underlying == b.underlying)
  else do
    let f ← factor10 (a.scale - b.scale)
    pure (a.underlying == wrapSigned 8 (b.underlying * f))

/-- `while r.len() < scale { r.insert(0, '0') }`, /repo/src/types/decimal.rs:143-145. -/
def padZeros (r : Str) (scale : Nat) : Str := List.replicate (scale - r.length) '0' ++ r

/-- `decimal2str`, /repo/src/types/decimal.rs:141-152. -/
def Decimal.toStr (d : Decimal) : Str :=
  let r := padZeros (intChars d.underlying) d.scale
  let pos := r.length - d.scale
  let r := r.take pos ++ '.' :: r.drop pos
  match r with
  | '.' :: _ => '0' :: r
  | _ => r

end CH
