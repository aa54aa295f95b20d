import Verif.Model.Wire
import Verif.Model.Values
import Verif.Model.Column

/-!
# Builds without overflow checks

The default release profile of cargo compiles integer arithmetic without overflow checks (/repo/Cargo.toml sets no profile): `+`, `-`
and `*` wrap around, `pow` too, and a shift takes its amount modulo the width. The other models are of builds with checks, where each of
these is a panic. Here are the functions that compute with numbers that come from the server or from the user, once more.
`Decimal.eqRelease` (Model/Decimal) is another one.

Left out: lengths and indices into memory, which do not overflow (those of the string pool are in Model/ReleasePool); the differences
of decreasing offsets in iterators (iter/mod.rs:733, 787); `SqlType::level` for types nested 256 deep; the sum of the counters of the pool
(pool/mod.rs:41-46).
-/

namespace CH

/-- The loop of `read_uvarint`, /repo/src/binary/read_ex.rs:83-97, without overflow checks: `u64 << s` shifts by `s` modulo 64, and
`s += 7` wraps as a `u32`. (`i` would wrap after 2⁶⁴ bytes, which no buffer has.) -/
def readUvarintLoopR (x s i : Nat) : Reader Nat
  | [] => .more
  | b :: bs =>
    if b.toNat < 0x80 then
      if i > 9 ∨ (i = 9 ∧ b.toNat > 1) then .err .overflow bs
      else .ok (x ||| ((b.toNat <<< (s % 64)) % 2 ^ 64)) bs
    else readUvarintLoopR (x ||| (((b.toNat &&& 0x7f) <<< (s % 64)) % 2 ^ 64)) ((s + 7) % 2 ^ 32) (i + 1) bs

/-- `ReadEx::read_uvarint`, /repo/src/binary/read_ex.rs:79-98, without overflow checks. -/
def readUvarintR : Reader Nat := readUvarintLoopR 0 0 0

/-- `10_i64.pow(e)` without overflow checks: wraps. From the exponent 64 on this is zero, the power being a multiple of 2⁶⁴; this
case is written out so that the definition can be computed. -/
def powI64 (e : Nat) : Int := if e < 64 then wrapSigned 8 (10 ^ e) else 0

/-- `set_scale`, /repo/src/types/decimal.rs:244-263, without overflow checks. -/
def Decimal.setScaleR (d : Decimal) (scale : Nat) : Out Decimal :=
  if scale < d.scale then do
    let f ← factor10 (d.scale - scale)
    pure { d with underlying := Int.tdiv d.underlying f, scale := scale }
  else if scale = d.scale then .ok d
  else do
    let f ← factor10 (scale - d.scale)
    pure { d with underlying := wrapSigned 8 (d.underlying * f), scale := scale }

/-- `Decimal::of` for an integer source, /repo/src/types/decimal.rs:72-95 and 194-211, without overflow checks: the product wraps in
the type of the source. -/
def Decimal.ofR (t : IntTy) (source : Int) (scale : Nat) : Out Decimal :=
  if scale > 18 then .panic else do
    let f ← factor10 scale
    let u := wrapSigned 8 (t.cast (source * t.cast f))
    if u > 10 ^ 18 then .panic else .ok ⟨u, .n64, 18, scale⟩

/-- `9 - precision` on `u32` without overflow checks, /repo/src/types/column/datetime64.rs:122, 135. -/
def ninesLeft (precision : Nat) : Nat := (2 ^ 32 + 9 - precision) % 2 ^ 32

/-- `to_datetime`, /repo/src/types/column/datetime64.rs:126-144, without overflow checks. -/
def toDatetimeR (value : Int) (precision : Nat) : Out (Int × Nat) :=
  let nano := if precision < 19 then wrapSigned 8 (value * powI64 (ninesLeft precision)) else 0
  let sec := Int.tdiv nano 1000000000
  let nsec := nano - sec * 1000000000
  if nsec < 0 then .panic else .ok (sec, nsec.toNat)

/-- `from_datetime`, /repo/src/types/column/datetime64.rs:119-123, without overflow checks; the `unwrap` stays, and so does the panic
upon division by zero. -/
def fromDatetimeR (secs : Int) (nanos : Nat) (precision : Nat) : Out Int := do
  let ts ← checkI64 (secs * 1000000000 + nanos)
  if powI64 (ninesLeft precision) = 0 then .panic else pure (Int.tdiv ts (powI64 (ninesLeft precision)))

/-- The `DateTime64` arm of `PartialEq for Value`, /repo/src/types/value.rs:120-143, without overflow checks. -/
def dt64EqR (a : Int) (p : Nat) (b : Int) (q : Nat) : Out Bool :=
  if p = q then do
    let f ← multiplier p
    pure (wrapSigned 8 (a * f) == wrapSigned 8 (b * f))
  else .ok false

/-- `ArrayColumnData::at`, /repo/src/types/column/array.rs:85-100, without overflow checks: `end - start` wraps, and `with_capacity`
panics if the values would take more than `isize::MAX` bytes. `sz` is the size of a `ValueRef`, `c` the inner column. -/
def arrayAtR (sz : Nat) (offs : List Nat) (c : Col) (i : Nat) : Out Value := do
  let start ← if i > 0 then idx offs (i - 1) else Out.ok 0
  let stop ← idx offs i
  if (2 ^ 64 + stop - start) % 2 ^ 64 * sz > isizeMax then Out.panic
  else do
    let vs ← rangeOut (fun j => c.at j) start stop
    pure (.array c.sqlType vs)

/-- `MapColumnData::at`, /repo/src/types/column/map.rs:94-111, without overflow checks: `end - start` wraps, and
`HashMap::with_capacity` panics unless a table of that many entries can be had, which is what `fits` says. -/
def mapAtR (fits : Nat → Bool) (offs : List Nat) (k v : Col) (i : Nat) : Out Value := do
  let start ← if i > 0 then idx offs (i - 1) else Out.ok 0
  let stop ← idx offs i
  if fits ((2 ^ 64 + stop - start) % 2 ^ 64) = false then Out.panic
  else do
    let ks ← rangeOut (fun j => k.at j) start stop
    let vs ← rangeOut (fun j => v.at j) start stop
    let m ← mapBuild ([], []) ks vs
    pure (.map k.sqlType v.sqlType m.1 m.2)

end CH
