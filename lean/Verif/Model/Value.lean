import Verif.Model.Decimal
import Verif.Model.Wire

/-!
Model of `Value` (/repo/src/types/value.rs) and `ValueRef` (/repo/src/types/value_ref.rs).

The two Rust enums have the same shape (owned against borrowed payload), except that `ValueRef` has no
`ChronoDateTime`; one Lean type stands for both, and the functions below say which Rust type they model.
Numbers are their bit patterns. A `HashMap` is a pair of lists (keys, values) in some iteration order, with no two
equal keys; the order is arbitrary (any list), so theorems about maps hold for every iteration order.
-/

namespace CH

/-- `Value`, /repo/src/types/value.rs:26-58; `ValueRef`, /repo/src/types/value_ref.rs:25-54 (all but `chrono`). -/
inductive Value where
  | num (t : NumTy) (raw : Nat)
  | str (b : Bytes)
  | date (days : Nat)
  | datetime (secs : Nat) (tz : Tz)
  | dt64 (v : Int) (precision : Nat) (tz : Tz)
  | chrono (secs : Int) (nanos : Nat) (tz : Tz)
  | ip (k : IpKind) (b : Bytes)
  | null (t : SqlType)
  | some (v : Value)
  | array (t : SqlType) (vs : List Value)
  | decimal (d : Decimal)
  | enum (w : EnumW) (items : List (Str × Int)) (v : Int)
  | map (kt vt : SqlType) (ks vs : List Value)
deriving Repr

/-- `DEFAULT_TZ`, /repo/src/types/column/datetime64.rs:18-20. -/
def defaultTz : Tz := "Zulu".toList

/-- `IpVersion::size`, /repo/src/types/column/ip.rs:42, 70, 98. -/
def IpKind.size : IpKind → Nat
  | .v4 => 4
  | .v6 => 16
  | .uuid => 16

/-- `Value::default`, /repo/src/types/value.rs:152-191. The default `DateTime` (`0_u32.to_date(..)`) is
`ValueRef::DateTime(0, tz)` turned into a `Value`. -/
def Value.default : SqlType → Value
  | .num t => .num t 0
  | .string => .str []
  | .lowCard t => Value.default t
  | .fixedString n => .str (List.replicate n 0)
  | .date => .date 0
  | .dt64 _ _ => .dt64 0 1 defaultTz
  | .simpleAgg _ t => Value.default t
  | .datetime => .datetime 0 defaultTz
  | .chrono => .datetime 0 defaultTz
  | .nullable t => .null t
  | .array t => .array t []
  | .decimal p s => .decimal ⟨0, .n64, p, s⟩
  | .ip k => .ip k (List.replicate k.size 0)
  | .enum w items => .enum w items 0
  | .map k v => .map k v [] []

/-- `From<Value> for SqlType`, /repo/src/types/value.rs:279-320, and `From<ValueRef> for SqlType`,
/repo/src/types/value_ref.rs:199-240 (identical apart from `chrono`). -/
def Value.sqlType : Value → SqlType
  | .num t _ => .num t
  | .str _ => .string
  | .date _ => .date
  | .datetime _ _ => .datetime
  | .dt64 _ p tz => .dt64 p tz
  | .chrono _ _ _ => .datetime
  | .ip k _ => .ip k
  | .null t => .nullable t
  | .some v => .nullable v.sqlType
  | .array t _ => .array t
  | .decimal d => .decimal d.precision d.scale
  | .enum w items _ => .enum w items
  | .map k v _ _ => .map k v

/-- `to_datetime`, /repo/src/types/column/datetime64.rs:126-144: seconds and nanoseconds of the resulting instant. `i64`
multiplication overflow panics; `9 - precision` underflows (panics) for precisions 10 to 18; from 19 on the value is
ignored. A negative `nsec` becomes, cast to `u32`, at least 3294967297, which `timestamp_opt` rejects, so `unwrap`
panics. -/
def toDatetime (value : Int) (precision : Nat) : Out (Int × Nat) := do
  let nano ←
    if precision < 19 then
      if precision ≤ 9 then checkI64 (value * 10 ^ (9 - precision)) else Out.panic
    else Out.ok 0
  let sec := Int.tdiv nano 1000000000
  let nsec := nano - sec * 1000000000
  if nsec < 0 then .panic else .ok (sec, nsec.toNat)

/-- `from_datetime`, /repo/src/types/column/datetime64.rs:119-123: `timestamp_nanos_opt().unwrap()` panics outside `i64`,
`9 - precision` underflows beyond 9, the division truncates toward zero. -/
def fromDatetime (secs : Int) (nanos : Nat) (precision : Nat) : Out Int := do
  let ts ← checkI64 (secs * 1000000000 + nanos)
  if precision ≤ 9 then pure (Int.tdiv ts (10 ^ (9 - precision))) else Out.panic

/-- `From<Value> for DateTime<Tz>`, /repo/src/types/value.rs:558-573 (seconds, nanoseconds, zone). -/
def Value.toAppDateTime : Value → Out (Int × Nat × Tz)
  | .datetime u tz => .ok (u, 0, tz)
  | .dt64 u p tz => do
    let (s, n) ← toDatetime u p
    pure (s, n, tz)
  | .chrono s n tz => .ok (s, n, tz)
  | _ => .panic

/-- Cast of a signed number to `u32` (`timestamp() as u32`). -/
def asU32 (v : Int) : Nat := (v % (2 ^ 32 : Nat)).toNat

/-- `get_str_buffer` / `From<Value> for Vec<u8>`, /repo/src/types/value.rs:496-516. -/
def Value.toBytes : Value → Out Bytes
  | .str b => .ok b
  | _ => .panic

/-- `From<ValueRef> for u8` etc. (/repo/src/types/value_ref.rs:425-470): panic on any other variant. -/
def Value.toNum (t : NumTy) : Value → Out Nat
  | .num t' raw => if t' = t then .ok raw else .panic
  | _ => .panic

/-- Values of element type that `Hash for ValueRef` accepts, /repo/src/types/value_ref.rs:56-75; everything else is
`unimplemented!()`. -/
def Value.refHashable : Value → Bool
  | .str _ => true
  | .num t _ => t ≠ .bool ∧ t ≠ .f32 ∧ t ≠ .f64
  | _ => false

/-- Equality of two hashable keys: `PartialEq for ValueRef`/`Value` restricted to integers and strings. -/
def Value.keyEq : Value → Value → Bool
  | .str a, .str b => a == b
  | .num t a, .num t' b => t == t' && a == b
  | _, _ => false

/-- Position of a key among keys. -/
def keyIndex (k : Value) : List Value → Option Nat
  | [] => none
  | x :: xs => if Value.keyEq x k then some 0 else (keyIndex k xs).map (· + 1)

/-- `HashMap::insert`: replaces the value of an equal key (the old key stays), otherwise adds the pair. -/
def mapInsert (m : List Value × List Value) (k v : Value) : List Value × List Value :=
  match keyIndex k m.1 with
  | some i => (m.1, m.2.set i v)
  | none => (m.1 ++ [k], m.2 ++ [v])

/-- The loop filling the `HashMap` in `MapColumnData::at`, /repo/src/types/column/map.rs:104-109: hashing a key of an
unsupported type panics. -/
def mapBuild (m : List Value × List Value) : List Value → List Value → Out (List Value × List Value)
  | k :: ks, v :: vs => if k.refHashable then mapBuild (mapInsert m k v) ks vs else .panic
  | _, _ => .ok m

end CH
