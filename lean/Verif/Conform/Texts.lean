import Verif.Model.SqlType
import Verif.Model.Decimal
import Verif.Model.Float
import Verif.Model.Wire
import Verif.Model.Insert
import Verif.Model.Pool

/-!
The project's own unit tests, read as statements about the model: names of types, decimals, integers of variable length, quoting,
rotation. Each `example` is one assertion of the test named in its comment. They are tests of the model's fidelity, not claims.
-/

namespace CH.Conform
open CH

/-! `test_parse_decimal`, /repo/src/types/column/factory.rs:554-564. -/

example : parseDecimal "Decimal(9, 4)".toList = some (9, 4, .n32) := by decide +kernel
example : parseDecimal "Decimal(10, 4)".toList = some (10, 4, .n64) := by decide +kernel
example : parseDecimal "Decimal(20, 4)".toList = none := by decide +kernel
example : parseDecimal "Decimal(2000, 4)".toList = none := by decide +kernel
example : parseDecimal "Decimal(3, 4)".toList = none := by decide +kernel
example : parseDecimal "Decimal(20, -4)".toList = none := by decide +kernel
example : parseDecimal "Decimal(0)".toList = none := by decide +kernel
example : parseDecimal "Decimal(1, 2, 3)".toList = none := by decide +kernel
example : parseDecimal "Decimal64(9)".toList = some (18, 9, .n64) := by decide +kernel
/-! `test_parse_array_type`, `test_parse_nullable_type`, `test_parse_fixed_string`, /repo/src/types/column/factory.rs:567-583. -/

example : parseArray "Array(UInt8)".toList = .ok (some "UInt8".toList) := by decide +kernel
example : parseNullable "Nullable(Int8)".toList = .ok (some "Int8".toList) := by decide +kernel
example : parseNullable "Int8".toList = .ok none := by decide +kernel
example : parseNullable "Nullable(Nullable(Int8))".toList = .ok none := by decide +kernel
example : parseFixedString "FixedString(8)".toList = .ok (some 8) := by decide +kernel
example : parseFixedString "FixedString(zz)".toList = .ok none := by decide +kernel
example : parseFixedString "Int8".toList = .ok none := by decide +kernel
/-! `test_parse_enum8` … `test_parse_enum16_starting_comma`, /repo/src/types/column/factory.rs:586-724. -/

example : parseEnum8 "Enum8 ('a' = 1, 'b' = 2)".toList = some [("a".toList, 1), ("b".toList, 2)] := by decide +kernel
example : parseEnum8 "Enum8 ('a' = 1)".toList = some [("a".toList, 1)] := by decide +kernel
example : parseEnum8 "Enum8 ('' = 1, '' = 2)".toList = some [("".toList, 1), ("".toList, 2)] := by decide +kernel
example : parseEnum8 "Enum8 ('' = 1)".toList = some [("".toList, 1)] := by decide +kernel
example : parseEnum8 "Enum8 ('a' = 1, 'b' = 2,)".toList = none := by decide +kernel
example : parseEnum8 "Enum8 ()".toList = none := by decide +kernel
example : parseEnum8 "Enum8 ('a' =)".toList = none := by decide +kernel
example : parseEnum8 "Enum8 ( = 1)".toList = none := by decide +kernel
example : parseEnum8 "Enum8 ( , 'a' = 1)".toList = none := by decide +kernel
example : parseEnum16 "Enum16 ('a' = 1, 'b' = 2)".toList = some [("a".toList, 1), ("b".toList, 2)] := by decide +kernel
example : parseEnum16 "Enum16 ('a' = 1)".toList = some [("a".toList, 1)] := by decide +kernel
example : parseEnum16 "Enum16 ('' = 1, '' = 2)".toList = some [("".toList, 1), ("".toList, 2)] := by decide +kernel
example : parseEnum16 "Enum16 ('' = 1)".toList = some [("".toList, 1)] := by decide +kernel
example : parseEnum16 "Enum16 ('a' = 1, 'b' = 2,)".toList = none := by decide +kernel
example : parseEnum16 "Enum16 ()".toList = none := by decide +kernel
example : parseEnum16 "Enum16 ('a' =)".toList = none := by decide +kernel
example : parseEnum16 "Enum16 ( = 1)".toList = none := by decide +kernel
example : parseEnum16 "Enum16 ( , 'a' = 1)".toList = none := by decide +kernel
example : parseEnum16 "Enum16('a_' = -128, 'b&' = 0)".toList = some [("a_".toList, -128), ("b&".toList, 0)] := by decide +kernel
/-! `test_parse_date_time` … `test_parse_low_cardinality`, /repo/src/types/column/factory.rs:727-775. -/

example : parseDateTime " DateTime ( 'Europe/Moscow' )".toList = some (some "Europe/Moscow".toList) := by decide +kernel
example : parseDateTime " DateTime".toList = some none := by decide +kernel
example : parseDateTime64 " DateTime64 ( 3 , 'Europe/Moscow' )".toList = some (3, some "Europe/Moscow".toList) := by decide +kernel
example : parseDateTime64 " DateTime64( 5 )".toList = some (5, none) := by decide +kernel
example : parseSimpleAgg "SimpleAggregateFunction( sum , Double )".toList = some (.sum, "Double".toList) := by decide +kernel
example : parseMap "Map(UInt8, Map(UInt8,UInt8))".toList = .ok (some ("UInt8".toList, "Map(UInt8,UInt8)".toList)) := by decide +kernel
example : parseLowCard "LowCardinality ( String )".toList = .ok (some "String".toList) := by decide +kernel
/-! `test_new`, /repo/src/types/decimal.rs:270-273. Numbers of `f64` have 53 significant bits, of `f32` 24. -/

/-- Two decimals as `assert_eq!` compares them. -/
def same (a b : Out Decimal) : Out Bool := do (← a).eq (← b)

/-- The integer type `i32` of unsuffixed literals. -/
def int32 : IntTy := ⟨4, true⟩

example : same (Decimal.new 2 1) (Decimal.ofFlt 53 (.fin 3602879701896397 54) 1) = .ok true := by decide +kernel
example : same (Decimal.new 2 5) (Decimal.ofFlt 53 (.fin 5902958103587057 68) 5) = .ok true := by decide +kernel
/-! `test_display`, /repo/src/types/decimal.rs:276-281, `test_decimal2str`, 344-348. -/

example : Decimal.toStr <$> (Decimal.ofFlt 24 (.fin 4404019 21) 4) = .ok "2.1000".toList := by decide +kernel
example : Decimal.toStr <$> (Decimal.ofFlt 53 (.fin 3602879701896397 54) 4) = .ok "0.2000".toList := by decide +kernel
example : Decimal.toStr <$> (Decimal.of int32 2 4) = .ok "2.0000".toList := by decide +kernel
example : Decimal.toStr <$> (Decimal.ofFlt 53 (.fin 5902958103587057 69) 5) = .ok "0.00001".toList := by decide +kernel
/-! `test_eq`, /repo/src/types/decimal.rs:284-293. -/

example : same (Decimal.ofFlt 53 (.fin 2 0) 4) (Decimal.ofFlt 53 (.fin 2 0) 4) = .ok true := by decide +kernel
example : same (Decimal.ofFlt 53 (.fin 3 0) 4) (Decimal.ofFlt 53 (.fin 2 0) 4) = .ok false := by decide +kernel
example : same (Decimal.ofFlt 53 (.fin 2 0) 4) (Decimal.ofFlt 53 (.fin 2 0) 2) = .ok true := by decide +kernel
example : same (Decimal.ofFlt 53 (.fin 2 0) 4) (Decimal.ofFlt 53 (.fin 3 0) 2) = .ok false := by decide +kernel
example : same (Decimal.ofFlt 53 (.fin 2 0) 2) (Decimal.ofFlt 53 (.fin 2 0) 4) = .ok true := by decide +kernel
example : same (Decimal.ofFlt 53 (.fin 3 0) 2) (Decimal.ofFlt 53 (.fin 2 0) 4) = .ok false := by decide +kernel
/-! `test_internal32`, `test_internal64`, `test_scale`, /repo/src/types/decimal.rs:296-310. -/

example : (fun d => wrapSigned 4 d.underlying) <$> (Decimal.of int32 2 4) = .ok 20000 := by decide +kernel
example : (fun d => d.underlying) <$> (Decimal.of int32 2 4) = .ok 20000 := by decide +kernel
example : (fun d => d.scale) <$> (Decimal.of int32 2 4) = .ok 4 := by decide +kernel
/-! `test_from_f32`, `test_from_f64`, /repo/src/types/decimal.rs:313-322: the result is 2 exactly. -/

example : (do let d ← Decimal.of int32 2 4; let x ← d.toFlt 24; match x with | .fin n k => .ok (decide (n = 2 * 2 ^ k)) | _ => .ok false : Out Bool) = .ok true := by decide +kernel
example : (do let d ← Decimal.of int32 2 4; let x ← d.toFlt 53; match x with | .fin n k => .ok (decide (n = 2 * 2 ^ k)) | _ => .ok false : Out Bool) = .ok true := by decide +kernel
/-! `set_scale1`, `set_scale2`, /repo/src/types/decimal.rs:325-341. -/

example : (fun b => (b.scale, b.underlying)) <$> (Decimal.of int32 12 3 >>= fun a => a.setScale 2) = .ok (2, 1200) := by decide +kernel
example : (fun b => (b.scale, b.underlying)) <$> (Decimal.of int32 12 3 >>= fun a => a.setScale 4) = .ok (4, 120000) := by decide +kernel
/-! `test_put_uvarint`, /repo/src/binary/uvarint.rs:19-27. -/

example : putUvarint 100500 = [148, 145, 6] := by decide +kernel
/-! `test_column_name_to_string`, /repo/src/lib.rs:658-663. `char::is_numeric` is a parameter of the model; here it is the digits. -/

example : columnNameToString isDigitC "id".toList = .ok "`id`".toList := by decide +kernel
example : columnNameToString isDigitC "234".toList = .ok "234".toList := by decide +kernel
example : columnNameToString isDigitC "ns:attr".toList = .ok "`ns:attr`".toList := by decide +kernel
example : ∃ e, columnNameToString isDigitC "`".toList = .err e := ⟨_, rfl⟩

/-! `test_get_addr`, /repo/src/pool/mod.rs:416-425: three hosts, four calls. -/

example : Pool.getAddr 3 0 = some (0, 1) ∧ Pool.getAddr 3 1 = some (1, 2) ∧ Pool.getAddr 3 2 = some (2, 3) ∧ Pool.getAddr 3 3 = some (0, 4) := by
  decide +kernel

end CH.Conform
