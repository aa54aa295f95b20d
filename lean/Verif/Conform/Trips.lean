import Verif.Conform.Data
import Verif.Model.Cast

/-!
The project's integration tests (/repo/tests/clickhouse.rs), as far as they are about values: what is inserted in a table and
selected again. The server's part is to keep the bytes of each column and to send them back under the type of the table. Each
`example` is a column of the test named above it. They are tests of the model's fidelity, not claims.
-/

namespace CH.Conform
open CH

/-- `FromStr` of the addresses in the tests. -/
def addresses : IpKind → String → Option Bytes
  | .v4, "192.168.2.1" => some [192, 168, 2, 1]
  | .v4, "1.2.3.4" => some [1, 2, 3, 4]
  | .v4, "127.0.0.1" => some [127, 0, 0, 1]
  | .v6, "0001:0203:0405:0607:0809:0A0B:0C0D:0E0F" => some [0, 1, 2, 3, 4, 5, 6, 7, 8, 9, 10, 11, 12, 13, 14, 15]
  | .v6, "::1" => some [0, 0, 0, 0, 0, 0, 0, 0, 0, 0, 0, 0, 0, 0, 0, 1]
  | .v6, "1::" => some [0, 1, 0, 0, 0, 0, 0, 0, 0, 0, 0, 0, 0, 0, 0, 0]
  | _, _ => none

/-- What a column of the given Rust values is after `insert` in a table with a column of this type, and `SELECT` of it: the type is
read from the header the server sends, the column is cast to it and saved; the saved bytes come back under that type. -/
def trip (type : String) (c : Out Col) : Out Col := do
  let c ← c
  match loadData (fun _ => true) "UTC".toList type.toList 0 [] with
  | .ok header _ =>
    let d ← c.castTo addresses header.sqlType
    let n ← d.len
    match loadData (fun _ => true) "UTC".toList type.toList n (← d.save 0 n) with
    | .ok e [] => pure e
    | _ => Out.panic
  | _ => Out.panic

mutual
/-- Two results of typed reads are the same; instants are compared as points in time. -/
def sameRead : RustVal → RustVal → Bool
  | .num a, .num b => a == b
  | .decimal a, .decimal b => a.underlying == b.underlying && a.scale == b.scale
  | .enum a, .enum b => a == b
  | .text a, .text b => a == b
  | .bytes a, .bytes b => a == b
  | .ip a, .ip b => a == b
  | .date a, .date b => a == b
  | .time s n _, .time s' n' _ => s == s' && n == n'
  | .vec a, .vec b => sameReads a b
  | .none, .none => true
  | .some a, .some b => sameRead a b
  | .hmap a b, .hmap c d => sameReads a c && sameReads b d
  | _, _ => false
termination_by structural a => a
/-- One by one. -/
def sameReads : List RustVal → List RustVal → Bool
  | [], [] => true
  | x :: xs, y :: ys => sameRead x y && sameReads xs ys
  | _, _ => false
termination_by structural a => a
end

/-- The typed reads of all rows give these values. -/
def reads (c : Out Col) (T : Target) (vs : List RustVal) : Out Bool := do
  let c ← c
  let rs ← mapOut (fun i => do fromSql T (← c.at i)) (List.range (← c.len))
  pure (sameReads rs vs)

/-- A point in time in UTC. -/
def utc (secs : Int) (nanos : Nat := 0) : Int × Nat × Tz := (secs, nanos, "UTC".toList)
/-- A point in time in Istanbul. -/
def ist (secs : Int) (nanos : Nat := 0) : Int × Nat × Tz := (secs, nanos, "Asia/Istanbul".toList)
/-- 2016-10-22 12:00:00 UTC. -/
def noon : Int := 1477137600
/-- 2014-07-08 14:00:00 UTC. -/
def july : Int := 1404828000
/-- A time read back. -/
def at' (secs : Int) (nanos : Nat := 0) : RustVal := .time secs nanos "UTC".toList

/-! `test_datetime_read_write`, /repo/tests/clickhouse.rs:259-468. -/

example : ∀ t ∈ ["DateTime", "DateTime('UTC')", "DateTime('Asia/Istanbul')"],
    reads (trip t (colOf .time [utc noon, ist noon, ist noon])) .time [at' noon, at' noon, at' noon] = .ok true := by decide +kernel
example : ∀ t ∈ ["Nullable(DateTime)", "Nullable(DateTime('UTC'))", "Nullable(DateTime('Asia/Istanbul'))"],
    reads (trip t (optOf .time [some (utc noon), some (ist noon), none])) (.opt .time) [.some (at' noon), .some (at' noon), .none] =
      .ok true := by decide +kernel

/-! `test_datetime64_read_write`, 472-796: the server shows `DateTime(3, 'UTC')` as `DateTime64(3, 'UTC')`. -/

example : ∀ t ∈ ["DateTime64(3)", "DateTime64(3, 'UTC')", "DateTime64(3, 'Asia/Istanbul')"],
    reads (trip t (colOf .time [utc noon 123456678, ist noon 123456678, ist noon 123456678])) .time
      [at' noon 123000000, at' noon 123000000, at' noon 123000000] = .ok true := by decide +kernel
example : ∀ t ∈ ["Nullable(DateTime64(3))", "Nullable(DateTime64(3, 'UTC'))", "Nullable(DateTime64(3, 'Asia/Istanbul'))"],
    reads (trip t (optOf .time [some (utc noon 123456678), some (ist noon 123456678), none])) (.opt .time)
      [.some (at' noon 123000000), .some (at' noon 123000000), .none] = .ok true := by decide +kernel

/-! `test_nullable`, 1156-1287. -/

example : ∀ t ∈ [NumTy.i8, .i16, .i32, .i64, .u8, .u16, .u32, .u64, .f32, .f64, .bool],
    reads (trip ("Nullable(" ++ String.ofList (SqlType.name (.num t)) ++ ")") (optOf (.num t) [some (1 : Nat)])) (.opt (.num t))
      [.some (.num 1)] = .ok true := by decide +kernel
example : reads (trip "Nullable(String)" (optOf .text [some "text"])) (.opt .text) [.some (.text "text")] = .ok true := by decide +kernel
example : reads (trip "Nullable(Date)" (optOf .date [some (17096 : Int)])) (.opt .date) [.some (.date 17096)] = .ok true := by
  decide +kernel
example : reads (trip "Nullable(DateTime)" (optOf .time [some (utc july)])) (.opt .time) [.some (at' july)] = .ok true := by
  decide +kernel
example : reads (trip "Nullable(DateTime64(3, 'UTC'))" (optOf .time [some (utc july)])) (.opt .time) [.some (at' july)] = .ok true := by
  decide +kernel
example : reads (trip "Nullable(IPv4)" (optOf (.ip .v4) [some [127, 0, 0, 1]])) (.opt (.ip .v4)) [.some (.ip [127, 0, 0, 1])] =
    .ok true := by decide +kernel
example : reads (trip "Nullable(IPv6)" (optOf (.ip .v6) [some [0, 0, 0, 0, 0, 0, 0, 0, 0, 0, 0xff, 0xff, 0xc0, 0x0a, 0x02, 0xff]]))
    (.opt (.ip .v6)) [.some (.ip [0, 0, 0, 0, 0, 0, 0, 0, 0, 0, 0xff, 0xff, 0xc0, 0x0a, 0x02, 0xff])] = .ok true := by decide +kernel

/-- The bytes of 936da01f-9abd-4d9d-80c7-02af85c822a8. -/
def uuid1 : Bytes := [0x93, 0x6d, 0xa0, 0x1f, 0x9a, 0xbd, 0x4d, 0x9d, 0x80, 0xc7, 0x02, 0xaf, 0x85, 0xc8, 0x22, 0xa8]

example : reads (trip "Nullable(UUID)" (optOf (.ip .uuid) [some uuid1])) (.opt (.ip .uuid)) [.some (.ip uuid1)] = .ok true := by
  decide +kernel

/-! `test_fixed_string`, 1321-1353, and `test_binary_string`, 1398-1441. -/

example : reads (trip "FixedString(4)" (colOf .text ["text"])) .text [.text "text"] = .ok true := by decide +kernel
example : reads (trip "Nullable(FixedString(4))" (optOf .text [some "text"])) (.opt .text) [.some (.text "text")] = .ok true := by
  decide +kernel
example : reads (trip "String" (vecOf (.num .u8) [[(0 : Nat), (159 : Nat), (146 : Nat), (150 : Nat)]])) .bytes
    [.bytes [0, 159, 146, 150]] = .ok true := by decide +kernel
example : reads (trip "FixedString(4)" (vecOf (.num .u8) [[(0 : Nat), (159 : Nat), (146 : Nat), (150 : Nat)]])) .bytes
    [.bytes [0, 159, 146, 150]] = .ok true := by decide +kernel
example : reads (trip "Nullable(String)" (optOf .bytes [some [0, 159, 146, 150]])) (.opt .bytes) [.some (.bytes [0, 159, 146, 150])] =
    .ok true := by decide +kernel
example : reads (trip "Nullable(FixedString(4))" (optOf .bytes [some [0, 159, 146, 150]])) (.opt .bytes)
    [.some (.bytes [0, 159, 146, 150])] = .ok true := by decide +kernel

/-! `test_enum_16_not_nullable` to `test_enum_8_array`, 1445-1641. -/

example : reads (trip "Enum16('zero' = 5, 'first' = 6)" (colOf (.enum .w16) [(5 : Int), (6 : Int)])) (.enum .w16) [.enum 5, .enum 6] =
    .ok true := by decide +kernel
example : reads (trip "Nullable(Enum16('zero' = 5, 'first' = 6))" (optOf (.enum .w16) [some (5 : Int), some (6 : Int), none]))
    (.opt (.enum .w16)) [.some (.enum 5), .some (.enum 6), .none] = .ok true := by decide +kernel
example : reads (trip "Array(Enum16('zero' = 5, 'first' = 6))" (vecOf (.enum .w16) [[(5 : Int)], [(6 : Int)]])) (.vecEnum .w16)
    [.vec [.enum 5], .vec [.enum 6]] = .ok true := by decide +kernel
example : reads (trip "Enum8('zero' = 1, 'first' = 2)" (colOf (.enum .w8) [(1 : Int), (2 : Int)])) (.enum .w8) [.enum 1, .enum 2] =
    .ok true := by decide +kernel
example : reads (trip "Array(Enum8('zero' = 5, 'first' = 6))" (vecOf (.enum .w8) [[(5 : Int)], [(6 : Int)]])) (.vecEnum .w8)
    [.vec [.enum 5], .vec [.enum 6]] = .ok true := by decide +kernel

/-! `test_array`, 1646-1706. -/

example : reads (trip "Array(UInt8)" (vecOf (.num .u8) [[(41 : Nat)]])) .vecU8 [.vec [.num 41]] = .ok true := by decide +kernel
example : reads (trip "Array(UInt32)" (vecOf (.num .u32) [[(42 : Nat)]])) (.vecNum .u32) [.vec [.num 42]] = .ok true := by decide +kernel
example : reads (trip "Array(Float64)" (vecOf (.num .f64) [[(0x4045000000000000 : Nat)]])) (.vecNum .f64)
    [.vec [.num 0x4045000000000000]] = .ok true := by decide +kernel
example : reads (trip "Array(String)" (vecOf .text [["A"]])) .vecText [.vec [.text "A"]] = .ok true := by decide +kernel
example : reads (trip "Array(Date)" (vecOf .date [[(17096 : Int)]])) .vecDate [.vec [.date 17096]] = .ok true := by decide +kernel
example : reads (trip "Array(DateTime)" (vecOf .time [[utc july]])) .vecTime [.vec [at' july]] = .ok true := by decide +kernel
example : reads (trip "Array(DateTime64(3, 'UTC'))" (vecOf .time [[utc july]])) .vecTime [.vec [at' july]] = .ok true := by decide +kernel
example : reads (trip "Array(Bool)" (vecOf (.num .bool) [[(1 : Nat)]])) (.vecNum .bool) [.vec [.num 1]] = .ok true := by decide +kernel

/-! `test_decimal`, 1711-1741. -/

/-- `Decimal::of` of the literals 1.234, 5 and 1.23. -/
def d1234 : Out Decimal := Decimal.ofFlt 53 (.fin 5557441940175192 52) 3
/-- Five, with three digits. -/
def d5 : Out Decimal := Decimal.of ⟨4, true⟩ 5 3
/-- 1.23, with two digits. -/
def d123 : Out Decimal := Decimal.ofFlt 53 (.fin 5539427541665710 52) 2

example : reads (do trip "Decimal(8, 3)" (colOf .decimal [← d1234, ← d5])) .decimal
    [.decimal ⟨1234, .n32, 8, 3⟩, .decimal ⟨5000, .n32, 8, 3⟩] = .ok true := by decide +kernel
example : reads (do trip "Nullable(Decimal(10, 2))" (optOf .decimal [none, some (← d123)])) (.opt .decimal)
    [.none, .some (.decimal ⟨123, .n64, 10, 2⟩)] = .ok true := by decide +kernel

/-! `test_ip_from_string`, `test_ipv6_from_string`, 1999-2068. -/

example : reads (trip "IPv4" (colOf .text ["192.168.2.1", "1.2.3.4"])) (.ip .v4) [.ip [192, 168, 2, 1], .ip [1, 2, 3, 4]] = .ok true := by
  decide +kernel
example : reads (trip "IPv6" (colOf .text ["0001:0203:0405:0607:0809:0A0B:0C0D:0E0F", "::1", "1::"])) (.ip .v6)
    [.ip [0, 1, 2, 3, 4, 5, 6, 7, 8, 9, 10, 11, 12, 13, 14, 15], .ip [0, 0, 0, 0, 0, 0, 0, 0, 0, 0, 0, 0, 0, 0, 0, 1],
     .ip [0, 1, 0, 0, 0, 0, 0, 0, 0, 0, 0, 0, 0, 0, 0, 0]] = .ok true := by decide +kernel

/-! `test_insert_date64`, 2110-2147, `test_simple_agg_func` without the aggregation, 2152-2184, `test_map`, 2189-2239,
`test_iter_map`, 2244-2301. -/

/-- The column of a block whose rows are pushed. -/
def column (name : String) (b : Out Block) : Out Col := do pure (← (← b).getColumn (.name name)).data

example : reads (trip "DateTime64(9, 'UTC')" (column "date" (pushed [[("id", toValue (.num .u32) (1 : Nat)),
    ("date", toValue .time (utc 1580737550 8927265))]]))) .time [at' 1580737550 8927265] = .ok true := by decide +kernel
example : yields (do (← trip "SimpleAggregateFunction(sum, Int64)" (column "val" (pushed [
    [("id", toValue (.num .u64) (1 : Nat)), ("val", toValue (.num .i64) (6 : Nat))],
    [("id", toValue (.num .u64) (2 : Nat)), ("val", toValue (.num .i64) (9 : Nat))]]))).iter utcOnly (.num .i64))
    [.num .i64 6, .num .i64 9] = .ok true := by decide +kernel
example : reads (trip "Map(String, UInt8)" (column "map" (pushed [[("id", toValue (.num .u32) (1 : Nat)),
    ("map", toValue (.hmap .text (.num .u8)) [("test", (0 : Nat)), ("foo", (1 : Nat))])]]))) (.hmap .text (.num .u8))
    [.hmap [.text "test", .text "foo"] [.num 0, .num 1]] = .ok true := by decide +kernel
example : reads (trip "Map(UInt8,Map(UInt8,UInt8))" (column "map" (pushed [[("map", toValue (.hmap (.num .u8) (.hmap (.num .u8) (.num .u8)))
    [((1 : Nat), [((3 : Nat), (5 : Nat))]), ((2 : Nat), [((4 : Nat), (6 : Nat)), ((7 : Nat), (8 : Nat))])])]])))
    (.hmap (.num .u8) (.hmap (.num .u8) (.num .u8)))
    [.hmap [.num 1, .num 2] [.hmap [.num 3] [.num 5], .hmap [.num 4, .num 7] [.num 6, .num 8]]] = .ok true := by decide +kernel
example : reads (trip "Map(UInt8,Nullable(UInt8))" (column "opt_map" (pushed [[("opt_map", .ok (.map (.num .u8) (.nullable (.num .u8))
    [.num .u8 3, .num .u8 5] [.some (.num .u8 4), .some (.num .u8 6)]))]]))) (.hmap (.num .u8) (.opt (.num .u8)))
    [.hmap [.num 3, .num 5] [.some (.num 4), .some (.num 6)]] = .ok true := by decide +kernel

/-! `test_iter_low_cardinality`, 2305-2395, and `test_low_cardinality`, 2399-2470. -/

example : reads (trip "LowCardinality(String)" (colOf .text ["A", "B", "C", "B", "B"])) .text
    [.text "A", .text "B", .text "C", .text "B", .text "B"] = .ok true := by decide +kernel
example : reads (trip "LowCardinality(FixedString(2))" (colOf .text ["AA", "BB", "CC", "BB", "BB"])) .text
    [.text "AA", .text "BB", .text "CC", .text "BB", .text "BB"] = .ok true := by decide +kernel
example : reads (trip "LowCardinality(Date)" (colOf .date [(17096 : Int), (17096 : Int)])) .date [.date 17096, .date 17096] =
    .ok true := by decide +kernel
example : reads (trip "LowCardinality(DateTime)" (colOf .time [utc noon, utc noon])) .time [at' noon, at' noon] = .ok true := by
  decide +kernel
example : reads (trip "LowCardinality(UInt32)" (colOf (.num .u32) [(1 : Nat), (2 : Nat), (3 : Nat), (2 : Nat), (2 : Nat)])) (.num .u32)
    [.num 1, .num 2, .num 3, .num 2, .num 2] = .ok true := by decide +kernel

mutual
/-- Two items are the same; instants are compared as points in time. -/
def sameYield : Item → Item → Bool
  | .num t x, .num t' y => t == t' && x == y
  | .ip k x, .ip k' y => k == k' && x == y
  | .bytes x, .bytes y => x == y
  | .decimal x, .decimal y => x.underlying == y.underlying && x.scale == y.scale
  | .time s n _, .time s' n' _ => s == s' && n == n'
  | .naive s n, .naive s' n' => s == s' && n == n'
  | .date x, .date y => x == y
  | .none, .none => true
  | .some x, .some y => sameYield x y
  | .vec xs, .vec ys => sameYields xs ys
  | _, _ => false
termination_by structural a => a
/-- One by one. -/
def sameYields : List Item → List Item → Bool
  | [], [] => true
  | x :: xs, y :: ys => sameYield x y && sameYields xs ys
  | _, _ => false
termination_by structural a => a
end

/-- Iterating over the column yields these items and then ends. -/
def gives (c : Out Col) (t : ITy) (xs : List Item) : Out Bool := do
  let r ← (← c).iter utcOnly t
  pure (sameYields r.items xs && r.stop == .done)

example : gives (trip "LowCardinality(String)" (colOf .text ["A", "B", "C", "B", "B"])) .bytes
    [.bytes [65], .bytes [66], .bytes [67], .bytes [66], .bytes [66]] = .ok true := by decide +kernel
example : gives (trip "LowCardinality(FixedString(1))" (colOf .text ["A", "B", "C", "B", "B"])) .bytes
    [.bytes [65], .bytes [66], .bytes [67], .bytes [66], .bytes [66]] = .ok true := by decide +kernel
example : gives (trip "LowCardinality(DateTime)" (colOf .time [utc noon, utc noon])) .time
    [.time noon 0 "UTC".toList, .time noon 0 "UTC".toList] = .ok true := by decide +kernel
example : gives (trip "LowCardinality(Date)" (colOf .date [(17096 : Int), (17096 : Int)])) .date [.date 17096, .date 17096] =
    .ok true := by decide +kernel

/-! `test_column_iter`, 1746-1891. -/

example : gives (trip "UInt64" (colOf (.num .u64) [(1 : Nat), (2 : Nat), (3 : Nat)])) (.num .u64)
    [.num .u64 1, .num .u64 2, .num .u64 3] = .ok true := by decide +kernel
example : ∀ t ∈ ["String", "FixedString(1)"], gives (trip t (colOf .text ["A", "B", "C"])) .bytes
    [.bytes [65], .bytes [66], .bytes [67]] = .ok true := by decide +kernel
example : gives (trip "Nullable(String)" (optOf .text [some "A", none, none])) (.opt .bytes) [.some (.bytes [65]), .none, .none] =
    .ok true := by decide +kernel
example : gives (trip "Date" (colOf .date [(17096 : Int)])) .date [.date 17096] = .ok true := by decide +kernel
example : ∀ t ∈ ["DateTime", "DateTime64(3, 'UTC')"],
    gives (trip t (colOf .time [utc july])) .time [.time july 0 "UTC".toList] = .ok true := by decide +kernel
example : gives (trip "DateTime64(3, 'UTC')" (colOf .time [utc july])) .naive [.naive july 0] = .ok true := by decide +kernel
example : gives (do trip "Decimal(8, 3)" (colOf .decimal [← d1234, ← d5, ← d5])) .decimal
    [.decimal ⟨1234, .n32, 8, 3⟩, .decimal ⟨5000, .n32, 8, 3⟩, .decimal ⟨5000, .n32, 8, 3⟩] = .ok true := by decide +kernel
example : gives (trip "Array(UInt32)" (vecOf (.num .u32) [[(42 : Nat)], [], []])) (.vec (.num .u32))
    [.vec [.num .u32 42], .vec [], .vec []] = .ok true := by decide +kernel
example : gives (trip "IPv4" (colOf .text ["127.0.0.1"])) (.ip .v4) [.ip .v4 [127, 0, 0, 1]] = .ok true := by decide +kernel
example : gives (trip "IPv6" (colOf .text ["::1"])) (.ip .v6) [.ip .v6 [0, 0, 0, 0, 0, 0, 0, 0, 0, 0, 0, 0, 0, 0, 0, 1]] =
    .ok true := by decide +kernel
example : gives (trip "UUID" (colOf (.ip .uuid) [uuid1, uuid1])) (.ip .uuid) [.ip .uuid uuid1, .ip .uuid uuid1] = .ok true := by
  decide +kernel
example : gives (trip "Bool" (colOf (.num .bool) [(1 : Nat), (0 : Nat), (1 : Nat)])) (.num .bool)
    [.num .bool 1, .num .bool 0, .num .bool 1] = .ok true := by decide +kernel

/-! `test_int_128`, `test_iter_int_128`, 2474 onwards. -/

example : ∀ t ∈ [("Int128", NumTy.i128), ("UInt128", .u128)],
    reads (trip t.1 (colOf (.num t.2) [(1000 : Nat), (2000000 : Nat), (3000000000 : Nat)])) (.num t.2)
      [.num 1000, .num 2000000, .num 3000000000] = .ok true ∧
    gives (trip t.1 (colOf (.num t.2) [(1000 : Nat), (2000000 : Nat), (3000000000 : Nat)])) (.num t.2)
      [.num t.2 1000, .num t.2 2000000, .num t.2 3000000000] = .ok true := by decide +kernel
example : ∀ t ∈ [("Nullable(Int128)", NumTy.i128), ("Nullable(UInt128)", .u128)],
    reads (trip t.1 (optOf (.num t.2) [some (1000 : Nat), none, some (3000000000 : Nat)])) (.opt (.num t.2))
      [.some (.num 1000), .none, .some (.num 3000000000)] = .ok true ∧
    gives (trip t.1 (optOf (.num t.2) [some (1000 : Nat), none, some (3000000000 : Nat)])) (.opt (.num t.2))
      [.some (.num t.2 1000), .none, .some (.num t.2 3000000000)] = .ok true := by decide +kernel

end CH.Conform
