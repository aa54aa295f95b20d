import Verif.Model.Column
import Verif.Model.Values

/-!
Model of the `ColumnFrom` implementations: columns built from vectors of Rust values
(/repo/src/types/column/{numeric,string,ip,date,chrono_datetime,decimal,enums,map}.rs).
-/

namespace CH

/-- Rust element types columns are built from. `text` stands for `String` and `&str`, `bytes` for `&[u8]` and `Vec<u8>`. -/
inductive Base where
  | num (t : NumTy)
  | text
  | bytes
  | ip (k : IpKind)
  | date
  | time
  | decimal
  | enum (w : EnumW)
deriving DecidableEq, Repr

/-- Their values: a number is its bit pattern, an address or UUID its octets as written, a date the days since 1970-01-01, a time
the seconds since 1970, the nanoseconds and the zone. -/
abbrev Base.El : Base → Type
  | .num _ => Nat
  | .text => String
  | .bytes => Bytes
  | .ip _ => Bytes
  | .date => Int
  | .time => Int × Nat × Tz
  | .decimal => Decimal
  | .enum _ => Int

/-- `get_days`, /repo/src/types/date_converter.rs:11-15: days since 1970-01-01, cast to `u16`. -/
def getDays (days : Int) : Nat := (days % 65536).toNat

/-- Stored bytes of an address or UUID: /repo/src/types/column/ip.rs:119-164 (`column_from`), /repo/src/types/value.rs:422-429. -/
def encodeIp : IpKind → Bytes → Bytes
  | .v4, o => o.reverse
  | .v6, o => o
  | .uuid, o => (o.take 8).reverse ++ (o.drop 8).reverse

/-- Stored bytes of an optional address, /repo/src/types/column/ip.rs:165-258: zeros for `None`. -/
def encodeOptIp (k : IpKind) : Option Bytes → Bytes
  | none => List.replicate k.size 0
  | some o => encodeIp k o

/-- The zone of a `ChronoDateTimeColumnData`, /repo/src/types/column/chrono_datetime.rs:44-48. -/
def zoneOf : List (Int × Nat × Tz) → Tz
  | [] => defaultTz
  | (_, _, tz) :: _ => tz

/-- The scale common to all decimals, /repo/src/types/column/decimal.rs:72-83: different scales panic. -/
def commonScale : Option Nat → List Decimal → Out (Option Nat)
  | s, [] => .ok s
  | none, d :: ds => commonScale (some d.scale) ds
  | some s, d :: ds => if s ≠ d.scale then .panic else commonScale (some s) ds

/-- The precision of the column, decimal.rs:71, 74. -/
def commonPrecision (ds : List Decimal) : Nat := ds.foldl (fun p d => max p d.precision) 18

/-- `unwrap_or(4)`, decimal.rs:84. -/
def orFour : Option Nat → Nat
  | some s => s
  | none => 4

/-- `Vec<T>::column_from`: numeric.rs:38-58, string.rs:49-66, ip.rs:119-164, date.rs:75-88, chrono_datetime.rs:42-51,
decimal.rs:68-97, enums.rs:196-212, 439-455. -/
def colOf : (b : Base) → List b.El → Out Col
  | .num t, xs => .ok (.num t xs)
  | .text, xs => .ok (.str (xs.map strBytes))
  | .bytes, xs => .ok (.str xs)
  | .ip k, xs => .ok (.ip k (xs.map (encodeIp k)).flatten)
  | .date, xs => .ok (.date defaultTz (xs.map getDays))
  | .time, xs => .ok (.chrono (zoneOf xs) xs)
  | .decimal, xs => do
    let s ← commonScale none xs
    pure (.decimal (commonPrecision xs) (orFour s) .n64 (xs.map fun d => ofSigned 8 d.underlying))
  | .enum w, xs => .ok (.enum w [] (xs.map (ofSigned w.width)))

/-- The `Value` pushed for an element: value.rs:338-420 and 489-494 (`From<T> for Value`), date.rs:106, 127, 152,
string.rs:72-88. Addresses, times and decimals are never pushed by `column_from`, except times in arrays. -/
def valueOf : (b : Base) → b.El → Value
  | .num t, x => .num t x
  | .text, x => .str (strBytes x)
  | .bytes, x => .str x
  | .ip k, x => .ip k (encodeIp k x)
  | .date, x => .date (getDays x)
  | .time, x => .datetime (asU32 x.1) x.2.2
  | .decimal, x => .decimal x
  | .enum w, x => .enum w [] x

/-- `T::get_sql_type()` / `sql_type` of the empty column: numeric.rs:101, string.rs:107, date.rs:93, 118, enums.rs:217. -/
def typeOf : Base → SqlType
  | .num t => .num t
  | .text => .string
  | .bytes => .string
  | .ip k => .ip k
  | .date => .date
  | .time => .chrono
  | .decimal => .decimal 18 4
  | .enum w => .enum w []

/-- The column of an empty vector. -/
def noRows : (b : Base) → Col
  | .num t => .num t []
  | .text => .str []
  | .bytes => .str []
  | .ip k => .ip k []
  | .date => .date defaultTz []
  | .time => .chrono defaultTz []
  | .decimal => .decimal 18 4 .n64 []
  | .enum w => .enum w [] []

/-- The `Value` pushed for an optional element: value.rs:322-336, date.rs:150-158, string.rs:152-158. -/
def optValue (b : Base) : Option b.El → Value
  | none => .null (typeOf b)
  | some x => .some (valueOf b x)

/-- NULL flags of optional elements, ip.rs:171-184, chrono_datetime.rs:64-74, decimal.rs:105-124, enums.rs:241-249. -/
def flagsOf (xs : List (Option α)) : Bytes := xs.map fun o => if o.isNone then 1 else 0

/-- The zone of the first time there is, chrono_datetime.rs:57-60. -/
def firstZone : List (Option (Int × Nat × Tz)) → Tz
  | [] => defaultTz
  | some (_, _, tz) :: _ => tz
  | none :: xs => firstZone xs

/-- `Vec<Option<T>>::column_from`: numeric.rs:60-89, string.rs:126-163, ip.rs:166-260, date.rs:139-163,
chrono_datetime.rs:53-81, decimal.rs:99-137, enums.rs:236-262, 479-505. -/
def optOf : (b : Base) → List (Option b.El) → Out Col
  | .num t, xs => pushAllWith Col.push (.nullable [] (noRows (.num t))) (xs.map (optValue (.num t)))
  | .text, xs => pushAllWith Col.push (.nullable [] (noRows .text)) (xs.map (optValue .text))
  | .bytes, xs => pushAllWith Col.push (.nullable [] (noRows .bytes)) (xs.map (optValue .bytes))
  | .ip k, xs => .ok (.nullable (flagsOf xs) (.ip k (xs.map (encodeOptIp k)).flatten))
  | .date, xs => pushAllWith Col.push (.nullable [] (noRows .date)) (xs.map (optValue .date))
  | .time, xs => do
    let c ← colOf .time (xs.map fun o =>
      match o with
      | none => (0, 0, firstZone xs)
      | some t => t)
    pure (.nullable (flagsOf xs) c)
  | .decimal, xs => do
    let s ← commonScale none (xs.filterMap id)
    pure (.nullable (flagsOf xs) (.decimal (commonPrecision (xs.filterMap id)) (orFour s) .n64 (xs.map fun o =>
      match o with
      | none => 0
      | some d => ofSigned 8 d.underlying)))
  | .enum w, xs => .ok (.nullable (flagsOf xs) (.enum w [] (xs.map fun o =>
      match o with
      | none => 0
      | some x => ofSigned w.width x)))

/-- `Vec<Vec<T>>::column_from`: numeric.rs:91-121, string.rs:90-124, date.rs:90-137, enums.rs:214-234, 457-477. There is none for
byte strings, addresses and decimals; the theorems leave those out. -/
def vecOf (b : Base) (xs : List (List b.El)) : Out Col :=
  pushAllWith Col.push (.array [] (noRows b)) (xs.map fun ys => .array (typeOf b) (ys.map (valueOf b)))

/-- `to_map`, `to_string_map`, /repo/src/types/column/map.rs:249-275: the pairs are put in a `HashMap<Value, Value>`, which hashes the
keys. The order in which hash maps iterate is unspecified; the pairs are given in the order of the second map. -/
def mapValue (k v : Base) (ps : List (k.El × v.El)) : Out Value := do
  let m ← ownBuild ([], []) (ps.map fun p => valueOf k p.1) (ps.map fun p => valueOf v p.2)
  pure (.map (typeOf k) (typeOf v) m.1 m.2)

/-- `Vec<HashMap<K, V>>::column_from`, map.rs:163-246: keys are `String` or numbers, values numbers. -/
def hashOf (k v : Base) (xs : List (List (k.El × v.El))) : Out Col := do
  let vs ← mapOut (mapValue k v) xs
  pushAllWith Col.push (.map [] (noRows k) (noRows v)) vs

end CH
