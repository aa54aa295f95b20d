import Verif.Model.Value

/-!
Model of column data: /repo/src/types/column/*.rs (trait `ColumnData`, column_data.rs:22-55).

`Arc` sharing is not represented here: `push` is the operation on an unshared column (see `Model/Share.lean` for the
effect of sharing). `StringColumnData` is represented by the list of its strings; the pool itself is modelled and proved
equivalent to a list in `Model/StringPool.lean`.
-/

namespace CH

/-- Checked list indexing (`data[index]`, `List::at`, /repo/src/types/column/list.rs:21-23): out of range panics. -/
def idx (l : List α) (i : Nat) : Out α :=
  match l[i]? with
  | some a => .ok a
  | none => .panic

/-- Checked slicing `&l[s..e]`. -/
def slice (l : List α) (s e : Nat) : Out (List α) :=
  if s ≤ e ∧ e ≤ l.length then .ok ((l.drop s).take (e - s)) else .panic

/-- Run a fallible function over a list, in order. -/
def mapOut (f : α → Out β) : List α → Out (List β)
  | [] => .ok []
  | a :: as => do
    let b ← f a
    let bs ← mapOut f as
    pure (b :: bs)

/-- `for i in s..e`. -/
def rangeOut (f : Nat → Out β) (s e : Nat) : Out (List β) := mapOut f (List.range' s (e - s))

/-- `Result::unwrap`. -/
def Out.unwrap : Out α → Out α
  | .ok a => .ok a
  | .err _ => .panic
  | .panic => .panic

/-- `Vec::resize(n, 0)`. -/
def resizeB (b : Bytes) (n : Nat) : Bytes := b.take n ++ List.replicate (n - b.length) 0

/-- `IndexType`/`LowCardinalityIndex`, /repo/src/types/column/low_cardinality.rs:27-55. -/
inductive IdxTy where
  | u8 | u16 | u32 | u64
deriving DecidableEq, Repr

/-- Width in bytes of an index type. -/
def IdxTy.width : IdxTy → Nat
  | .u8 => 1 | .u16 => 2 | .u32 => 4 | .u64 => 8

/-- `TUINT8`..`TUINT64`, /repo/src/types/column/low_cardinality.rs:20-23. -/
def IdxTy.code : IdxTy → Nat
  | .u8 => 0 | .u16 => 1 | .u32 => 2 | .u64 => 3

/-- Column data (the implementors of `ColumnData`). `ConcatColumnData` is only ever the outermost data of a column and is
modelled separately (`Model/Block.lean`). The `size` field of `MapColumnData` is never read and is left out, as are
capacities. -/
inductive Col where
  /-- `VectorColumnData<T>`, numeric.rs:17-30 -/
  | num (t : NumTy) (xs : List Nat)
  /-- `StringColumnData`, string.rs:22-24 -/
  | str (xs : List Bytes)
  /-- `FixedStringColumnData`, fixed_string.rs:20-23 -/
  | fixed (n : Nat) (buf : Bytes)
  /-- `DateColumnData<u16>`, date.rs:24-38 -/
  | date (tz : Tz) (xs : List Nat)
  /-- `DateColumnData<u32>`, date.rs:24-38 -/
  | datetime (tz : Tz) (xs : List Nat)
  /-- `DateTime64ColumnData`, datetime64.rs:22-25 (raw 64-bit patterns) -/
  | dt64 (p : Nat) (tz : Tz) (xs : List Nat)
  /-- `ChronoDateTimeColumnData`, chrono_datetime.rs:19-22 (seconds, nanoseconds, zone of each entry) -/
  | chrono (tz : Tz) (xs : List (Int × Nat × Tz))
  /-- `IpColumnData<V>`, ip.rs:261-264 -/
  | ip (k : IpKind) (buf : Bytes)
  /-- `NullableColumnData`, nullable.rs:18-21 -/
  | nullable (nulls : Bytes) (inner : Col)
  /-- `ArrayColumnData`, array.rs:18-21 -/
  | array (offsets : List Nat) (inner : Col)
  /-- `MapColumnData`, map.rs:15-20 -/
  | map (offsets : List Nat) (keys values : Col)
  /-- `DecimalColumnData`, decimal.rs:22-27; its boxed inner column is always a vector of `i32` or `i64` patterns -/
  | decimal (p s : Nat) (nb : NoBits) (xs : List Nat)
  /-- `Enum8ColumnData`/`Enum16ColumnData`, enums.rs; the boxed inner column is a vector of `i8`/`i16` patterns -/
  | enum (w : EnumW) (items : List (Str × Int)) (xs : List Nat)
  /-- `SimpleAggregateFunctionColumnData`, simple_agg_func.rs:17-20 -/
  | simpleAgg (f : AggFunc) (inner : Col)
  /-- `LowCardinalityColumnData`, low_cardinality.rs:183-187; `vmap` is `value_map` -/
  | lowCard (ity : IdxTy) (index : List Nat) (dict : Col) (vmap : Option (List (Value × Nat)))
  /-- `ChunkColumnData`, chunk.rs:14-17 -/
  | chunk (inner : Col) (s e : Nat)
  /-- `FixedStringAdapter`, fixed_string.rs:25-28 -/
  | fixedAd (inner : Col) (n : Nat)
  /-- `NullableFixedStringAdapter`, fixed_string.rs:30-33 -/
  | nullFixedAd (inner : Col) (n : Nat)
  /-- `StringAdapter`, string.rs:26-28 -/
  | stringAd (inner : Col)
  /-- `DecimalAdapter`, decimal.rs:29-34 -/
  | decAd (inner : Col) (p s : Nat) (nb : NoBits)
  /-- `NullableDecimalAdapter`, decimal.rs:36-41 -/
  | nullDecAd (inner : Col) (p s : Nat) (nb : NoBits)
  /-- `Enum8Adapter`/`Enum16Adapter`, enums.rs:27-30, 259-262 -/
  | enumAd (inner : Col) (w : EnumW) (items : List (Str × Int))
  /-- `NullableEnum8Adapter`/`NullableEnum16Adapter`, enums.rs:32-35, 264-267 -/
  | nullEnumAd (inner : Col) (w : EnumW) (items : List (Str × Int))
  /-- `ChronoDateTimeAdapter`, chrono_datetime.rs:31-34 -/
  | chronoAd (inner : Col) (dst : SqlType)

/-- Width of the integers behind an enum. -/
def EnumW.width : EnumW → Nat
  | .w8 => 1
  | .w16 => 2

/-- Width of the integers behind a decimal. -/
def NoBits.width : NoBits → Nat
  | .n32 => 4
  | .n64 => 8

/-- `ColumnData::sql_type` of every implementation, adapters and chunks too: array.rs:46-49, chrono_datetime.rs:86-88, 169-171,
chunk.rs:26-28, concat.rs:43-45, date.rs:195-197, datetime64.rs:54-57, decimal.rs:141-143, 211-213, 263-265, enums.rs:54-56,
104-106, 144-146, 296-298, 346-348, 386-388, fixed_string.rs:63-65, 120-122, 171-173, ip.rs:286-288, low_cardinality.rs:287-289,
map.rs:52-54, nullable.rs:39-42, numeric.rs:190-192, simple_agg_func.rs:36-39, string.rs:172-174, 226-228. -/
def Col.sqlType : Col → SqlType
  | .num t _ => .num t
  | .str _ => .string
  | .fixed n _ => .fixedString n
  | .date _ _ => .date
  | .datetime _ _ => .datetime
  | .dt64 p tz _ => .dt64 p tz
  | .chrono _ _ => .chrono
  | .ip k _ => .ip k
  | .nullable _ c => .nullable c.sqlType
  | .array _ c => .array c.sqlType
  | .map _ k v => .map k.sqlType v.sqlType
  | .decimal p s _ _ => .decimal p s
  | .enum w items _ => .enum w items
  | .simpleAgg f c => .simpleAgg f c.sqlType
  | .lowCard _ _ d _ => .lowCard d.sqlType
  | .chunk c _ _ => c.sqlType
  | .fixedAd _ n => .fixedString n
  | .nullFixedAd _ n => .nullable (.fixedString n)
  | .stringAd _ => .string
  | .decAd _ p s _ => .decimal p s
  | .nullDecAd _ p s _ => .nullable (.decimal p s)
  | .enumAd _ w items => .enum w items
  | .nullEnumAd _ w items => .nullable (.enum w items)
  | .chronoAd _ dst => dst

/-- `ColumnData::len` of every implementation: array.rs:62-64, chrono_datetime.rs:94-96, 197-199, chunk.rs:38-40,
concat.rs:51-53, date.rs:203-205, datetime64.rs:63-65, decimal.rs:149-151, 234-236, 285-287, enums.rs:62-64, 118-120, 168-170,
304-306, 360-362, 411-413, fixed_string.rs:73-75, 149-151, 190-192, ip.rs:298-300, low_cardinality.rs:306-308, map.rs:68-70,
nullable.rs:50-53, numeric.rs:198-200, simple_agg_func.rs:45-47, string.rs:183-185, 237-239 (division by zero panics for
`FixedString(0)`, fixed_string.rs:73-75). -/
def Col.len : Col → Out Nat
  | .num _ xs => .ok xs.length
  | .str xs => .ok xs.length
  | .fixed n buf => if n = 0 then .panic else .ok (buf.length / n)
  | .date _ xs => .ok xs.length
  | .datetime _ xs => .ok xs.length
  | .dt64 _ _ xs => .ok xs.length
  | .chrono _ xs => .ok xs.length
  | .ip k buf => .ok (buf.length / k.size)
  | .nullable nulls c => do
    let l ← c.len
    if nulls.length = l then pure l else Out.panic
  | .array offs _ => .ok offs.length
  | .map offs _ _ => .ok offs.length
  | .decimal _ _ _ xs => .ok xs.length
  | .enum _ _ xs => .ok xs.length
  | .simpleAgg _ c => c.len
  | .lowCard _ index _ _ => .ok index.length
  | .chunk _ s e => .ok (e - s)
  | .fixedAd c _ => c.len
  | .nullFixedAd c _ => c.len
  | .stringAd c => c.len
  | .decAd c _ _ _ => c.len
  | .nullDecAd c _ _ _ => c.len
  | .enumAd c _ _ => c.len
  | .nullEnumAd c _ _ => c.len
  | .chronoAd c _ => c.len

/-- `Option::<T>::from_sql(v).unwrap()`, /repo/src/types/from_sql.rs:285-309: `none` for NULL, `T::from_sql` for a present
value, an error (unwrapped: panic) for a value that is not nullable. -/
def optFromSql (f : Value → Out α) : Value → Out (Option α)
  | .null _ => .ok none
  | .some v => do
    let a ← (f v).unwrap
    pure (some a)
  | _ => .panic

/-- `Decimal::from_sql`, /repo/src/types/from_sql.rs:42-55. -/
def decFromSql : Value → Out Decimal
  | .decimal d => .ok d
  | _ => .err (.other "InvalidType")

/-- `Enum8::from_sql`/`Enum16::from_sql`, /repo/src/types/from_sql.rs:57-87. -/
def enumFromSql (w : EnumW) : Value → Out Int
  | .enum w' _ v => if w' = w then .ok v else .err (.other "InvalidType")
  | _ => .err (.other "InvalidType")

/-- `<&[u8]>::from_sql` / `as_bytes`, /repo/src/types/value_ref.rs:261-270. -/
def bytesFromSql : Value → Out Bytes
  | .str b => .ok b
  | _ => .err (.other "InvalidType")

/-- `u8::from(ValueRef)` over an array, used by `Vec<u8>::from_sql` (/repo/src/types/from_sql.rs:220-233) and the fixed string
adapter (fixed_string.rs:133-141). -/
def u8sOf (vs : List Value) : Out Bytes :=
  mapOut (fun v => do
    let n ← v.toNum .u8
    pure (UInt8.ofNat n)) vs

/-- `Vec::<u8>::from_sql`, /repo/src/types/from_sql.rs:220-233. -/
def vecU8FromSql : Value → Out Bytes
  | .array (.num .u8) vs => u8sOf vs
  | .str b => .ok b
  | _ => .err (.other "InvalidType")

/-- `ColumnData::at` of every implementation: array.rs:85-100, chrono_datetime.rs:103-106, 205-207, chunk.rs:46-52,
concat.rs:59-63, date.rs:211-213, datetime64.rs:74-77, decimal.rs:170-182, 242-251, 293-305, enums.rs:74-77, 126-132, 176-185,
316-319, 368-374, 419-428, fixed_string.rs:85-89, 157-159, 198-200, ip.rs:306-308, low_cardinality.rs:331-334, map.rs:94-111,
nullable.rs:76-84, numeric.rs:206-227, simple_agg_func.rs:54-56, string.rs:193-196, 245-247; ip.rs:19-117 for the columns
of addresses. `end - start` in arrays and maps underflows (panics) when offsets decrease. -/
def Col.at : Col → Nat → Out Value
  | .num t xs, i => do
    let x ← idx xs i
    pure (.num t x)
  | .str xs, i => do
    let x ← idx xs i
    pure (.str x)
  | .fixed n buf, i => do
    let b ← slice buf (i * n) (i * n + n)
    pure (.str b)
  | .date _ xs, i => do
    let x ← idx xs i
    pure (.date x)
  | .datetime tz xs, i => do
    let x ← idx xs i
    pure (.datetime x tz)
  | .dt64 p tz xs, i => do
    let x ← idx xs i
    pure (.dt64 (toSigned 8 x) p tz)
  | .chrono _ xs, i => do
    let (s, _, tz) ← idx xs i
    pure (.datetime (asU32 s) tz)
  | .ip k buf, i => do
    let b ← slice buf (i * k.size) ((i + 1) * k.size)
    pure (.ip k b)
  | .nullable nulls c, i => do
    let f ← idx nulls i
    if f = 1 then pure (.null c.sqlType)
    else do
      let v ← c.at i
      pure (.some v)
  | .array offs c, i => do
    let start ← if i > 0 then idx offs (i - 1) else Out.ok 0
    let stop ← idx offs i
    if stop < start then Out.panic
    else do
      let vs ← rangeOut (fun j => c.at j) start stop
      pure (.array c.sqlType vs)
  | .map offs k v, i => do
    let start ← if i > 0 then idx offs (i - 1) else Out.ok 0
    let stop ← idx offs i
    if stop < start then Out.panic
    else do
      let ks ← rangeOut (fun j => k.at j) start stop
      let vs ← rangeOut (fun j => v.at j) start stop
      let m ← mapBuild ([], []) ks vs
      pure (.map k.sqlType v.sqlType m.1 m.2)
  | .decimal p s nb xs, i => do
    let x ← idx xs i
    pure (.decimal ⟨toSigned nb.width x, nb, p, s⟩)
  | .enum w items xs, i => do
    let x ← idx xs i
    pure (.enum w items (toSigned w.width x))
  | .simpleAgg _ c, i => c.at i
  | .lowCard _ index d _, i => do
    let j ← idx index i
    d.at j
  | .chunk c s e, i => if i ≥ e - s then Out.panic else c.at (i + s)
  | .fixedAd c _, i => c.at i
  | .nullFixedAd c _, i => c.at i
  | .stringAd c, i => c.at i
  | .decAd c p s nb, i => do
    let v ← c.at i
    match v with
    | .decimal d => do
      let d ← d.setScale s
      pure (.decimal { d with precision := p, nobits := nb })
    | _ => Out.panic
  | .nullDecAd c p s nb, i => do
    let v ← c.at i
    let o ← optFromSql decFromSql v
    match o with
    | none => pure (.null (.nullable (.decimal p s)))
    | some d => do
      let d ← d.setScale s
      pure (.some (.decimal { d with precision := p, nobits := nb }))
  | .enumAd c w _, i => do
    let v ← c.at i
    match v with
    | .enum w' items x => if w' = w then pure (.enum w' items x) else Out.panic
    | _ => Out.panic
  | .nullEnumAd c w items, i => do
    let v ← c.at i
    let o ← optFromSql (enumFromSql w) v
    match o with
    | none => pure (.null (.nullable (.enum w items)))
    | some x => pure (.some (.enum w items x))
  | .chronoAd _ _, _ => Out.panic

/-- The bytes of a vector of `w`-byte numbers (`AsRef<[u8]> for List<T>`, /repo/src/types/column/list.rs:75-83). -/
def numsBytes (w : Nat) (xs : List Nat) : Bytes := xs.flatMap (putLE w)

/-- `save_data`, /repo/src/types/column/numeric.rs:252-256. Slicing the bytes at `start * w .. end * w` is slicing the list of
`w`-byte elements at `start..end`. -/
def saveNums (w : Nat) (xs : List Nat) (s e : Nat) : Out Bytes := do
  let ys ← slice xs s e
  pure (numsBytes w ys)

/-- `LowCardinalityIndex::get_flags`, /repo/src/types/column/low_cardinality.rs:59-75. -/
def lcFlags (ity : IdxTy) : Nat := ity.code ||| 2 ^ 9 ||| 2 ^ 10

/-- `SELF.at(i)` as an `Option`, as bytes, for `extract_nulls_and_values`, /repo/src/types/column/util.rs:6-28. -/
def nullsOf (os : List (Option α)) : Bytes := os.map fun o => if o.isNone then 1 else 0

/-- `ColumnData::save` of every implementation (`unimplemented!()` in chrono_datetime.rs:90-92, datetime64.rs:59-61):
array.rs:51-60, chrono_datetime.rs:90-92, 173-195, chunk.rs:30-36, concat.rs:47-49, date.rs:199-201, datetime64.rs:59-61,
decimal.rs:145-147, 215-232, 267-283, enums.rs:58-60, 108-116, 148-166, 300-302, 350-358, 390-409, fixed_string.rs:67-71,
124-147, 175-188, ip.rs:290-296, low_cardinality.rs:291-304, map.rs:56-66, nullable.rs:44-48, numeric.rs:194-196,
simple_agg_func.rs:41-43, string.rs:176-181, 230-235. -/
def Col.save : Col → Nat → Nat → Out Bytes
  | .num t xs, s, e => saveNums t.width xs s e
  | .str xs, s, e => if e < s then Out.panic else .ok (((xs.drop s).take (e - s)).flatMap putBytes)
  | .fixed n buf, s, e => slice buf (s * n) (e * n)
  | .date _ xs, s, e => saveNums 2 xs s e
  | .datetime _ xs, s, e => saveNums 4 xs s e
  | .dt64 _ _ _, _, _ => Out.panic
  | .chrono _ _, _, _ => Out.panic
  | .ip k buf, s, e => slice buf (s * k.size) (e * k.size)
  | .nullable nulls c, s, e => do
    let n ← slice nulls s e
    let b ← c.save s e
    pure (n ++ b)
  | .array offs c, s, e => do
    let os ← rangeOut (idx offs) s e
    let b ← c.save 0 ((os.getLast?).getD 0)
    pure (numsBytes 8 os ++ b)
  | .map offs k v, s, e => do
    let os ← rangeOut (idx offs) s e
    let bk ← k.save 0 ((os.getLast?).getD 0)
    let bv ← v.save 0 ((os.getLast?).getD 0)
    pure (numsBytes 8 os ++ bk ++ bv)
  | .decimal _ _ nb xs, s, e => saveNums nb.width xs s e
  | .enum w _ xs, s, e => saveNums w.width xs s e
  | .simpleAgg _ c, s, e => c.save s e
  | .lowCard ity index d _, s, e =>
    if s = e then .ok []
    else do
      let l ← d.len
      let b ← d.save 0 l
      if e < s then Out.panic
      else do
        let ib ← saveNums ity.width index s e
        pure (putLE 8 1 ++ putLE 8 (lcFlags ity) ++ putLE 8 l ++ b ++ putLE 8 (e - s) ++ ib)
  | .chunk c cs ce, s, e => c.save (cs + s) (min ce (cs + e))
  | .fixedAd c n, s, e => do
    let bs ← rangeOut (fun i => do
      let v ← c.at i
      match v with
      | .str b => pure (resizeB b n)
      | .array (.num .u8) vs => do
        let b ← u8sOf vs
        pure (resizeB b n)
      | _ => Out.panic) s e
    pure bs.flatten
  | .nullFixedAd c n, s, e =>
    if e < s then Out.panic
    else do
      let os ← rangeOut (fun i => do
        let v ← c.at i
        optFromSql bytesFromSql v) s e
      pure (nullsOf os ++ os.flatMap fun o => resizeB (o.getD []) n)
  | .stringAd c, s, e => do
    let bs ← rangeOut (fun i => do
      let v ← c.at i
      (vecU8FromSql v).unwrap) s e
    pure (bs.flatMap putBytes)
  | .decAd c p sc nb, s, e => do
    let ds ← rangeOut (fun i => do
      let v ← Col.at (.decAd c p sc nb) i
      match v with
      | .decimal d => pure (ofSigned nb.width d.underlying)
      | _ => Out.panic) s e
    pure (numsBytes nb.width ds)
  | .nullDecAd c p sc nb, s, e =>
    if e < s then Out.panic
    else do
      let os ← rangeOut (fun i => do
        let v ← Col.at (.nullDecAd c p sc nb) i
        optFromSql decFromSql v) s e
      pure (nullsOf os ++
        numsBytes nb.width (os.map fun o => ofSigned nb.width ((o.map (·.underlying)).getD 0)))
  | .enumAd c w items, s, e => do
    let xs ← rangeOut (fun i => do
      let v ← Col.at (.enumAd c w items) i
      match v with
      | .enum _ _ x => pure (ofSigned w.width x)
      | _ => Out.panic) s e
    pure (numsBytes w.width xs)
  | .nullEnumAd c w items, s, e =>
    if e < s then Out.panic
    else do
      let os ← rangeOut (fun i => do
        let v ← Col.at (.nullEnumAd c w items) i
        optFromSql (enumFromSql w) v) s e
      pure (nullsOf os ++ numsBytes w.width (os.map fun o => ofSigned w.width (o.getD 0)))
  | .chronoAd c dst, s, e =>
    match c with
    | .chrono _ xs =>
      match dst with
      | .dt64 p _ => do
        let ys ← slice xs s e
        let vs ← mapOut (fun (t : Int × Nat × Tz) => fromDatetime t.1 t.2.1 p) ys
        pure (numsBytes 8 (vs.map (ofSigned 8)))
      | .datetime => do
        let ys ← slice xs s e
        pure (numsBytes 4 (ys.map fun (t : Int × Nat × Tz) => asU32 t.1))
      | _ => Out.panic
    | _ => Out.panic

/-! ### Building columns by pushing values -/

/-- `<dyn ColumnData>::from_type`, /repo/src/types/column/factory.rs:118-242; `LowCardinalityColumnData::empty`,
low_cardinality.rs:203-217. The `unwrap` of `from_precision` panics for precisions above 18. -/
def emptyCol (tz : Tz) : SqlType → Out Col
  | .num t => .ok (.num t [])
  | .string => .ok (.str [])
  | .fixedString n => .ok (.fixed n [])
  | .ip k => .ok (.ip k [])
  | .date => .ok (.date tz [])
  | .dt64 p tz' => .ok (.dt64 p tz' [])
  | .datetime => .ok (.chrono tz [])
  | .chrono => .ok (.chrono tz [])
  | .nullable t => do
    let c ← emptyCol tz t
    pure (.nullable [] c)
  | .array t => do
    let c ← emptyCol tz t
    pure (.array [] c)
  | .simpleAgg f t => do
    let c ← emptyCol tz t
    pure (.simpleAgg f c)
  | .decimal p s =>
    match NoBits.fromPrecision p with
    | none => Out.panic
    | some nb => .ok (.decimal p s nb [])
  | .enum w items => .ok (.enum w items [])
  | .map k v => do
    let kc ← emptyCol tz k
    let vc ← emptyCol tz v
    pure (.map [] kc vc)
  | .lowCard t => do
    let c ← emptyCol tz t
    pure (.lowCard .u8 [] c none)

/-- Values that `Hash for Value` accepts, /repo/src/types/value.rs:60-81; everything else is `unimplemented!()`. -/
def Value.valHashable : Value → Bool
  | .str _ => true
  | .num t _ => t ≠ .bool ∧ t ≠ .f32 ∧ t ≠ .f64
  | .date _ => true
  | .datetime _ _ => true
  | .dt64 _ _ _ => true
  | _ => false

/-- `PartialEq for Value` (/repo/src/types/value.rs:85-149) on hashable values: date-times are compared as instants
(`timestamp_nanos` multiplication overflow is not represented). -/
def Value.valKeyEq : Value → Value → Bool
  | .str a, .str b => a == b
  | .num t a, .num t' b => t == t' && a == b
  | .date a, .date b => a == b
  | .datetime a _, .datetime b _ => a == b
  | .dt64 a p _, .dt64 b q _ => p == q && a == b
  | _, _ => false

/-- `HashMap<Value, usize>::get`: hashing panics on unsupported variants. -/
def vmapGet (m : List (Value × Nat)) (v : Value) : Out (Option Nat) :=
  if v.valHashable then .ok ((m.find? fun p => Value.valKeyEq p.1 v).map (·.2)) else .panic

/-- Collecting pairs into a `HashMap<Value, usize>` (the last pair of equal keys wins): later pairs are put in front. -/
def vmapCollect : List (Value × Nat) → List (Value × Nat) → Out (List (Value × Nat))
  | m, [] => .ok m
  | m, (v, i) :: rest => if v.valHashable then vmapCollect ((v, i) :: m) rest else .panic

/-- `get_value_map`, /repo/src/types/column/low_cardinality.rs:274-283. -/
def lcValueMap (index : List Nat) (d : Col) : Out (List (Value × Nat)) := do
  let ps ← mapOut (fun i => do
    let v ← d.at i
    pure (v, i)) index
  vmapCollect [] ps

/-- `max_len`, /repo/src/types/column/low_cardinality.rs:116-123. -/
def IdxTy.maxLen (t : IdxTy) : Nat := 2 ^ (8 * t.width) - 1

/-- `inc_max_len`, /repo/src/types/column/low_cardinality.rs:125-143. -/
def IdxTy.wider : IdxTy → Out IdxTy
  | .u8 => .ok .u16
  | .u16 => .ok .u32
  | .u32 => .ok .u64
  | .u64 => .panic

/-- `LowCardinalityIndex::push`, /repo/src/types/column/low_cardinality.rs:145-155: widening is decided by the number of rows,
the value is cast to the index type. -/
def lcIndexPush (ity : IdxTy) (index : List Nat) (v : Nat) : Out (IdxTy × List Nat) := do
  let ity ← if index.length + 1 > ity.maxLen then ity.wider else Out.ok ity
  pure (ity, index ++ [v % 2 ^ (8 * ity.width)])

/-- The loops `for v in vs.iter() { inner.push(v.clone()) }`, /repo/src/types/column/array.rs:78-80, map.rs:86-89. -/
def pushAllWith (push : Col → Value → Out Col) : Col → List Value → Out Col
  | c, [] => .ok c
  | c, v :: vs => do
    let c ← push c v
    pushAllWith push c vs

/-- Last offset, or 0 (`prev` of /repo/src/types/column/array.rs:69-74, map.rs:75-80). -/
def lastOff (offs : List Nat) : Nat := (offs.getLast?).getD 0

/-- `ColumnData::push`: array.rs:66-83, chrono_datetime.rs:98-101, 201-203, chunk.rs:42-44, concat.rs:55-57, date.rs:207-209,
datetime64.rs:67-72, decimal.rs:153-168, 238-240, 289-291, enums.rs:66-72, 122-124, 172-174, 308-314, 364-366, 415-417,
fixed_string.rs:77-83, 153-155, 194-196, ip.rs:302-304, low_cardinality.rs:310-329, map.rs:72-92, nullable.rs:55-74,
numeric.rs:202-204, simple_agg_func.rs:49-52, string.rs:187-191, 241-243; with date_converter.rs:25-41 and ip.rs:35-117;
`unimplemented!()` for chunks and adapters. The first argument is the column's type tree and only serves as the recursion
argument (pushing keeps the type). Date stamps: `u16::get_days(NaiveDate::from(Value::Date(d)))` is `d`. -/
def pushT : SqlType → Col → Value → Out Col
  | _, .num t xs, v => do
    let n ← v.toNum t
    pure (.num t (xs ++ [n]))
  | _, .str xs, v => do
    let b ← v.toBytes
    pure (.str (xs ++ [b]))
  | _, .fixed n buf, v => do
    let b ← v.toBytes
    pure (.fixed n (resizeB (buf ++ b.take n) (buf.length + n)))
  | _, .date tz xs, .date d => pure (.date tz (xs ++ [d]))
  | _, .datetime tz xs, v => do
    let (s, _, _) ← v.toAppDateTime
    pure (.datetime tz (xs ++ [asU32 s]))
  | _, .dt64 p tz xs, v => do
    let (s, n, _) ← v.toAppDateTime
    let x ← fromDatetime s n p
    pure (.dt64 p tz (xs ++ [ofSigned 8 x]))
  | _, .chrono tz xs, v => do
    let t ← v.toAppDateTime
    pure (.chrono tz (xs ++ [t]))
  | _, .ip k buf, .ip k' b => if k' = k then pure (.ip k (buf ++ b)) else Out.panic
  | .nullable ty, .nullable nulls c, .null t => do
    let c ← pushT ty c (Value.default t)
    pure (.nullable (nulls ++ [1]) c)
  | .nullable ty, .nullable nulls c, .some x => do
    let c ← pushT ty c x
    pure (.nullable (nulls ++ [0]) c)
  | .nullable ty, .nullable nulls c, x => do
    let c ← pushT ty c x
    pure (.nullable (nulls ++ [0]) c)
  | .array ty, .array offs c, .array _ vs => do
    let c ← pushAllWith (pushT ty) c vs
    pure (.array (offs ++ [lastOff offs + vs.length]) c)
  | .map kt vt, .map offs k v, .map _ _ ks vs => do
    let k ← pushAllWith (pushT kt) k ks
    let v ← pushAllWith (pushT vt) v vs
    pure (.map (offs ++ [lastOff offs + ks.length]) k v)
  | _, .decimal p s nb xs, .decimal d => pure (.decimal p s nb (xs ++ [ofSigned nb.width d.underlying]))
  | _, .enum w items xs, .enum w' _ x =>
    if w' = w then pure (.enum w items (xs ++ [ofSigned w.width x])) else Out.panic
  | .simpleAgg _ ty, .simpleAgg f c, v => do
    let c ← pushT ty c v
    pure (.simpleAgg f c)
  | .lowCard ty, .lowCard ity index d vmap, v => do
    let m ← match vmap with
      | some m => Out.ok m
      | none => lcValueMap index d
    let o ← vmapGet m v
    match o with
    | some j => do
      let (ity, index) ← lcIndexPush ity index j
      pure (.lowCard ity index d (some m))
    | none => do
      let j ← d.len
      let d ← pushT ty d v
      let (ity, index) ← lcIndexPush ity index j
      pure (.lowCard ity index d (some ((v, j) :: m)))
  | _, _, _ => Out.panic

/-- `ColumnData::push` on an unshared column. -/
def Col.push (c : Col) (v : Value) : Out Col := pushT c.sqlType c v

end CH
