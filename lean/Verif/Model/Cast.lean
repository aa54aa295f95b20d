import Verif.Model.Block
import Verif.Model.Rows

/-!
Model of the conversion of a block to the column types the server asks for: `Block::cast_to`
(/repo/src/types/block/mod.rs:305-327), `Column::cast_to` (/repo/src/types/column/mod.rs:229-462) and the `cast_to` functions of
the column types. The parsers of the standard library for IP addresses are a parameter (`parse`, the octets of the address in
network order). The name of a column is kept by every arm, so it is not mentioned below `Block.castTo`.
-/

namespace CH

/-- `is_datetime`, /repo/src/types/mod.rs:374-376. -/
def SqlType.isDatetime : SqlType → Bool
  | .datetime | .dt64 _ _ | .chrono => true
  | _ => false

/-- `is_inner_low_cardinality`, /repo/src/types/mod.rs:378-394. -/
def SqlType.lcInner : SqlType → Bool
  | .string | .fixedString _ | .date | .datetime | .dt64 _ _ | .chrono => true
  | .num t => t = .u8 ∨ t = .u16 ∨ t = .u32 ∨ t = .u64 ∨ t = .i8 ∨ t = .i16 ∨ t = .i32 ∨ t = .i64
  | _ => false

/-- `ColumnData::get_timezone`: array.rs:136-138, chrono_datetime.rs:138-140, 222-224, chunk.rs:58-60, date.rs:245-247,
datetime64.rs:113-116, decimal.rs:205-207, 257-259, 311-313, enums.rs:98-100, 138-140, 191-193, fixed_string.rs:110-112, 165-167,
206-208, ip.rs:328-330, low_cardinality.rs:344-346, map.rs:158-160, nullable.rs:120-122, numeric.rs:247-249,
simple_agg_func.rs:86-88, string.rs:216-218, 253-255. -/
def Col.timezone : Col → Option Tz
  | .date tz _ => some tz
  | .datetime tz _ => some tz
  | .dt64 _ tz _ => some tz
  | .chrono tz _ => some tz
  | .nullable _ c => c.timezone
  | .array _ c => c.timezone
  | .map _ _ v => v.timezone
  | .simpleAgg _ c => c.timezone
  | .lowCard _ _ d _ => d.timezone
  | .chunk c _ _ => c.timezone
  | .nullDecAd c _ _ _ => c.timezone
  | .enumAd c _ _ => c.timezone
  | .nullEnumAd c _ _ => c.timezone
  | .chronoAd c _ => c.timezone
  | _ => none

/-- `ColumnData::cast_to`: array.rs:124-134, chrono_datetime.rs:128-136, enums.rs:86-96, 328-338, map.rs:143-156,
nullable.rs:108-118, simple_agg_func.rs:74-84; every other column answers `None` (column_data.rs:42-44). -/
def Col.dataCast : Col → SqlType → Option Col
  | .array offs c, .array t => (c.dataCast t).map (.array offs ·)
  | .nullable nulls c, .nullable t => (c.dataCast t).map (.nullable nulls ·)
  | .map offs k v, .map kt vt =>
    match k.dataCast kt, v.dataCast vt with
    | some k', some v' => some (.map offs k' v')
    | _, _ => none
  | .simpleAgg _ c, .simpleAgg f t => (c.dataCast t).map (.simpleAgg f ·)
  | .chrono tz xs, t => if t.isDatetime then some (.chronoAd (.chrono tz xs) t) else none
  | .enum w _ xs, .enum w' items' => if w' = w then some (.enum w items' xs) else none
  | _, _ => none

/-- The loop `for i in 0..self.len() { low_card_data.push(self.at(i).into()) }`, /repo/src/types/column/mod.rs:241-243. -/
def pushRowsOf (c : Col) : List Nat → Col → Out Col
  | [], d => .ok d
  | i :: is, d => do
    let v ← c.at i
    let v ← toOwned v
    let d ← d.push v
    pushRowsOf c is d

/-- The replacement of the dictionary, /repo/src/types/column/mod.rs:245-251. -/
def lcCastDict (t : SqlType) : Col → Col
  | .lowCard ity index d vmap =>
    if t.isDatetime then
      match d.dataCast t with
      | some d' => .lowCard ity index d' vmap
      | none => .lowCard ity index d vmap
    else .lowCard ity index d vmap
  | c => c

/-- The `LowCardinality` arm, /repo/src/types/column/mod.rs:237-258. -/
def lcCast (c : Col) (t : SqlType) : Out Col := do
  let e ← emptyCol (c.timezone.getD defaultTz) (.lowCard t)
  let n ← c.len
  let d ← pushRowsOf c (List.range n) e
  pure (lcCastDict t d)

/-- One row of the loops at /repo/src/types/column/mod.rs:390-397 and 418-422: `as_str().unwrap()`, `parse().unwrap()`, and the
octets reversed for IPv4. -/
def ipOfText (parse : IpKind → String → Option Bytes) (k : IpKind) (v : Value) : Out Bytes :=
  match v with
  | .str b =>
    match strOfBytes? b with
    | some s =>
      match parse k s with
      | some octets => .ok (ipOctets k octets)
      | none => .panic
    | none => .panic
  | _ => .panic

/-- The `Ipv4` and `Ipv6` arms, /repo/src/types/column/mod.rs:384-438. -/
def ipCast (parse : IpKind → String → Option Bytes) (k : IpKind) (c : Col) : Out Col := do
  let n ← c.len
  let bs ← rangeOut (fun i => do
    let v ← c.at i
    ipOfText parse k v) 0 n
  pure (.ip k bs.flatten)

/-- The last arm, /repo/src/types/column/mod.rs:450-464. -/
def castData (c : Col) (dst : SqlType) : Out Col :=
  match c.dataCast dst with
  | some d => .ok d
  | none => .err typeError

/-- The arms of `Column::cast_to` but for `SimpleAggregateFunction`, by target and source type,
/repo/src/types/column/mod.rs:236-438, 450-464. -/
def castArm (parse : IpKind → String → Option Bytes) (c : Col) : SqlType → SqlType → Out Col
  | .lowCard t, src => if src.lcInner then lcCast c t else castData c (.lowCard t)
  | .fixedString n, .string => .ok (.fixedAd c n)
  | .nullable (.fixedString n), .nullable .string => .ok (.nullFixedAd c n)
  | .string, .array (.num .u8) => .ok (.stringAd c)
  | .fixedString n, .array (.num .u8) => .ok (.fixedAd (.stringAd c) n)
  | .decimal p s, .decimal _ _ =>
    match NoBits.fromPrecision p with
    | some nb => .ok (.decAd c p s nb)
    | none => .panic
  | .enum w items, .enum w' items' => if w' = w then .ok (.enumAd c w items) else castData c (.enum w items)
  | .nullable (.enum w items), .nullable (.enum w' items') =>
    if w' = w then .ok (.nullEnumAd c w items) else castData c (.nullable (.enum w items))
  | .nullable (.decimal p s), .nullable (.decimal _ _) =>
    match NoBits.fromPrecision p with
    | some nb => .ok (.nullDecAd c p s nb)
    | none => .panic
  | .ip .v4, .string => ipCast parse .v4 c
  | .ip .v6, .string => ipCast parse .v6 c
  | dst, _ => castData c dst

/-- `Column::cast_to`, /repo/src/types/column/mod.rs:229-462. -/
def Col.castTo (parse : IpKind → String → Option Bytes) (c : Col) : SqlType → Out Col
  | .simpleAgg f t =>
    if SqlType.simpleAgg f t = c.sqlType then .ok c
    else do
      let d ← c.castTo parse t
      pure (.simpleAgg f d)
  | dst => if dst = c.sqlType then .ok c else castArm parse c dst c.sqlType

/-- The loop of `Block::cast_to`, /repo/src/types/block/mod.rs:315-321: the columns of both blocks taken in order. -/
def castColumns (parse : IpKind → String → Option Bytes) : List NCol → List NCol → Out (List NCol)
  | c :: cs, h :: hs => do
    let d ← c.data.castTo parse h.data.sqlType
    let ds ← castColumns parse cs hs
    pure (⟨c.name, d⟩ :: ds)
  | _, _ => .ok []

/-- `Block::cast_to`, /repo/src/types/block/mod.rs:305-327. -/
def Block.castTo (parse : IpKind → String → Option Bytes) (b header : Block) : Out Block :=
  if header.columns.length ≠ b.columns.length then .err outOfRange
  else do
    let cs ← castColumns parse b.columns header.columns
    pure { b with columns := cs }

end CH
