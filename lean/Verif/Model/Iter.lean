import Verif.Model.Block
import Verif.Model.Values

/-!
Model of the typed column iterators (/repo/src/types/column/iter/mod.rs) and of `get_internal`/`get_internals`, through which they
reach the storage of a column.

The iterators read raw memory. A pointer is modelled by the storage it points to; using it as storage of another kind, or reading
past its end, is the outcome `wild`: undefined behaviour, of which nothing more is said. (Some such reads would be harmless, for
instance `i8` numbers read as `u8`; the model does not tell them apart.)

Not modelled here: `level` and `map_level` are `u8` and overflow for types nested 256 deep (see `Model/Levels.lean`); `props` is a number, its lowest bit and
the rest being written `1 + 2 * n`; the vectors and maps the iterators
allocate are not limited in size. `nth`, `len`, `size_hint` and `count` are in `Model/Cursor.lean`.
-/

namespace CH

/-- `FromSqlError::UnsupportedOperation`. -/
def unsupported : Err := .other "UnsupportedOperation"

/-- What the pointers filled in by `get_internal` point to: numbers of a type, a string pool, a buffer of fixed strings with the
number of rows, the octets of addresses, stamps of dates, NULL flags, offsets, decimals. -/
inductive Store where
  | nums (t : NumTy) (xs : List Nat)
  | pool (xs : List Bytes)
  | fixed (n : Nat) (buf : Bytes) (rows : Nat)
  | octets (buf : Bytes)
  | stamps
  | flags (nulls : Bytes)
  | offs (xs : List Nat)
  | decs (nb : NoBits) (xs : List Nat)

/-- `ColumnData::get_internal` with `slots` pointers to fill in; indexing beyond them panics, and so does `assert_eq!(level, 0)`.
/repo/src/types/column/: numeric.rs:235-245, string.rs:204-214, fixed_string.rs:98-108, date.rs:222-233, datetime64.rs:86-99 (four
pointers, which no iterator passes), chrono_datetime.rs:115-126 and 213-220, ip.rs:317-326, nullable.rs:93-106, array.rs:109-122,
map.rs:122-141, decimal.rs:193-203, simple_agg_func.rs:65-72; the default of column_data.rs:29-36 for the others. -/
def Col.getInternal : Col → Nat → Nat → Nat → Out Store
  | .num t xs, slots, level, _ => if level ≠ 0 ∨ slots < 2 then .panic else .ok (.nums t xs)
  | .str xs, slots, level, _ => if level ≠ 0 ∨ slots < 2 then .panic else .ok (.pool xs)
  | .fixed n buf, slots, level, _ =>
    if level ≠ 0 ∨ slots < 2 then .panic
    else do
      let rows ← Col.len (.fixed n buf)
      pure (.fixed n buf rows)
  | .date _ _, slots, level, _ => if level ≠ 0 ∨ slots < 3 then .panic else .ok .stamps
  | .datetime _ _, slots, level, _ => if level ≠ 0 ∨ slots < 3 then .panic else .ok .stamps
  | .dt64 _ _ _, slots, level, _ => if level ≠ 0 ∨ slots < 4 then .panic else .ok .stamps
  | .chrono _ _, slots, level, _ => if level ≠ 0 ∨ slots < 3 then .panic else .ok .stamps
  | .ip _ buf, slots, level, _ => if level ≠ 0 ∨ slots < 1 then .panic else .ok (.octets buf)
  | .nullable nulls c, slots, level, props =>
    if level = (SqlType.nullable c.sqlType).level then
      if slots < 2 then .panic
      else do
        let _ ← Col.len (.nullable nulls c)
        pure (.flags nulls)
    else c.getInternal slots level props
  | .array offs c, slots, level, props =>
    if level = (SqlType.array c.sqlType).level then
      if slots < 2 then .panic else .ok (.offs offs)
    else c.getInternal slots level props
  | .map offs k v, slots, level, props =>
    if props = 1 then k.getInternal slots level 0
    else if level = (SqlType.map k.sqlType v.sqlType).level then
      if slots < 2 then .panic else .ok (.offs offs)
    else v.getInternal slots level (if props = 0 then 0 else 1 + 2 * (props / 2 - 1))
  | .decimal _ _ nb xs, slots, level, _ => if level ≠ 0 ∨ slots < 3 then .panic else .ok (.decs nb xs)
  | .simpleAgg _ c, slots, level, props => c.getInternal slots level props
  | .chronoAd _ _, _, _, _ => .panic
  | _, _, _, _ => .err unsupported

/-- Stamps of dates and times as `DateTimeInternals` (/repo/src/types/column/date.rs:255-260) describes them. -/
inductive Stamps where
  | days (tz : Tz) (xs : List Nat)
  | secs (tz : Tz) (xs : List Nat)
  | ticks (p : Nat) (tz : Tz) (xs : List Nat)

/-- `get_internals` filling in `DateTimeInternals` (level 0): date.rs:235-243, datetime64.rs:101-111, low_cardinality.rs:348-351,
column_data.rs:38-40. -/
def Col.dateInternals : Col → Out Stamps
  | .date tz xs => .ok (.days tz xs)
  | .datetime tz xs => .ok (.secs tz xs)
  | .dt64 p tz xs => .ok (.ticks p tz xs)
  | .lowCard _ _ d _ => d.dateInternals
  | _ => .err unsupported

/-- The dictionary behind `get_low_cardinality_accessor`: string.rs:220-222, fixed_string.rs:114-116, date.rs:249-251; `None` for
the others (column_data.rs:48-50). -/
def Col.accessor : Col → Option Col
  | .str xs => some (.str xs)
  | .fixed n buf => some (.fixed n buf)
  | .date tz xs => some (.date tz xs)
  | .datetime tz xs => some (.datetime tz xs)
  | _ => none

/-- `get_internals` filling in `LowCardinalityInternals` (level 1): low_cardinality.rs:352-360. Only reached on columns whose type
is `LowCardinality`; the composite columns have no `get_internals` (column_data.rs:38-40). -/
def Col.lcInternals : Col → Out (List Nat × Col)
  | .lowCard _ index d _ =>
    match d.accessor with
    | some a => .ok (index, a)
    | none => .err unsupported
  | _ => .err unsupported

/-- Rust types `Iterable` is implemented for, iter/mod.rs: numbers and `bool` 66-84, 998-1027; addresses 814-887; `&[u8]` 889-946;
`Decimal` 948-996; `DateTime<Tz>` 1029-1081; `NaiveDateTime` 1083-1134; `NaiveDate` 1143-1187; `Option` 1196-1240; `Vec` 1242-1283;
`HashMap` 1285-1331 (its key type must also be `Eq + Hash`, which is not asked here). -/
inductive ITy where
  | num (t : NumTy)
  | ip (k : IpKind)
  | bytes
  | decimal
  | time
  | naive
  | date
  | opt (t : ITy)
  | vec (t : ITy)
  | hmap (k v : ITy)
deriving DecidableEq, Repr

/-- What the iterators yield. Addresses are their octets; an instant is seconds, nanoseconds and zone; a date is the number of days
since 1970-01-01 (possibly negative). -/
inductive Item where
  | num (t : NumTy) (raw : Nat)
  | ip (k : IpKind) (octets : Bytes)
  | bytes (b : Bytes)
  | decimal (d : Decimal)
  | time (secs : Int) (nanos : Nat) (tz : Tz)
  | naive (secs : Int) (nanos : Nat)
  | date (days : Int)
  | none
  | some (x : Item)
  | vec (xs : List Item)
  | hmap (ks vs : List Item)
deriving Repr

/-- How an iteration ends: `next` returned `None`, a panic, or undefined behaviour. -/
inductive Stop where
  | done | panic | wild
deriving DecidableEq, Repr

/-- What an iterator yields from now on, and how it ends. -/
structure Run where
  items : List Item
  stop : Stop
deriving Repr

/-- One call of `next`. -/
inductive Next where
  | item (x : Item) (r : Run)
  | finished
  | stop (s : Stop)

/-- `Iterator::next`. An iterator that has finished stays finished. -/
def Run.next : Run → Next
  | ⟨x :: xs, s⟩ => .item x ⟨xs, s⟩
  | ⟨[], .done⟩ => .finished
  | ⟨[], s⟩ => .stop s

/-- An item followed by the rest of an iteration. -/
def Run.cons (x : Item) (r : Run) : Run := ⟨x :: r.items, r.stop⟩

/-- An iteration computing one item after another. -/
def runOf (f : α → Except Stop Item) : List α → Run
  | [] => ⟨[], .done⟩
  | a :: as =>
    match f a with
    | .ok x => Run.cons x (runOf f as)
    | .error s => ⟨[], s⟩

/-- `check_type`, iter/mod.rs:29-35. -/
def checkType : SqlType → SqlType → Bool
  | .simpleAgg _ t, dst => checkType t dst
  | src, dst => src == dst

/-- The octets `Ipv4Iterator`, `Ipv6Iterator` and `UuidIterator` make of one stored row, iter/mod.rs:361-370, 389-397, 420-430. -/
def iterOctets : IpKind → Bytes → Bytes
  | .v4, m => m.reverse
  | .v6, m => m
  | .uuid, m => (m.take 8).reverse ++ (m.drop 8).reverse

/-- Running an address iterator over a buffer, iter/mod.rs:86-98 and 357-445: it ends when the pointer meets the end; stepping over
the end reads beyond the buffer. -/
def ipRun (k : IpKind) (buf : Bytes) : Run :=
  ⟨(List.range (buf.length / k.size)).map fun i => .ip k (iterOctets k ((buf.drop (i * k.size)).take k.size)),
    if buf.length % k.size = 0 then .done else .wild⟩

/-- Offset from UTC, in seconds, of a zone at an instant (the time zone database of `chrono-tz`). -/
abbrev Zones := Tz → Int → Int

/-- `DateIterator::next_unchecked`, iter/mod.rs:449-463: the calendar date, in the column's zone, of midnight UTC. -/
def iterDate (zones : Zones) (tz : Tz) (days : Nat) : Int :=
  ((days : Int) * 24 * 3600 + zones tz (days * 24 * 3600)) / 86400

/-- `DateTimeIterator::get_by_index`, iter/mod.rs:503-521, of the stamp at hand. -/
def iterTime (tz : Tz) : Option Nat → Nat → Except Stop Item
  | .none, x => .ok (.time x 0 tz)
  | .some p, x =>
    match toDatetime (toSigned 8 x) p with
    | .ok (s, n) => .ok (.time s n tz)
    | _ => .error .panic

/-- `NativeDateTimeIterator::get_by_index`, iter/mod.rs:472-489; `to_native_datetime_opt` (datetime64.rs:147-160) computes as
`to_datetime_opt` does. -/
def iterNaive : Option Nat → Nat → Except Stop Item
  | .none, x => .ok (.naive x 0)
  | .some p, x =>
    match toDatetime (toSigned 8 x) p with
    | .ok (s, n) => .ok (.naive s n)
    | _ => .error .panic

/-- The stamp of a row: directly or through the index of a low-cardinality column. `*ptr.add(index)` is not checked. -/
def stampAt (xs : List Nat) (j : Nat) : Except Stop Nat :=
  match xs[j]? with
  | some x => .ok x
  | none => .error .wild

/-- Rows of a date column: without or with a low-cardinality index (iter/mod.rs:451-456). -/
def stampRows (lc : Option (List Nat)) (xs : List Nat) : List (Except Stop Nat) :=
  match lc with
  | none => (List.range xs.length).map (stampAt xs)
  | some index => index.map (stampAt xs)

/-- Running a date iterator. Stamps of another width are reinterpreted. -/
def dateRun (zones : Zones) (lc : Option (List Nat)) : Stamps → Run
  | .days tz xs => runOf (fun r => r.map fun d => .date (iterDate zones tz d)) (stampRows lc xs)
  | _ => ⟨[], .wild⟩

/-- Running a `DateTimeIterator`. -/
def timeRun (lc : Option (List Nat)) : Stamps → Run
  | .secs tz xs => runOf (fun r => r.bind (iterTime tz none)) (stampRows lc xs)
  | .ticks p tz xs => runOf (fun r => r.bind (iterTime tz (some p))) (stampRows lc xs)
  | _ => ⟨[], .wild⟩

/-- Running a `NativeDateTimeIterator`. -/
def naiveRun (lc : Option (List Nat)) : Stamps → Run
  | .secs _ xs => runOf (fun r => r.bind (iterNaive none)) (stampRows lc xs)
  | .ticks p _ xs => runOf (fun r => r.bind (iterNaive (some p))) (stampRows lc xs)
  | _ => ⟨[], .wild⟩

/-- `get_string` of a dictionary: string.rs:165-169, fixed_string.rs:55-60 (both check the index); `unimplemented!()` by default. -/
def getString : Col → Nat → Except Stop Item
  | .str xs, j =>
    match xs[j]? with
    | some b => .ok (.bytes b)
    | none => .error .panic
  | .fixed n buf, j => if j * n + n ≤ buf.length then .ok (.bytes ((buf.drop (j * n)).take n)) else .error .panic
  | _, _ => .error .panic

/-- `NullableIterator::next`, iter/mod.rs:677-691: a value is taken from the inner iterator for every row. -/
def nullRun : Bytes → Run → Run
  | [], _ => ⟨[], .done⟩
  | f :: fs, r =>
    match r.next with
    | .item x r' => Run.cons (if f ≠ 0 then .none else .some x) (nullRun fs r')
    | .finished => ⟨[], .done⟩
    | .stop s => ⟨[], s⟩

/-- The loop of `ArrayIterator::next`, iter/mod.rs:737-742. -/
def pull : Nat → Run → Except Stop (List Item × Run)
  | 0, r => .ok ([], r)
  | n + 1, r =>
    match r.next with
    | .item x r' =>
      match pull n r' with
      | .ok (xs, r'') => .ok (x :: xs, r'')
      | .error s => .error s
    | .finished => pull n r
    | .stop s => .error s

/-- `ArrayIterator::next` over the remaining offsets, iter/mod.rs:721-746; `end - start` panics when negative. -/
def arrayRun : Nat → List Nat → Run → Run
  | _, [], _ => ⟨[], .done⟩
  | start, stop :: offs, r =>
    if stop < start then ⟨[], .panic⟩
    else
      match pull (stop - start) r with
      | .ok (xs, r') => Run.cons (.vec xs) (arrayRun stop offs r')
      | .error s => ⟨[], s⟩

mutual
/-- `==` of two keys of a Rust `HashMap`: instants compare by their time, everything else by content. -/
def Item.same : Item → Item → Bool
  | .num t x, .num t' y => t == t' && x == y
  | .ip k x, .ip k' y => k == k' && x == y
  | .bytes x, .bytes y => x == y
  | .time s n _, .time s' n' _ => s == s' && n == n'
  | .naive s n, .naive s' n' => s == s' && n == n'
  | .date x, .date y => x == y
  | .none, .none => true
  | .some x, .some y => Item.same x y
  | .vec xs, .vec ys => Item.sames xs ys
  | _, _ => false
termination_by structural a => a
/-- `==` of two vectors of keys. -/
def Item.sames : List Item → List Item → Bool
  | [], [] => true
  | x :: xs, y :: ys => Item.same x y && Item.sames xs ys
  | _, _ => false
termination_by structural a => a
end

/-- Position of a key among keys. -/
def itemIndex (k : Item) : List Item → Option Nat
  | [] => none
  | x :: xs => if Item.same x k then some 0 else (itemIndex k xs).map (· + 1)

/-- `HashMap::insert`, iter/mod.rs:794. -/
def itemInsert (m : List Item × List Item) (k v : Item) : List Item × List Item :=
  match itemIndex k m.1 with
  | some i => (m.1, m.2.set i v)
  | none => (m.1 ++ [k], m.2 ++ [v])

/-- The loop of `MapIterator::next`, iter/mod.rs:790-797. -/
def pullPairs : Nat → List Item × List Item → Run → Run → Except Stop ((List Item × List Item) × Run × Run)
  | 0, m, k, v => .ok (m, k, v)
  | n + 1, m, k, v =>
    match k.next with
    | .item a k' =>
      match v.next with
      | .item b v' => pullPairs n (itemInsert m a b) k' v'
      | .finished => pullPairs n m k' v
      | .stop s => .error s
    | .finished => pullPairs n m k v
    | .stop s => .error s

/-- `MapIterator::next` over the remaining offsets, iter/mod.rs:776-801. -/
def mapRun : Nat → List Nat → Run → Run → Run
  | _, [], _, _ => ⟨[], .done⟩
  | start, stop :: offs, k, v =>
    if stop < start then ⟨[], .panic⟩
    else
      match pullPairs (stop - start) ([], []) k v with
      | .ok (m, k', v') => Run.cons (.hmap m.1 m.2) (mapRun stop offs k' v')
      | .error s => ⟨[], s⟩

/-- The storage at hand used as numbers of a type, iter/mod.rs:51-61, 1012-1025. -/
def Store.asNums (t : NumTy) : Store → Run
  | .nums t' xs => if t' = t then ⟨xs.map (.num t), .done⟩ else ⟨[], .wild⟩
  | _ => ⟨[], .wild⟩

/-- The storage at hand used as the octets of addresses, iter/mod.rs:822-836. -/
def Store.asOctets (k : IpKind) : Store → Run
  | .octets buf => ipRun k buf
  | _ => ⟨[], .wild⟩

/-- The storage at hand used as a string pool, iter/mod.rs:909-919 with 246-253. -/
def Store.asPool : Store → Run
  | .pool xs => ⟨xs.map .bytes, .done⟩
  | _ => ⟨[], .wild⟩

/-- The storage at hand used as fixed strings of `n` bytes, iter/mod.rs:920-933 with 254-264. -/
def Store.asFixed (n : Nat) : Store → Run
  | .fixed n' buf rows =>
    if n' = n then ⟨(List.range rows).map fun i => .bytes ((buf.drop (i * n)).take n), .done⟩ else ⟨[], .wild⟩
  | _ => ⟨[], .wild⟩

/-- The storage at hand used as decimals, iter/mod.rs:963-994 with 305-330. -/
def Store.asDecimals (p s : Nat) : Store → Run
  | .decs nb xs => ⟨xs.map fun x => .decimal ⟨toSigned nb.width x, nb, p, s⟩, .done⟩
  | _ => ⟨[], .wild⟩

/-- The storage at hand used as NULL flags, iter/mod.rs:1219-1238. -/
def Store.asFlags (r : Run) : Store → Run
  | .flags nulls => nullRun nulls r
  | _ => ⟨[], .wild⟩

/-- The storage at hand used as offsets of an array, iter/mod.rs:1262-1281. -/
def Store.asArray (r : Run) : Store → Run
  | .offs xs => arrayRun 0 xs r
  | _ => ⟨[], .wild⟩

/-- The storage at hand used as offsets of a map, iter/mod.rs:1310-1329. -/
def Store.asMap (k v : Run) : Store → Run
  | .offs xs => mapRun 0 xs k v
  | _ => ⟨[], .wild⟩

/-- `SqlType::DateTime(_)`. -/
def anyTime : SqlType → Bool
  | .datetime => true
  | .dt64 _ _ => true
  | .chrono => true
  | _ => false

/-- The stamps and the low-cardinality index a date or time iterator works on, when the type is one `isStamp` accepts, alone or
in `LowCardinality`: iter/mod.rs:1040-1061, 1094-1114, 1154-1177, 1189-1194. -/
def stampSource (c : Col) (isStamp : SqlType → Bool) : SqlType → Out (Option (List Nat) × Stamps)
  | .lowCard t =>
    if isStamp t then do
      let (index, _) ← c.lcInternals
      let st ← c.dateInternals
      pure (some index, st)
    else .err typeError
  | t =>
    if isStamp t then do
      let st ← c.dateInternals
      pure (none, st)
    else .err typeError

/-- `Iterable::iter_with_props` on the column `c`; lines at `ITy`. -/
def iterWith (zones : Zones) (c : Col) : ITy → SqlType → Nat → Out Run
  | .num t, ty, props =>
    if checkType ty (.num t) then do
      let s ← c.getInternal 2 0 props
      pure (s.asNums t)
    else .err typeError
  | .ip k, _, props => do
    let s ← c.getInternal 1 0 props
    pure (s.asOctets k)
  | .bytes, .lowCard .string, _ => do
    let (index, d) ← c.lcInternals
    pure (runOf (getString d) index)
  | .bytes, .lowCard (.fixedString _), _ => do
    let (index, d) ← c.lcInternals
    pure (runOf (getString d) index)
  | .bytes, .string, props => do
    let s ← c.getInternal 2 0 props
    pure s.asPool
  | .bytes, .fixedString n, _ => do
    let s ← c.getInternal 2 0 0
    pure (s.asFixed n)
  | .bytes, _, _ => .err typeError
  | .decimal, .decimal p s, _ => do
    let st ← c.getInternal 3 0 0
    pure (st.asDecimals p s)
  | .decimal, _, _ => .err typeError
  | .time, ty, _ => do
    let (lc, st) ← stampSource c anyTime ty
    pure (timeRun lc st)
  | .naive, ty, _ => do
    let (lc, st) ← stampSource c anyTime ty
    pure (naiveRun lc st)
  | .date, ty, _ => do
    let (lc, st) ← stampSource c (· == .date) ty
    pure (dateRun zones lc st)
  | .opt t, .nullable ty, props => do
    let r ← iterWith zones c t ty 0
    let s ← c.getInternal 2 (SqlType.nullable ty).level props
    pure (s.asFlags r)
  | .opt _, _, _ => .err typeError
  | .vec t, .array ty, props => do
    let r ← iterWith zones c t ty props
    let s ← c.getInternal 2 (SqlType.array ty).level 0
    pure (s.asArray r)
  | .vec _, _, _ => .err typeError
  | .hmap k v, .map kt vt, props =>
    if c.sqlType.mapLevel < (SqlType.map kt vt).mapLevel then .panic
    else do
      let kr ← iterWith zones c k kt (1 + 2 * (c.sqlType.mapLevel - (SqlType.map kt vt).mapLevel))
      let vr ← iterWith zones c v vt 0
      let s ← c.getInternal 2 (SqlType.map kt vt).level props
      pure (s.asMap kr vr)
  | .hmap _ _, _, _ => .err typeError

/-- `Column::iter`, /repo/src/types/column/mod.rs:174-176 with iter/mod.rs:126-128. -/
def Col.iter (zones : Zones) (c : Col) (t : ITy) : Out Run := iterWith zones c t c.sqlType 0

/-- One iteration after another. -/
def Run.append (a b : Run) : Run :=
  match a.stop with
  | .done => ⟨a.items ++ b.items, b.stop⟩
  | _ => a

/-- `ComplexIterator::next`, iter/mod.rs:1350-1391: chunks without rows are passed over, `T::iter(..).unwrap()`. -/
def complexRun (zones : Zones) (t : ITy) (ty : SqlType) : List Col → Run
  | [] => ⟨[], .done⟩
  | c :: cs =>
    match c.len with
    | .ok n =>
      if n = 0 then complexRun zones t ty cs
      else
        match iterWith zones c t ty 0 with
        | .ok r => r.append (complexRun zones t ty cs)
        | _ => ⟨[], .panic⟩
    | _ => ⟨[], .panic⟩

/-- `Iterable<Complex>`, iter/mod.rs:1394-1425: an iterator over the chunks of a concatenated column. -/
def ConcatCol.iter (zones : Zones) (c : ConcatCol) (t : ITy) : Out Run := do
  let ty ← c.sqlType
  pure (complexRun zones t ty c.data)

end CH
