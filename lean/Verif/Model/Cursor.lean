import Verif.Model.Iter

/-!
The typed column iterators (/repo/src/types/column/iter/mod.rs) as they are: states with positions, advanced by `next` and `nth`, and
asked for their length. `Model/Iter.lean` says what an iterator yields altogether; here is one call at a time.

As there, a pointer is modelled by the storage it points to and a position in it, and reading outside or using storage of another
kind is `wild`. Lengths of memory are not limited, so that `index + n` does not overflow (`n` is less than a length where it is
added).
-/

namespace CH

/-- What a call of `next` or `nth` does: an item and the state after it; `None`, and the state; a panic or undefined behaviour. -/
inductive Step (σ : Type) where
  | item (x : Item) (s : σ)
  | finished (s : σ)
  | stop (s : Stop)

/-- The iterators that are not made of others: `slice::Iter` of the standard library (the numbers left), iter/mod.rs:39;
`Ipv4Iterator`, `Ipv6Iterator`, `UuidIterator`, 168-184; `StringIterator` with its three kinds of source, 142-155;
`DecimalIterator`, 157-166 (`ptr` counts bytes from the beginning); `DateIterator`, `DateTimeIterator` and `NativeDateTimeIterator`,
186-216. `wild` stands for an iterator over storage of another kind. -/
inductive Leaf where
  | slice (t : NumTy) (xs : List Nat)
  | octets (k : IpKind) (buf : Bytes) (ptr : Nat)
  | pool (xs : List Bytes) (index size : Nat)
  | fixed (n : Nat) (buf : Bytes) (index size : Nat)
  | dict (d : Col) (rows : List Nat) (index size : Nat)
  | decs (nb : NoBits) (p s : Nat) (xs : List Nat) (ptr stop : Nat)
  | date (lc : Option (List Nat)) (tz : Tz) (xs : List Nat) (index len : Nat)
  | time (lc : Option (List Nat)) (p : Option Nat) (tz : Tz) (xs : List Nat) (index len : Nat)
  | naive (lc : Option (List Nat)) (p : Option Nat) (xs : List Nat) (index len : Nat)
  | wild

/-- `lc_index.map(|ix| (*ix).get_by_index(index)).unwrap_or(index)`, then `*ptr.add(..)`: iter/mod.rs:451-456, 473-484, 505-517.
`get_by_index` of the index (low_cardinality.rs:107-114) checks its bounds. -/
def stampOf (lc : Option (List Nat)) (xs : List Nat) (index : Nat) : Except Stop Nat :=
  match lc with
  | none => stampAt xs index
  | some rows =>
    match rows[index]? with
    | some j => stampAt xs j
    | none => .error .panic

/-- The outcome of computing an item. -/
def stepOf (r : Except Stop Item) (s : σ) : Step σ :=
  match r with
  | .ok x => .item x s
  | .error e => .stop e

/-- `next`: the macro `iterator!`, iter/mod.rs:94-100, with `next_unchecked` of the addresses (361-370, 389-397, 420-430) and of the
decimals (308-331); `StringIterator`, 246-279; `DateIterator`, 449-463 and 553-561; `NativeDateTimeIterator`, 596-604, and
`DateTimeIterator`, 632-640, which end when `len()` is zero. -/
def Leaf.next (zones : Zones) : Leaf → Step Leaf
  | .slice t [] => .finished (.slice t [])
  | .slice t (x :: xs) => .item (.num t x) (.slice t xs)
  | .octets k buf ptr =>
    if ptr = buf.length then .finished (.octets k buf ptr)
    else if ptr + k.size ≤ buf.length then
      .item (.ip k (iterOctets k ((buf.drop ptr).take k.size))) (.octets k buf (ptr + k.size))
    else .stop .wild
  | .pool xs index size =>
    if index = size then .finished (.pool xs index size)
    else
      match xs[index]? with
      | some b => .item (.bytes b) (.pool xs (index + 1) size)
      | none => .stop .wild
  | .fixed n buf index size =>
    if index ≥ size then .finished (.fixed n buf index size)
    else if index * n + n ≤ buf.length then
      .item (.bytes ((buf.drop (index * n)).take n)) (.fixed n buf (index + 1) size)
    else .stop .wild
  | .dict d rows index size =>
    if index ≥ size then .finished (.dict d rows index size)
    else
      match rows[index]? with
      | some j => stepOf (getString d j) (.dict d rows (index + 1) size)
      | none => .stop .panic
  | .decs nb p s xs ptr stop =>
    if ptr = stop then .finished (.decs nb p s xs ptr stop)
    else
      match xs[ptr / nb.width]? with
      | some x => .item (.decimal ⟨toSigned nb.width x, nb, p, s⟩) (.decs nb p s xs (ptr + nb.width) stop)
      | none => .stop .wild
  | .date lc tz xs index len =>
    if index = len then .finished (.date lc tz xs index len)
    else stepOf ((stampOf lc xs index).map fun d => .date (iterDate zones tz d)) (.date lc tz xs (index + 1) len)
  | .time lc p tz xs index len =>
    if index > len then .stop .panic
    else if len - index = 0 then .finished (.time lc p tz xs index len)
    else stepOf ((stampOf lc xs index).bind (iterTime tz p)) (.time lc p tz xs (index + 1) len)
  | .naive lc p xs index len =>
    if index > len then .stop .panic
    else if len - index = 0 then .finished (.naive lc p xs index len)
    else stepOf ((stampOf lc xs index).bind (iterNaive p)) (.naive lc p xs (index + 1) len)
  | .wild => .stop .wild

/-- `len`: iter/mod.rs:237-240, 344-353, 379-385, 406-412, 439-445, 537-549, 587-591; that of `slice::Iter` is the number of items
left. A negative difference panics (the iterators over wrong storage are left out). -/
def Leaf.len : Leaf → Out Nat
  | .slice _ xs => .ok xs.length
  | .octets k buf ptr => if ptr ≤ buf.length then .ok ((buf.length - ptr) / k.size) else .panic
  | .pool _ index size => if index ≤ size then .ok (size - index) else .panic
  | .fixed _ _ index size => if index ≤ size then .ok (size - index) else .panic
  | .dict _ _ index size => if index ≤ size then .ok (size - index) else .panic
  | .decs nb _ _ _ ptr stop => if ptr ≤ stop then .ok ((stop - ptr) / nb.width) else .panic
  | .date _ _ _ index len => if index ≤ len then .ok (len - index) else .panic
  | .time _ _ _ _ index len => if index ≤ len then .ok (len - index) else .panic
  | .naive _ _ _ index len => if index ≤ len then .ok (len - index) else .panic
  | .wild => .panic

/-- The iterator at its end: `self.ptr = self.end` or `self.index = self.size`, iter/mod.rs:117, 296, 578, 621, 657. -/
def Leaf.toEnd : Leaf → Leaf
  | .slice t _ => .slice t []
  | .octets k buf _ => .octets k buf buf.length
  | .pool xs _ size => .pool xs size size
  | .fixed n buf _ size => .fixed n buf size size
  | .dict d rows _ size => .dict d rows size size
  | .decs nb p s xs _ stop => .decs nb p s xs stop stop
  | .date lc tz xs _ len => .date lc tz xs len len
  | .time lc p tz xs _ len => .time lc p tz xs len len
  | .naive lc p xs _ len => .naive lc p xs len len
  | .wild => .wild

/-- `post_inc_start(n)`: iter/mod.rs:334-341, 372-377, 399-404, 432-437, 465-468, 498-501, 531-534; `self.index += n`, 300. -/
def Leaf.skip (n : Nat) : Leaf → Leaf
  | .slice t xs => .slice t (xs.drop n)
  | .octets k buf ptr => .octets k buf (ptr + n * k.size)
  | .pool xs index size => .pool xs (index + n) size
  | .fixed m buf index size => .fixed m buf (index + n) size
  | .dict d rows index size => .dict d rows (index + n) size
  | .decs nb p s xs ptr stop => .decs nb p s xs (ptr + n * nb.width) stop
  | .date lc tz xs index len => .date lc tz xs (index + n) len
  | .time lc p tz xs index len => .time lc p tz xs (index + n) len
  | .naive lc p xs index len => .naive lc p xs (index + n) len
  | .wild => .wild

/-- `nth`: iter/mod.rs:113-123, 292-302, 574-584, 617-627, 653-663 (`slice::Iter` does the same). -/
def Leaf.nth (zones : Zones) (n : Nat) (s : Leaf) : Step Leaf :=
  match s.len with
  | .ok l => if n ≥ l then .finished s.toEnd else (s.skip n).next zones
  | _ => .stop .panic

/-- `NullableIterator`, iter/mod.rs:218-223: `ptr` counts from the first flag, `end` is after the last. -/
structure NullIt (σ : Type) where
  inner : σ
  flags : Bytes
  ptr : Nat

/-- `ArrayIterator`, iter/mod.rs:225-230; `size` is the number of offsets (1262-1281). -/
structure ArrayIt (σ : Type) where
  inner : σ
  offsets : List Nat
  index : Nat

/-- `MapIterator`, iter/mod.rs:232-235 (the pair `inner` written as two fields); `size` is the number of offsets (1310-1329). -/
structure MapIt (κ ν : Type) where
  keys : κ
  values : ν
  offsets : List Nat
  index : Nat

/-- The iterator type of a Rust type: the associated type `Iterable::Iter`, at the lines of `ITy`; `none` stands for a composite
iterator over storage of another kind. -/
def ITy.State : ITy → Type
  | .opt t => Option (NullIt t.State)
  | .vec t => Option (ArrayIt t.State)
  | .hmap k v => Option (MapIt k.State v.State)
  | _ => Leaf

/-- `NullableIterator::next`, iter/mod.rs:677-691: `self.inner.next()?` comes before the flag. -/
def NullIt.next (f : σ → Step σ) (s : NullIt σ) : Step (NullIt σ) :=
  if s.ptr = s.flags.length then .finished s
  else
    match f s.inner with
    | .item x i =>
      match s.flags[s.ptr]? with
      | some flag => .item (if flag ≠ 0 then .none else .some x) { s with inner := i, ptr := s.ptr + 1 }
      | none => .stop .wild
    | .finished i => .finished { s with inner := i }
    | .stop e => .stop e

/-- `offsets[index - 1]`, or zero at the first row: iter/mod.rs:726-730, 781-785. -/
def startOf (offsets : List Nat) (index : Nat) : Out Nat := if index > 0 then idx offsets (index - 1) else .ok 0

/-- The loop of `ArrayIterator::next`, iter/mod.rs:737-742. -/
def pullFrom (f : σ → Step σ) : Nat → σ → Except Stop (List Item × σ)
  | 0, s => .ok ([], s)
  | n + 1, s =>
    match f s with
    | .item x s' =>
      match pullFrom f n s' with
      | .ok (xs, s'') => .ok (x :: xs, s'')
      | .error e => .error e
    | .finished s' => pullFrom f n s'
    | .stop e => .error e

/-- `ArrayIterator::next`, iter/mod.rs:721-746. -/
def ArrayIt.next (f : σ → Step σ) (s : ArrayIt σ) : Step (ArrayIt σ) :=
  if s.index = s.offsets.length then .finished s
  else
    match startOf s.offsets s.index, idx s.offsets s.index with
    | .ok start, .ok stop =>
      if stop < start then .stop .panic
      else
        match pullFrom f (stop - start) s.inner with
        | .ok (xs, i) => .item (.vec xs) { s with inner := i, index := s.index + 1 }
        | .error e => .stop e
    | _, _ => .stop .panic

/-- The loop of `MapIterator::next`, iter/mod.rs:790-797. -/
def pullPairsFrom (f : κ → Step κ) (g : ν → Step ν) : Nat → List Item × List Item → κ → ν →
    Except Stop ((List Item × List Item) × κ × ν)
  | 0, m, k, v => .ok (m, k, v)
  | n + 1, m, k, v =>
    match f k with
    | .item a k' =>
      match g v with
      | .item b v' => pullPairsFrom f g n (itemInsert m a b) k' v'
      | .finished v' => pullPairsFrom f g n m k' v'
      | .stop e => .error e
    | .finished k' => pullPairsFrom f g n m k' v
    | .stop e => .error e

/-- `MapIterator::next`, iter/mod.rs:776-801. -/
def MapIt.next (f : κ → Step κ) (g : ν → Step ν) (s : MapIt κ ν) : Step (MapIt κ ν) :=
  if s.index = s.offsets.length then .finished s
  else
    match startOf s.offsets s.index, idx s.offsets s.index with
    | .ok start, .ok stop =>
      if stop < start then .stop .panic
      else
        match pullPairsFrom f g (stop - start) ([], []) s.keys s.values with
        | .ok (m, k, v) => .item (.hmap m.1 m.2) { s with keys := k, values := v, index := s.index + 1 }
        | .error e => .stop e
    | _, _ => .stop .panic

/-- A call on an iterator unless it is over storage of another kind. -/
def Step.sane (f : σ → Step σ) : Option σ → Step (Option σ)
  | none => .stop .wild
  | some s =>
    match f s with
    | .item x s' => .item x (some s')
    | .finished s' => .finished (some s')
    | .stop e => .stop e

/-- `Iterator::next`; lines at the functions used. -/
def ITy.next (zones : Zones) : (T : ITy) → T.State → Step T.State
  | .opt t => Step.sane (NullIt.next (t.next zones))
  | .vec t => Step.sane (ArrayIt.next (t.next zones))
  | .hmap k v => Step.sane (MapIt.next (k.next zones) (v.next zones))
  | .num _ | .ip _ | .bytes | .decimal | .time | .naive | .date => Leaf.next zones

/-- `ExactSizeIterator::len`, iter/mod.rs:666-674, 710-715, 759-767 for the composite iterators. `size_hint` is `(len, Some(len))` and
`count` is `len` in all of them: 102-111, 281-290, 563-572, 606-615, 642-651, 697-706, 746-755, 802-811. -/
def ITy.len : (T : ITy) → T.State → Out Nat
  | .opt _, some s => if s.ptr ≤ s.flags.length then .ok (s.flags.length - s.ptr) else .panic
  | .vec _, some s => if s.index ≤ s.offsets.length then .ok (s.offsets.length - s.index) else .panic
  | .hmap _ _, some s => if s.index ≤ s.offsets.length then .ok (s.offsets.length - s.index) else .panic
  | .opt _, none | .vec _, none | .hmap _ _, none => .panic
  | .num _, s | .ip _, s | .bytes, s | .decimal, s | .time, s | .naive, s | .date, s => Leaf.len s

/-- `Iterator::nth` as the standard library provides it: `next` is called `n` times, then once more; `None` ends it. -/
def nthDefault (f : σ → Step σ) : Nat → σ → Step σ
  | 0, s => f s
  | n + 1, s =>
    match f s with
    | .item _ s' => nthDefault f n s'
    | r => r

/-- `Iterator::nth`: the composite iterators do not override it. -/
def ITy.nth (zones : Zones) : (T : ITy) → Nat → T.State → Step T.State
  | .opt t, n, s => nthDefault (ITy.next zones (.opt t)) n s
  | .vec t, n, s => nthDefault (ITy.next zones (.vec t)) n s
  | .hmap k v, n, s => nthDefault (ITy.next zones (.hmap k v)) n s
  | .num _, n, s | .ip _, n, s | .bytes, n, s | .decimal, n, s | .time, n, s | .naive, n, s | .date, n, s => Leaf.nth zones n s

/-- The number of rows of a date column: `(*lc_inter.index).len()` or `dt_inter.len`, iter/mod.rs:1049-1057, 1103-1111, 1163-1171. -/
def stampCount (lc : Option (List Nat)) (xs : List Nat) : Nat :=
  match lc with
  | none => xs.length
  | some rows => rows.length

/-- The iterator over numbers, iter/mod.rs:51-61, 1012-1025. -/
def Store.numbers (t : NumTy) : Store → Leaf
  | .nums t' xs => if t' = t then .slice t xs else .wild
  | _ => .wild

/-- The iterator over addresses, iter/mod.rs:822-836, 848-862, 874-887. -/
def Store.addresses (k : IpKind) : Store → Leaf
  | .octets buf => .octets k buf 0
  | _ => .wild

/-- The iterator over strings, iter/mod.rs:909-919. -/
def Store.strings : Store → Leaf
  | .pool xs => .pool xs 0 xs.length
  | _ => .wild

/-- The iterator over fixed strings, iter/mod.rs:920-933. -/
def Store.fixedStrings (n : Nat) : Store → Leaf
  | .fixed n' buf rows => if n' = n then .fixed n buf 0 rows else .wild
  | _ => .wild

/-- The iterator over decimals, iter/mod.rs:963-994. -/
def Store.decimals (p s : Nat) : Store → Leaf
  | .decs nb xs => .decs nb p s xs 0 (xs.length * nb.width)
  | _ => .wild

/-- The iterator over dates, iter/mod.rs:1178-1186. Stamps of another width are reinterpreted. -/
def dateLeaf (lc : Option (List Nat)) : Stamps → Leaf
  | .days tz xs => .date lc tz xs 0 (stampCount lc xs)
  | _ => .wild

/-- The iterator over times, iter/mod.rs:1063-1080. -/
def timeLeaf (lc : Option (List Nat)) : Stamps → Leaf
  | .secs tz xs => .time lc none tz xs 0 (stampCount lc xs)
  | .ticks p tz xs => .time lc (some p) tz xs 0 (stampCount lc xs)
  | _ => .wild

/-- The iterator over times without zone, iter/mod.rs:1117-1133. -/
def naiveLeaf (lc : Option (List Nat)) : Stamps → Leaf
  | .secs _ xs => .naive lc none xs 0 (stampCount lc xs)
  | .ticks p _ xs => .naive lc (some p) xs 0 (stampCount lc xs)
  | _ => .wild

/-- The iterator over nullable values, iter/mod.rs:1219-1238. -/
def Store.nulls (i : σ) : Store → Option (NullIt σ)
  | .flags nulls => some ⟨i, nulls, 0⟩
  | _ => none

/-- The iterator over arrays, iter/mod.rs:1262-1281. -/
def Store.arrays (i : σ) : Store → Option (ArrayIt σ)
  | .offs xs => some ⟨i, xs, 0⟩
  | _ => none

/-- The iterator over maps, iter/mod.rs:1310-1329. -/
def Store.maps (i : κ) (j : ν) : Store → Option (MapIt κ ν)
  | .offs xs => some ⟨i, j, xs, 0⟩
  | _ => none

/-- `Iterable::iter_with_props` on the column `c`, giving the iterator at its beginning; lines at `ITy`. -/
def cursorWith (c : Col) : (T : ITy) → SqlType → Nat → Out T.State
  | .num t, ty, props =>
    if checkType ty (.num t) then do
      let s ← c.getInternal 2 0 props
      pure (s.numbers t)
    else .err typeError
  | .ip k, _, props => do
    let s ← c.getInternal 1 0 props
    pure (s.addresses k)
  | .bytes, .lowCard .string, _ => do
    let (index, d) ← c.lcInternals
    pure (.dict d index 0 index.length)
  | .bytes, .lowCard (.fixedString _), _ => do
    let (index, d) ← c.lcInternals
    pure (.dict d index 0 index.length)
  | .bytes, .string, props => do
    let s ← c.getInternal 2 0 props
    pure s.strings
  | .bytes, .fixedString n, _ => do
    let s ← c.getInternal 2 0 0
    pure (s.fixedStrings n)
  | .bytes, _, _ => .err typeError
  | .decimal, .decimal p s, _ => do
    let st ← c.getInternal 3 0 0
    pure (st.decimals p s)
  | .decimal, _, _ => .err typeError
  | .time, ty, _ => do
    let (lc, st) ← stampSource c anyTime ty
    pure (timeLeaf lc st)
  | .naive, ty, _ => do
    let (lc, st) ← stampSource c anyTime ty
    pure (naiveLeaf lc st)
  | .date, ty, _ => do
    let (lc, st) ← stampSource c (· == .date) ty
    pure (dateLeaf lc st)
  | .opt t, .nullable ty, props => do
    let r ← cursorWith c t ty 0
    let s ← c.getInternal 2 (SqlType.nullable ty).level props
    pure (s.nulls r)
  | .opt _, _, _ => .err typeError
  | .vec t, .array ty, props => do
    let r ← cursorWith c t ty props
    let s ← c.getInternal 2 (SqlType.array ty).level 0
    pure (s.arrays r)
  | .vec _, _, _ => .err typeError
  | .hmap k v, .map kt vt, props =>
    if c.sqlType.mapLevel < (SqlType.map kt vt).mapLevel then .panic
    else do
      let kr ← cursorWith c k kt (1 + 2 * (c.sqlType.mapLevel - (SqlType.map kt vt).mapLevel))
      let vr ← cursorWith c v vt 0
      let s ← c.getInternal 2 (SqlType.map kt vt).level props
      pure (s.maps kr vr)
  | .hmap _ _, _, _ => .err typeError

/-- `Column::iter`, /repo/src/types/column/mod.rs:174-176 with iter/mod.rs:126-128. -/
def Col.cursor (c : Col) (T : ITy) : Out T.State := cursorWith c T c.sqlType 0

/-! ### Concatenated columns -/

/-- `ComplexIterator`, iter/mod.rs:1333-1343. -/
structure ComplexIt (T : ITy) where
  type : SqlType
  data : List Col
  currentIndex : Nat
  current : Option T.State

/-- The loop of `ComplexIterator::next` that passes over chunks without rows, iter/mod.rs:1357-1365: the position of the next chunk
with rows, if any. -/
def seek (data : List Col) (i : Nat) : Out (Option Nat) :=
  if h : i < data.length then
    match data[i].len with
    | .ok n => if n > 0 then .ok (some i) else seek data (i + 1)
    | .err e => .err e
    | .panic => .panic
  else .ok none
termination_by data.length - i

/-- `ComplexIterator::next`, iter/mod.rs:1350-1391, cut off after `fuel` calls of itself (a panic; the number of chunks and one more
suffice). `T::iter(..).unwrap()` panics on an error; when no chunk is left `current_index` has passed over the empty ones, which is
left out: it is only compared with the number of chunks. -/
def ComplexIt.nextFuel (zones : Zones) (T : ITy) : Nat → ComplexIt T → Step (ComplexIt T)
  | 0, _ => .stop .panic
  | fuel + 1, s =>
    match s.current with
    | some it =>
      match T.next zones it with
      | .item x it' => .item x { s with current := some it' }
      | .finished _ => ComplexIt.nextFuel zones T fuel { s with current := none }
      | .stop e => .stop e
    | none =>
      match seek s.data s.currentIndex with
      | .ok none => .finished s
      | .ok (some i) =>
        match s.data[i]? with
        | some c =>
          match cursorWith c T s.type 0 with
          | .ok it =>
            match T.next zones it with
            | .item x it' => .item x { s with current := some it', currentIndex := i + 1 }
            | .finished _ => ComplexIt.nextFuel zones T fuel { s with current := none, currentIndex := i + 1 }
            | .stop e => .stop e
          | _ => .stop .panic
        | none => .stop .panic
      | _ => .stop .panic

/-- `ComplexIterator::next`. -/
def ComplexIt.next (zones : Zones) (T : ITy) (s : ComplexIt T) : Step (ComplexIt T) :=
  s.nextFuel zones T (s.data.length - s.currentIndex + 2)

/-- `Iterable<Complex>`, iter/mod.rs:1394-1425. -/
def ConcatCol.cursor (c : ConcatCol) (T : ITy) : Out (ComplexIt T) := do
  let ty ← c.sqlType
  pure ⟨ty, c.data, 0, none⟩

end CH
