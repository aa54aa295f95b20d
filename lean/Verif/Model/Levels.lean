import Verif.Model.Iter

/-!
The typed column iterators with the numbers they count the layers of a type with: `level` and `map_level` are `u8`
(/repo/src/types/mod.rs:447-464) and `1 + 255` is the arithmetic-overflow panic. `Model/Iter` counts with natural numbers.
-/

namespace CH

/-- `1 + n` on `u8`, as in /repo/src/types/mod.rs:449-451 and 461. -/
def succU8 (n : Nat) : Out Nat := if n < 255 then .ok (1 + n) else .panic

/-- `SqlType::level`, /repo/src/types/mod.rs:447-455. -/
def SqlType.levelU8 : SqlType → Out Nat
  | .nullable t => t.levelU8.bind succU8
  | .array t => t.levelU8.bind succU8
  | .map _ v => v.levelU8.bind succU8
  | .lowCard _ => .ok 1
  | _ => .ok 0

/-- `SqlType::map_level`, /repo/src/types/mod.rs:457-464. -/
def SqlType.mapLevelU8 : SqlType → Out Nat
  | .nullable t => t.levelU8
  | .array t => t.levelU8
  | .map _ v => v.levelU8.bind succU8
  | _ => .ok 0

/-- `get_internal` as `Col.getInternal` (lines there). -/
def Col.getInternalU8 : Col → Nat → Nat → Nat → Out Store
  | .nullable nulls c, slots, level, props => do
    let own ← (SqlType.nullable c.sqlType).levelU8
    if level = own then
      if slots < 2 then .panic
      else do
        let _ ← Col.len (.nullable nulls c)
        pure (.flags nulls)
    else c.getInternalU8 slots level props
  | .array offs c, slots, level, props => do
    let own ← (SqlType.array c.sqlType).levelU8
    if level = own then
      if slots < 2 then .panic else .ok (.offs offs)
    else c.getInternalU8 slots level props
  | .map offs k v, slots, level, props =>
    if props = 1 then k.getInternalU8 slots level 0
    else do
      let own ← (SqlType.map k.sqlType v.sqlType).levelU8
      if level = own then
        if slots < 2 then .panic else .ok (.offs offs)
      else v.getInternalU8 slots level (if props = 0 then 0 else 1 + 2 * (props / 2 - 1))
  | .simpleAgg _ c, slots, level, props => c.getInternalU8 slots level props
  | c, slots, level, props => c.getInternal slots level props

/-- `Iterable::iter_with_props` as `iterWith` (lines at `ITy`). The subtraction of the levels of maps is iter/mod.rs:1295. Dates and
times are not reached through levels. -/
def iterWithU8 (zones : Zones) (c : Col) : ITy → SqlType → Nat → Out Run
  | .num t, ty, props =>
    if checkType ty (.num t) then do
      let s ← c.getInternalU8 2 0 props
      pure (s.asNums t)
    else .err typeError
  | .ip k, _, props => do
    let s ← c.getInternalU8 1 0 props
    pure (s.asOctets k)
  | .bytes, .lowCard .string, _ => do
    let (index, d) ← c.lcInternals
    pure (runOf (getString d) index)
  | .bytes, .lowCard (.fixedString _), _ => do
    let (index, d) ← c.lcInternals
    pure (runOf (getString d) index)
  | .bytes, .string, props => do
    let s ← c.getInternalU8 2 0 props
    pure s.asPool
  | .bytes, .fixedString n, _ => do
    let s ← c.getInternalU8 2 0 0
    pure (s.asFixed n)
  | .bytes, _, _ => .err typeError
  | .decimal, .decimal p s, _ => do
    let st ← c.getInternalU8 3 0 0
    pure (st.asDecimals p s)
  | .decimal, _, _ => .err typeError
  | .time, ty, _ => do
    let (lc, st) ← stampSource c anyTime ty
    pure (timeRun lc st)
  | .naive, ty, _ => do
    let (lc, st) ← stampSource c anyTime ty
    pure (naiveRun lc st)
  | .date, ty, _ => do
    let (lc, st) ← stampSource c (· == .date) ty
    pure (dateRun zones lc st)
  | .opt t, .nullable ty, props => do
    let r ← iterWithU8 zones c t ty 0
    let level ← (SqlType.nullable ty).levelU8
    let s ← c.getInternalU8 2 level props
    pure (s.asFlags r)
  | .opt _, _, _ => .err typeError
  | .vec t, .array ty, props => do
    let r ← iterWithU8 zones c t ty props
    let level ← (SqlType.array ty).levelU8
    let s ← c.getInternalU8 2 level 0
    pure (s.asArray r)
  | .vec _, _, _ => .err typeError
  | .hmap k v, .map kt vt, props => do
    let outer ← c.sqlType.mapLevelU8
    let own ← (SqlType.map kt vt).mapLevelU8
    if outer < own then .panic
    else do
      let kr ← iterWithU8 zones c k kt (1 + 2 * (outer - own))
      let vr ← iterWithU8 zones c v vt 0
      let level ← (SqlType.map kt vt).levelU8
      let s ← c.getInternalU8 2 level props
      pure (s.asMap kr vr)
  | .hmap _ _, _, _ => .err typeError

/-- `Column::iter`, /repo/src/types/column/mod.rs:174-176 with iter/mod.rs:126-128. -/
def Col.iterU8 (zones : Zones) (c : Col) (t : ITy) : Out Run := iterWithU8 zones c t c.sqlType 0

end CH
