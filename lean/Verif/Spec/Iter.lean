import Verif.Model.Iter
import Verif.Spec.Values

/-! What iterating a column should give, stated without the iterators. -/

namespace CH.Spec

/-- The item `x` is the cell value `v`, as the Rust type `T` expresses it. -/
inductive Shows : ITy → Value → Item → Prop
  | num {t x} : Shows (.num t) (.num t x) (.num t x)
  /-- `a.b.c.d` is stored as the bytes `d c b a` -/
  | ip4 {a b c d} : Shows (.ip .v4) (.ip .v4 [d, c, b, a]) (.ip .v4 [a, b, c, d])
  | ip6 {b} : Shows (.ip .v6) (.ip .v6 b) (.ip .v6 b)
  /-- the two halves of a UUID are stored backwards -/
  | uuid {x y : Bytes} : x.length = 8 → y.length = 8 → Shows (.ip .uuid) (.ip .uuid (x.reverse ++ y.reverse)) (.ip .uuid (x ++ y))
  | bytes {b} : Shows .bytes (.str b) (.bytes b)
  | decimal {d} : Shows .decimal (.decimal d) (.decimal d)
  | time {s z} : Shows .time (.datetime s z) (.time s 0 z)
  /-- ticks of 10^-p seconds since 1970 -/
  | time64 {v p z s} {n : Nat} : p ≤ 9 → n < 1000000000 → s * 1000000000 + (n : Int) = v * 10 ^ (9 - p) →
      Shows .time (.dt64 v p z) (.time s n z)
  | naive {s z} : Shows .naive (.datetime s z) (.naive s 0)
  | naive64 {v p z s} {n : Nat} : p ≤ 9 → n < 1000000000 → s * 1000000000 + (n : Int) = v * 10 ^ (9 - p) →
      Shows .naive (.dt64 v p z) (.naive s n)
  | date {d : Nat} : Shows .date (.date d) (.date d)
  | none {T t} : Shows (.opt T) (.null t) .none
  | some {T v x} : Shows T v x → Shows (.opt T) (.some v) (.some x)
  | vec {T t vs xs} : vs.length = xs.length →
      (∀ (i : Nat) v x, vs[i]? = Option.some v → xs[i]? = Option.some x → Shows T v x) → Shows (.vec T) (.array t vs) (.vec xs)
  /-- the same pairs -/
  | hmap {K V k v ks vs as bs} : ks.length = vs.length → ks.length = as.length → vs.length = bs.length →
      (∀ (i : Nat) x a, ks[i]? = Option.some x → as[i]? = Option.some a → Shows K x a) →
      (∀ (i : Nat) x b, vs[i]? = Option.some x → bs[i]? = Option.some b → Shows V x b) →
      Shows (.hmap K V) (.map k v ks vs) (.hmap as bs)

/-- The type inside `SimpleAggregateFunction`. -/
def bare : SqlType → SqlType
  | .simpleAgg _ t => bare t
  | t => t

/-- Key types of maps whose iterators look into the keys: numbers, addresses, strings. -/
def KeyIn : ITy → SqlType → Prop
  | .num t, ty => bare ty = .num t
  | .ip k, ty => bare ty = .ip k
  | .bytes, ty => ty = .string
  | _, _ => False

/-- Types without structure that can be iterated as `T` wherever they stand. -/
def ScalarIn : ITy → SqlType → Prop
  | .bytes, .fixedString n => 0 < n
  | .decimal, .decimal _ _ => True
  | T, ty => KeyIn T ty

/-- Types that can only be iterated as `T` when the column itself has the type: dates, times and low cardinality. -/
def TopIn : ITy → SqlType → Prop
  | .bytes, .lowCard .string => True
  | .bytes, .lowCard (.fixedString _) => True
  | .time, .datetime => True
  | .time, .dt64 _ _ => True
  | .time, .lowCard .datetime => True
  | .naive, .datetime => True
  | .naive, .dt64 _ _ => True
  | .naive, .lowCard .datetime => True
  | .date, .date => True
  | .date, .lowCard .date => True
  | _, _ => False

/-- Where a part of a column stands: the column itself; the values of maps nested directly in each other, the outermost possibly
in one array; or anywhere else. -/
inductive Place where
  | top | chain | deep
deriving DecidableEq, Repr

/-- The place of the elements of an array. -/
def Place.elems : Place → Place
  | .top => .chain
  | _ => .deep

/-- The type can be iterated as `T`. Maps must not stand deep. -/
def Walks : Place → ITy → SqlType → Prop
  | pl, .vec T, .array e => Walks pl.elems T e
  | _, .opt T, .nullable e => ScalarIn T e
  | pl, .hmap K V, .map k v => pl ≠ .deep ∧ KeyIn K k ∧ Walks .chain V v
  | .top, T, ty => TopIn T ty ∨ ScalarIn T ty
  | _, T, ty => ScalarIn T ty

/-- Columns as received or built: no view used for sending, addresses in whole rows, one NULL flag per row, 0 or 1. -/
def Native : Col → Prop
  | .num _ _ | .str _ | .fixed _ _ | .date _ _ | .datetime _ _ | .dt64 _ _ _ | .chrono _ _ | .decimal _ _ _ _ | .enum _ _ _ => True
  | .ip k buf => buf.length % k.size = 0
  | .nullable nulls c => (∀ f ∈ nulls, f = 0 ∨ f = 1) ∧ c.len = .ok nulls.length ∧ Native c
  | .array _ c => Native c
  | .map _ k v => Native k ∧ Native v
  | .simpleAgg _ c => Native c
  | .lowCard _ _ d _ => Native d
  | _ => False

/-- Values of the type can be held by the Rust type. -/
inductive Suits : ITy → SqlType → Prop
  | num {t} : Suits (.num t) (.num t)
  | ip {k} : Suits (.ip k) (.ip k)
  | agg {T f ty} : Suits T ty → Suits T (.simpleAgg f ty)
  | string : Suits .bytes .string
  | fixed {n} : Suits .bytes (.fixedString n)
  | decimal {p s} : Suits .decimal (.decimal p s)
  | time : Suits .time .datetime
  | time64 {p z} : Suits .time (.dt64 p z)
  | timeChrono : Suits .time .chrono
  | naive {ty} : Suits .time ty → Suits .naive ty
  | date : Suits .date .date
  | lowCard {T ty} : Suits T ty → Suits T (.lowCard ty)
  | opt {T ty} : Suits T ty → Suits (.opt T) (.nullable ty)
  | vec {T ty} : Suits T ty → Suits (.vec T) (.array ty)
  | hmap {K V k v} : Suits K k → Suits V v → Suits (.hmap K V) (.map k v)

/-- No address type anywhere in the Rust type. -/
def NoAddress : ITy → Prop
  | .ip _ => False
  | .opt t | .vec t => NoAddress t
  | .hmap k v => NoAddress k ∧ NoAddress v
  | _ => True

/-- `items` are exactly the `n` cells `at` gives, in order. -/
def Lists (T : ITy) (at' : Nat → Out Value) (n : Nat) (items : List Item) : Prop :=
  items.length = n ∧ ∀ i v, i < n → at' i = .ok v → ∃ x, items[i]? = some x ∧ Shows T v x

/-- The clock in a zone is never behind UTC, and by less than a day ahead. -/
def East (zones : Zones) (tz : Tz) : Prop := ∀ s, 0 ≤ zones tz s ∧ zones tz s < 86400

/-- The zone a column keeps for its dates. -/
def dateZone : Col → Option Tz
  | .date tz _ => some tz
  | .lowCard _ _ (.date tz _) _ => some tz
  | _ => none

/-- The clocks a date or time iterator needs: the zone of the dates is not west of UTC, and the times are in range. -/
def Clocks (zones : Zones) (T : ITy) (c : Col) : Prop :=
  (T = .date → ∀ tz, dateZone c = some tz → East zones tz) ∧
  (T = .time ∨ T = .naive → ∀ i v, c.at i = .ok v → TimelyCell v)

/-- `d` is a part of `c` and stands at the place. -/
inductive Part (c : Col) : Place → Col → Prop
  | self : Part c .top c
  | elems {pl offs d} : Part c pl (.array offs d) → Part c pl.elems d
  | values {pl offs k d} : Part c pl (.map offs k d) → pl ≠ .deep → Part c .chain d
  | present {pl nulls d} : Part c pl (.nullable nulls d) → Part c .deep d

/-- What the crate does not check in a received column of `n` rows: NULL flags are 0 or 1, fixed strings are not empty, and a
low-cardinality index has as many rows as the column. -/
def Honest : Col → Nat → Prop
  | .fixed w _, _ => 0 < w
  | .nullable nulls c, n => (∀ f ∈ nulls, f = 0 ∨ f = 1) ∧ Honest c n
  | .array offs c, _ => ∀ m, (offs.getLast? = some m ∨ offs = [] ∧ m = 0) → Honest c m
  | .map offs k v, _ => ∀ m, (offs.getLast? = some m ∨ offs = [] ∧ m = 0) → Honest k m ∧ Honest v m
  | .simpleAgg _ c, n => Honest c n
  | .lowCard _ index d _, n => index.length = n ∧ ∀ m, Honest d m
  | _, _ => True

end CH.Spec
