import Verif.Model.Equal
import Verif.Spec.Decimal

/-! Specifications for values: what equal contents are, which values are comparable, convertible and readable. -/

namespace CH.Spec

/-- IEEE 754: the bit pattern is a NaN (exponent bits all ones, fraction not zero). -/
def NaN : NumTy → Nat → Prop
  | .f32, raw => raw / 2 ^ 23 % 2 ^ 8 = 255 ∧ raw % 2 ^ 23 ≠ 0
  | .f64, raw => raw / 2 ^ 52 % 2 ^ 11 = 2047 ∧ raw % 2 ^ 52 ≠ 0
  | _, _ => False

/-- Two bit patterns are the same number: identical, or the two zeros of a float type. -/
def SameNum : NumTy → Nat → Nat → Prop
  | .f32, a, b => a = b ∨ (a % 2 ^ 31 = 0 ∧ b % 2 ^ 31 = 0)
  | .f64, a, b => a = b ∨ (a % 2 ^ 63 = 0 ∧ b % 2 ^ 63 = 0)
  | _, a, b => a = b

/-- The two values have the same contents: the same numbers, strings, instants (whatever their zone), elements and entries. -/
inductive Same : Value → Value → Prop
  | num {t a b} : SameNum t a b → Same (.num t a) (.num t b)
  | str {b} : Same (.str b) (.str b)
  | date {d} : Same (.date d) (.date d)
  | datetime {s z z'} : Same (.datetime s z) (.datetime s z')
  | dt64 {a p z b q z'} : p ≤ 9 → q ≤ 9 → a * 10 ^ (9 - p) = b * 10 ^ (9 - q) → Same (.dt64 a p z) (.dt64 b q z')
  | chrono {s n z z'} : Same (.chrono s n z) (.chrono s n z')
  | ip {k b} : Same (.ip k b) (.ip k b)
  | null {t} : Same (.null t) (.null t)
  | some {a b} : Same a b → Same (.some a) (.some b)
  | array {t as bs} : as.length = bs.length → (∀ (i : Nat) a b, as[i]? = Option.some a → bs[i]? = Option.some b → Same a b) →
      Same (.array t as) (.array t bs)
  | decimal {a b} : SameNumber a b → Same (.decimal a) (.decimal b)
  | enum {w items x} : Same (.enum w items x) (.enum w items x)
  /-- every key of the first map is a key of the second, with the same contents; both have equally many keys -/
  | map {k v ks vs ks' vs'} (pos : Nat → Nat) : ks.length = ks'.length →
      (∀ (i : Nat) key, ks[i]? = Option.some key → ks'[pos i]? = Option.some key) →
      (∀ (i : Nat) a, vs[i]? = Option.some a → ∃ b, vs'[pos i]? = Option.some b) →
      (∀ (i : Nat) a b, vs[i]? = Option.some a → vs'[pos i]? = Option.some b → Same a b) →
      Same (.map k v ks vs) (.map k v ks' vs')

/-- Every sub-second time in the value has a precision that exists (0 to 9); map parts agree in number. -/
inductive Precise : Value → Prop
  | num {t x} : Precise (.num t x)
  | str {b} : Precise (.str b)
  | date {d} : Precise (.date d)
  | datetime {s z} : Precise (.datetime s z)
  | dt64 {v p z} : p ≤ 9 → Precise (.dt64 v p z)
  | chrono {s n z} : Precise (.chrono s n z)
  | ip {k b} : Precise (.ip k b)
  | null {t} : Precise (.null t)
  | some {v} : Precise v → Precise (.some v)
  | array {t vs} : (∀ v, v ∈ vs → Precise v) → Precise (.array t vs)
  | decimal {d} : Precise (.decimal d)
  | enum {w items x} : Precise (.enum w items x)
  | map {k v ks vs} : ks.length = vs.length → (∀ v, v ∈ vs → Precise v) → Precise (.map k v ks vs)

/-- Borrowed values that compare equal to themselves: no NaN, no booleans, addresses or UUIDs, no time whose nanoseconds overflow
or that lies a fraction before 1970; map keys are integers or strings and distinct. -/
inductive RefSane : Value → Prop
  | num {t x} : t ≠ .bool → ¬ NaN t x → RefSane (.num t x)
  | str {b} : RefSane (.str b)
  | date {d} : RefSane (.date d)
  | datetime {s z} : RefSane (.datetime s z)
  | dt64 {v p z} : p ≤ 9 → -(2 ^ 63) ≤ v * 10 ^ (9 - p) → v * 10 ^ (9 - p) ≤ 2 ^ 63 - 1 →
      (0 ≤ v ∨ v * 10 ^ (9 - p) % 1000000000 = 0) → RefSane (.dt64 v p z)
  | null {t} : RefSane (.null t)
  | some {v} : RefSane v → RefSane (.some v)
  | array {t vs} : (∀ v, v ∈ vs → RefSane v) → RefSane (.array t vs)
  | decimal {d} : RefSane (.decimal d)
  | enum {w items x} : RefSane (.enum w items x)
  | map {k v ks vs} : ks.length = vs.length → (∀ k, k ∈ ks → k.refHashable = true) →
      ks.Pairwise (fun a b => Value.keyEq a b = false) → (∀ v, v ∈ vs → RefSane v) → RefSane (.map k v ks vs)

/-- Owned values that compare equal to themselves: no NaN, no maps, no sub-second time whose nanoseconds overflow. -/
inductive OwnSane : Value → Prop
  | num {t x} : ¬ NaN t x → OwnSane (.num t x)
  | str {b} : OwnSane (.str b)
  | date {d} : OwnSane (.date d)
  | datetime {s z} : OwnSane (.datetime s z)
  | dt64 {v p z} : p ≤ 9 → -(2 ^ 63) ≤ v * 10 ^ (9 - p) → v * 10 ^ (9 - p) ≤ 2 ^ 63 - 1 → OwnSane (.dt64 v p z)
  | chrono {s n z} : OwnSane (.chrono s n z)
  | ip {k b} : OwnSane (.ip k b)
  | null {t} : OwnSane (.null t)
  | some {v} : OwnSane v → OwnSane (.some v)
  | array {t vs} : (∀ v, v ∈ vs → OwnSane v) → OwnSane (.array t vs)
  | decimal {d} : OwnSane (.decimal d)
  | enum {w items x} : OwnSane (.enum w items x)

/-- Owned values that can be borrowed: no `ChronoDateTime` anywhere, map keys distinct integers or strings. -/
inductive Borrowable : Value → Prop
  | num {t x} : Borrowable (.num t x)
  | str {b} : Borrowable (.str b)
  | date {d} : Borrowable (.date d)
  | datetime {s z} : Borrowable (.datetime s z)
  | dt64 {v p z} : Borrowable (.dt64 v p z)
  | ip {k b} : Borrowable (.ip k b)
  | null {t} : Borrowable (.null t)
  | some {v} : Borrowable v → Borrowable (.some v)
  | array {t vs} : (∀ v, v ∈ vs → Borrowable v) → Borrowable (.array t vs)
  | decimal {d} : Borrowable (.decimal d)
  | enum {w items x} : Borrowable (.enum w items x)
  | map {k v ks vs} : ks.length = vs.length → (∀ k, k ∈ ks → k.refHashable = true) →
      ks.Pairwise (fun a b => Value.keyEq a b = false) → (∀ v, v ∈ vs → Borrowable v) → Borrowable (.map k v ks vs)

/-! ### Typed reads -/

/-- The type of the cells of a column: low cardinality and simple aggregation leave the values alone, a fixed string is a
string, and both representations of `DateTime` are one. -/
def cellType : SqlType → SqlType
  | .lowCard t => cellType t
  | .simpleAgg _ t => cellType t
  | .fixedString _ => .string
  | .chrono => .datetime
  | t => t

/-- The Rust type without parameters naturally corresponds to the column type. -/
def scalarAs (T : Target) (s : SqlType) : Bool :=
  match T, cellType s with
  | .num t, .num t' => t' == t
  | .decimal, .decimal _ _ => true
  | .enum w, .enum w' _ => w' == w
  | .text, .string => true
  | .bytes, .string => true
  | .ip k, .ip k' => k' == k
  | .date, .date => true
  | .time, .datetime => true
  | .time, .dt64 _ _ => true
  | .vecU8, .string => true
  | _, _ => false

/-- The elements of a vector target are read as this type. -/
def Target.elem : Target → Option Target
  | .vecNum t => Option.some (.num t)
  | .vecU8 => Option.some (.num .u8)
  | .vecText => Option.some .text
  | .vecBytes => Option.some .bytes
  | .vecDate => Option.some .date
  | .vecTime => Option.some .time
  | .vecEnum w => Option.some (.enum w)
  | _ => Option.none

/-- The Rust type naturally corresponds to the column type: vectors to arrays of a corresponding element type, options to
nullable types, maps to maps. -/
def readsAs : Target → SqlType → Bool
  | .opt t, s => match cellType s with | .nullable e => readsAs t e | _ => false
  | .hmap k v, s => match cellType s with | .map a b => readsAs k a && readsAs v b | _ => false
  | T, s => scalarAs T s || (match Target.elem T, cellType s with | Option.some E, .array e => scalarAs E e | _, _ => false)

/-- `v` is a cell of a column of type `t`. -/
def Cell : SqlType → Value → Prop
  | .num t, .num t' _ => t' = t
  | .string, .str _ => True
  | .fixedString n, .str b => b.length = n
  | .date, .date _ => True
  | .datetime, .datetime _ _ => True
  | .chrono, .datetime _ _ => True
  | .dt64 p tz, .dt64 _ p' tz' => p' = p ∧ tz' = tz
  | .ip k, .ip k' b => k' = k ∧ b.length = k.size
  | .nullable t, .null t' => t' = t
  | .nullable t, .some v => Cell t v
  | .array t, .array t' vs => t' = t ∧ ∀ v ∈ vs, Cell t v
  | .map kt vt, .map kt' vt' ks vs => kt' = kt ∧ vt' = vt ∧ ks.length = vs.length ∧ (∀ k ∈ ks, Cell kt k) ∧ (∀ v ∈ vs, Cell vt v)
  | .decimal p s, .decimal d => d.precision = p ∧ d.scale = s
  | .enum w items, .enum w' items' _ => w' = w ∧ items' = items
  | .simpleAgg _ t, v => Cell t v
  | .lowCard t, v => Cell t v
  | _, _ => False

/-- Element types of arrays are not wrapped in low cardinality, simple aggregation or fixed strings. -/
def Direct : SqlType → Prop
  | .array t => cellType t = t ∨ t = .chrono
  | .nullable t => Direct t
  | .lowCard t => Direct t
  | .simpleAgg _ t => Direct t
  | .map k v => Direct k ∧ Direct v
  | _ => True

/-- `r` is exactly the stored value `v`, as the Rust type `T` expresses it. -/
inductive ReadExactly : Target → Value → RustVal → Prop
  | num {t x} : ReadExactly (.num t) (.num t x) (.num x)
  | decimal {d} : ReadExactly .decimal (.decimal d) (.decimal d)
  | enum {w items x} : ReadExactly (.enum w) (.enum w items x) (.enum x)
  /-- the text whose UTF-8 encoding is stored -/
  | text {s : String} : ReadExactly .text (.str (strBytes s)) (.text s)
  | bytes {b} : ReadExactly .bytes (.str b) (.bytes b)
  /-- `a.b.c.d` is stored as the bytes `d c b a` -/
  | ip4 {a b c d} : ReadExactly (.ip .v4) (.ip .v4 [d, c, b, a]) (.ip [a, b, c, d])
  | ip6 {b} : ReadExactly (.ip .v6) (.ip .v6 b) (.ip b)
  /-- the two halves of a UUID are stored backwards -/
  | uuid {x y : Bytes} : x.length = 8 → y.length = 8 → ReadExactly (.ip .uuid) (.ip .uuid (x.reverse ++ y.reverse)) (.ip (x ++ y))
  | date {d} : ReadExactly .date (.date d) (.date d)
  | time {s z} : ReadExactly .time (.datetime s z) (.time s 0 z)
  /-- ticks of 10^-p seconds since 1970 -/
  | time64 {v p z s} {n : Nat} : p ≤ 9 → n < 1000000000 → s * 1000000000 + (n : Int) = v * 10 ^ (9 - p) →
      ReadExactly .time (.dt64 v p z) (.time s n z)
  | byteVec {b} : ReadExactly .vecU8 (.str b) (.bytes b)
  | vec {T E t vs rs} : Target.elem T = Option.some E → vs.length = rs.length →
      (∀ (i : Nat) v r, vs[i]? = Option.some v → rs[i]? = Option.some r → ReadExactly E v r) → ReadExactly T (.array t vs) (.vec rs)
  | none {T t} : ReadExactly (.opt T) (.null t) .none
  | some {T v r} : ReadExactly T v r → ReadExactly (.opt T) (.some v) (.some r)
  | hmap {K V k v ks vs as bs} : ks.length = vs.length → ks.length = as.length → vs.length = bs.length →
      (∀ (i : Nat) x a, ks[i]? = Option.some x → as[i]? = Option.some a → ReadExactly K x a) →
      (∀ (i : Nat) x b, vs[i]? = Option.some x → bs[i]? = Option.some b → ReadExactly V x b) →
      ReadExactly (.hmap K V) (.map k v ks vs) (.hmap as bs)

/-- A sub-second time in range: precision at most 9, nanoseconds fit 64 bits, no fraction before 1970. -/
def TimelyCell : Value → Prop
  | .dt64 v p _ => p ≤ 9 ∧ -(2 ^ 63) ≤ v * 10 ^ (9 - p) ∧ v * 10 ^ (9 - p) ≤ 2 ^ 63 - 1 ∧
      (0 ≤ v ∨ v * 10 ^ (9 - p) % 1000000000 = 0)
  | _ => True

/-- Times in the value that `T` asks for are in range. -/
def Timely : Target → Value → Prop
  | .time, v => TimelyCell v
  | .vecTime, .array _ vs => ∀ v ∈ vs, TimelyCell v
  | .opt t, .some v => Timely t v
  | .hmap k v, .map _ _ ks vs => (∀ x ∈ ks, Timely k x) ∧ (∀ x ∈ vs, Timely v x)
  | _, _ => True

/-- The string is UTF-8. -/
def Utf8Cell : Value → Prop
  | .str b => ∃ s : String, strBytes s = b
  | _ => True

/-- Strings in the value that `T` asks for as text are UTF-8. -/
def Utf8 : Target → Value → Prop
  | .text, v => Utf8Cell v
  | .vecText, .array _ vs => ∀ v ∈ vs, Utf8Cell v
  | .opt t, .some v => Utf8 t v
  | .hmap k v, .map _ _ ks vs => (∀ x ∈ ks, Utf8 k x) ∧ (∀ x ∈ vs, Utf8 v x)
  | _, _ => True

/-- The value shows its type all the way down: no NULL read as an option, no empty map read as a map. -/
def Telling : Target → Value → Prop
  | .opt _, .null _ => False
  | .opt t, .some v => Telling t v
  | .hmap k v, .map _ _ ks vs => ks ≠ [] ∧ (∀ x ∈ ks, Telling k x) ∧ (∀ x ∈ vs, Telling v x)
  | _, _ => True

end CH.Spec
