import Verif.Spec.Column
import Verif.Spec.Wire
import Verif.Model.Block

/-!
The native format of column data, as ClickHouse servers define it, stated from scratch: little-endian words of fixed sizes, strings
with their length in front, offsets before the elements of arrays and maps, NULL flags before the values, dictionaries before the
positions of low-cardinality columns, and the version words of the dictionaries before everything else.
-/

namespace CH.Spec

/-- The number in base 128, least significant digit first, every byte but the last marked; no superfluous digits. -/
inductive Leb : Nat → Bytes → Prop
  | last {n : Nat} {d : UInt8} : d.toNat = n → n < 128 → Leb n [d]
  | more {n : Nat} {d : UInt8} {b : Bytes} : 128 ≤ n → d.toNat = 128 + n % 128 → Leb (n / 128) b → Leb n (d :: b)

/-- An unsigned number in `n` bytes, least significant first. -/
def Word (n : Nat) (x : Nat) (b : Bytes) : Prop := b.length = n ∧ base256 b = x

/-- A signed number in `n` bytes, in two's complement. -/
def IntWord (n : Nat) (x : Int) (b : Bytes) : Prop :=
  b.length = n ∧ ((base256 b < 2 ^ (8 * n - 1) ∧ x = base256 b) ∨ (2 ^ (8 * n - 1) ≤ base256 b ∧ x = (base256 b : Int) - 2 ^ (8 * n)))

/-- One after the other, without gaps. -/
inductive InTurn {α : Type} (R : α → Bytes → Prop) : List α → Bytes → Prop
  | nil : InTurn R [] []
  | cons {x xs b bs} : R x b → InTurn R xs bs → InTurn R (x :: xs) (b ++ bs)

/-- Bytes a number takes. -/
def numSize : NumTy → Nat
  | .bool | .u8 | .i8 => 1
  | .u16 | .i16 => 2
  | .u32 | .i32 | .f32 => 4
  | .u64 | .i64 | .f64 => 8
  | .u128 | .i128 => 16

/-- The bytes of one value of a type without structure. `tz` is the zone of the connection, in which times in seconds are read. -/
def CellLaid (tz : Tz) : SqlType → Value → Bytes → Prop
  | .num t, .num t' x, b => t' = t ∧ Word (numSize t) x b
  | .string, .str s, b => ∃ l, Leb s.length l ∧ b = l ++ s
  | .fixedString n, .str s, b => s.length = n ∧ b = s
  | .date, .date d, b => Word 2 d b
  | .datetime, .datetime s z, b => z = tz ∧ Word 4 s b
  | .dt64 p z, .dt64 x p' z', b => p' = p ∧ z' = z ∧ IntWord 8 x b
  | .ip k, .ip k' o, b => k' = k ∧ o.length = (match k with | .v4 => 4 | .v6 => 16 | .uuid => 16) ∧ b = o
  | .decimal p s, .decimal d, b => d.precision = p ∧ d.scale = s ∧ d.nobits = (if p ≤ 9 then .n32 else .n64) ∧
      IntWord (if p ≤ 9 then 4 else 8) d.underlying b
  | .enum w items, .enum w' items' x, b => w' = w ∧ items' = items ∧ IntWord (match w with | .w8 => 1 | .w16 => 2) x b
  | _, _, _ => False

/-- The types without structure. -/
def Scalar : SqlType → Prop
  | .num _ | .string | .date | .datetime | .dt64 _ _ | .ip _ | .decimal _ _ | .enum _ _ => True
  | .fixedString n => 0 < n
  | _ => False

/-- Where each row ends, counting elements from `a` on. -/
def ends {α : Type} (a : Nat) : List (List α) → List Nat
  | [] => []
  | p :: ps => (a + p.length) :: ends (a + p.length) ps

/-- The entries of a map given as pairs: every key once, with the value it is given last. -/
def Entries (ps : List (Value × Value)) (ks vs : List Value) : Prop :=
  ks.length = vs.length ∧ ks.Pairwise (· ≠ ·) ∧ (∀ k, k ∈ ks ↔ k ∈ ps.map (·.1)) ∧
  ∀ (i : Nat) k x, ks[i]? = some k → vs[i]? = some x → ∃ pre post, ps = pre ++ (k, x) :: post ∧ k ∉ post.map (·.1)

/-- Number and size of the positions of a low-cardinality column. -/
inductive PosSize : Nat → Nat → Prop
  | one : PosSize 0 1
  | two : PosSize 1 2
  | four : PosSize 2 4
  | eight : PosSize 3 8

/-- The bytes of a column after the version words. -/
inductive Body (tz : Tz) : SqlType → List Value → Bytes → Prop
  | plain {t vs b} : Scalar t → InTurn (CellLaid tz t) vs b → Body tz t vs b
  /-- a flag per row, then a value per row, which does not matter where the flag says NULL -/
  | nullable {t vs ws flags b} : flags.length = vs.length → ws.length = vs.length →
      (∀ (i : Nat) v w f, vs[i]? = some v → ws[i]? = some w → flags[i]? = some f → (f = 0 ∧ v = .some w) ∨ (f = 1 ∧ v = .null t)) →
      Body tz t ws b → Body tz (.nullable t) vs (flags ++ b)
  /-- the end of each row, then the elements of all rows -/
  | array {t parts o b} : InTurn (Word 8) (ends 0 parts) o → Body tz t parts.flatten b →
      Body tz (.array t) (parts.map (.array t)) (o ++ b)
  /-- the end of each row, then all keys, then all values -/
  | map {k v vs o a b} {parts : List (List (Value × Value))} : InTurn (Word 8) (ends 0 parts) o →
      Body tz k (parts.flatten.map (·.1)) a → Body tz v (parts.flatten.map (·.2)) b → vs.length = parts.length →
      (∀ (i : Nat) x p, vs[i]? = some x → parts[i]? = some p → ∃ ks xs, x = .map k v ks xs ∧ Entries p ks xs) →
      Body tz (.map k v) vs (o ++ a ++ b)
  | agg {f t vs b} : Body tz t vs b → Body tz (.simpleAgg f t) vs b
  | lowEmpty {t} : Body tz (.lowCard t) [] []
  /-- flags, size of the dictionary, dictionary, number of rows, position of each row in the dictionary -/
  | low {t vs ws js code size fl n d m ix} : (∀ u, t ≠ .nullable u) → vs ≠ [] → PosSize code size → Word 8 (1536 + code) fl →
      Word 8 ws.length n → Body tz t ws d → Word 8 js.length m → InTurn (Word size) js ix → js.length = vs.length →
      (∀ (i : Nat) j, js[i]? = some j → j < ws.length ∧ vs[i]? = ws[j]?) →
      Body tz (.lowCard t) vs (fl ++ n ++ d ++ m ++ ix)
  /-- the dictionary of optional values holds plain values; position 0 stands for NULL -/
  | lowNull {t vs ws js code size fl n d m ix} : vs ≠ [] → PosSize code size → Word 8 (1536 + code) fl →
      Word 8 ws.length n → Body tz t ws d → Word 8 js.length m → InTurn (Word size) js ix → js.length = vs.length →
      (∀ (i : Nat) j, js[i]? = some j → j < ws.length ∧
        ((j = 0 ∧ vs[i]? = some (.null t)) ∨ (j ≠ 0 ∧ vs[i]? = ws[j]?.map .some))) →
      Body tz (.lowCard (.nullable t)) vs (fl ++ n ++ d ++ m ++ ix)

/-- The version words of a type, one for every `LowCardinality` in it. -/
inductive Prefix : SqlType → Bytes → Prop
  | scalar {t} : Scalar t → Prefix t []
  | nullable {t b} : Prefix t b → Prefix (.nullable t) b
  | array {t b} : Prefix t b → Prefix (.array t) b
  | map {k v a b} : Prefix k a → Prefix v b → Prefix (.map k v) (a ++ b)
  | agg {f t b} : Prefix t b → Prefix (.simpleAgg f t) b
  | low {t w} : Word 8 1 w → Prefix (.lowCard t) w

/-- The bytes of a column: none if there are no rows. -/
inductive Stream (tz : Tz) : SqlType → List Value → Bytes → Prop
  | none {t} : Stream tz t [] []
  | some {t vs p b} : vs ≠ [] → Prefix t p → Body tz t vs b → Stream tz t vs (p ++ b)

/-- No `LowCardinality` inside, and types that exist. -/
def Common : SqlType → Prop
  | .lowCard _ => False
  | .nullable t | .array t | .simpleAgg _ t => Common t
  | .map k v => Common k ∧ Common v
  | t => Scalar t

/-- Types whose only `LowCardinality`, if any, is the outermost one, of values that are not optional. -/
def Flat : SqlType → Prop
  | .lowCard t => Common t ∧ ∀ u, t ≠ .nullable u
  | t => Common t

/-- No map inside. -/
def MapFree : SqlType → Prop
  | .map _ _ => False
  | .nullable t | .array t | .simpleAgg _ t | .lowCard t => MapFree t
  | _ => True

/-- The keys of maps are integers or strings, which can be hashed. -/
def KeysHash : SqlType → Prop
  | .map k v => (match k with | .num t => t ≠ .bool ∧ t ≠ .f32 ∧ t ≠ .f64 | .string => True | .fixedString _ => True | _ => False) ∧ KeysHash v
  | .nullable t | .array t | .simpleAgg _ t | .lowCard t => KeysHash t
  | _ => True

/-- The same value, but for the order in which the entries of maps come. -/
inductive Reordered : Value → Value → Prop
  | same {v} : Reordered v v
  | some {v w} : Reordered v w → Reordered (.some v) (.some w)
  | array {t} {xs ys : List Value} : xs.length = ys.length →
      (∀ (i : Nat) x y, xs[i]? = some x → ys[i]? = some y → Reordered x y) → Reordered (.array t xs) (.array t ys)
  | map {k v} {ks xs ks' xs' : List Value} : ks.length = xs.length → ks'.length = xs'.length → ks.Pairwise (· ≠ ·) → ks'.Pairwise (· ≠ ·) →
      (∀ q, q ∈ ks ↔ q ∈ ks') →
      (∀ (i j : Nat) q x y, ks[i]? = some q → ks'[j]? = some q → xs[i]? = some x → xs'[j]? = some y → Reordered x y) →
      Reordered (.map k v ks xs) (.map k v ks' xs')

/-- As many cells, each alike. -/
def ReorderedCells (vs ws : List Value) : Prop :=
  vs.length = ws.length ∧ ∀ (i : Nat) v w, vs[i]? = some v → ws[i]? = some w → Reordered v w

/-- NULL flags are 0 or 1. -/
def Flagged : Col → Prop
  | .nullable nulls c => (∀ f ∈ nulls, f = 0 ∨ f = 1) ∧ Flagged c
  | .array _ c | .simpleAgg _ c | .lowCard _ _ c _ | .chunk c _ _ => Flagged c
  | .map _ k v => Flagged k ∧ Flagged v
  | _ => True

/-- The cells are no lists: no array and no map, also not below `Nullable` and `SimpleAggregateFunction`. -/
def ListFree : SqlType → Prop
  | .array _ | .map _ _ => False
  | .nullable t | .simpleAgg _ t => ListFree t
  | _ => True

/-- The rows of the column, starting with row `s`. -/
def RowsAre (c : Col) (s : Nat) (vs : List Value) : Prop := ∀ (i : Nat) v, vs[i]? = some v → c.at (s + i) = .ok v

end CH.Spec

namespace CH.Spec

/-- A text: its length in bytes, its bytes. -/
def Lettered (s : String) (b : Bytes) : Prop := ∃ l, Leb (strBytes s).length l ∧ b = l ++ strBytes s

/-- A column of a block: name, type and cells. -/
structure Field where
  name : String
  type : SqlType
  cells : List Value

/-- The bytes of a column of a block. -/
def FieldLaid (tz : Tz) (c : Field) (b : Bytes) : Prop :=
  ∃ n t d, b = n ++ t ++ d ∧ Lettered c.name n ∧ Lettered (String.ofList c.type.name) t ∧ Stream tz c.type c.cells d

/-- The bytes of the block info: field 1, the overflow flag, field 2, the bucket number, the end mark. -/
def InfoLaid (i : BlockInfo) (b : Bytes) : Prop :=
  ∃ w, IntWord 4 i.bucketNum w ∧ b = [1, if i.isOverflows then 1 else 0, 2] ++ w ++ [0]

/-- The bytes of a block with `rows` rows: info, number of columns, number of rows, columns. -/
def BlockLaid (tz : Tz) (info : BlockInfo) (rows : Nat) (cols : List Field) (b : Bytes) : Prop :=
  ∃ i c r d, b = i ++ c ++ r ++ d ∧ InfoLaid info i ∧ Leb cols.length c ∧ Leb rows r ∧ InTurn (FieldLaid tz) cols d ∧
    ∀ f ∈ cols, f.cells.length = rows

/-- The column holds the field. -/
def HoldsField (c : NCol) (f : Field) : Prop := c.name = f.name ∧ c.data.sqlType = f.type ∧ RowsAre c.data 0 f.cells

end CH.Spec
