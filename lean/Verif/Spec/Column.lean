import Verif.Spec.Types

/-! Specifications for column data. -/

namespace CH.Spec

/-- Number of elements before row `s` according to the offsets of an array or map column. -/
def elemsBefore (offs : List Nat) (s : Nat) : Nat := ((offs.take s).getLast?).getD 0

/-- The receiver can allocate the column: it has fewer than 2⁵⁶ rows (80 bytes a row, what a column of strings takes at first, are
less than `isize::MAX` bytes), and so has every column inside it; fixed-size strings and addresses take less than
2⁶³ bytes together. -/
def InMemory : Col → Prop
  | .num _ xs => xs.length < 2 ^ 56
  | .str xs => xs.length < 2 ^ 56
  | .fixed _ buf => buf.length < 2 ^ 63
  | .date _ xs => xs.length < 2 ^ 56
  | .datetime _ xs => xs.length < 2 ^ 56
  | .dt64 _ _ xs => xs.length < 2 ^ 56
  | .chrono _ xs => xs.length < 2 ^ 56
  | .ip _ buf => buf.length < 2 ^ 63
  | .nullable nulls c => nulls.length < 2 ^ 56 ∧ InMemory c
  | .array offs c => offs.length < 2 ^ 56 ∧ InMemory c
  | .map offs k v => offs.length < 2 ^ 56 ∧ InMemory k ∧ InMemory v
  | .decimal _ _ _ xs => xs.length < 2 ^ 56
  | .enum _ _ xs => xs.length < 2 ^ 56
  | .simpleAgg _ c => InMemory c
  | .lowCard _ index d _ => index.length < 2 ^ 56 ∧ InMemory d
  | .chunk c _ _ => InMemory c
  | _ => True

/-- The rows `s..e` of the column can be sent: the range lies in the column, stored numbers fit their width, parts of
composite columns agree in size, and arrays/maps before the range are empty (in particular `s = 0`). `tz` is the zone of the
connection, which columns of seconds carry. -/
def Savable (tz : Tz) : Col → Nat → Nat → Prop
  | .num t xs, s, e => s ≤ e ∧ e ≤ xs.length ∧ ∀ x ∈ xs, x < 256 ^ t.width
  | .str xs, s, e => s ≤ e ∧ e ≤ xs.length ∧ ∀ b ∈ xs, b.length < 2 ^ 63
  | .fixed n buf, s, e => 0 < n ∧ s ≤ e ∧ e * n ≤ buf.length
  | .date _ xs, s, e => s ≤ e ∧ e ≤ xs.length ∧ ∀ x ∈ xs, x < 256 ^ 2
  | .datetime z xs, s, e => z = tz ∧ s ≤ e ∧ e ≤ xs.length ∧ ∀ x ∈ xs, x < 256 ^ 4
  | .ip k buf, s, e => s ≤ e ∧ e * k.size ≤ buf.length
  | .nullable nulls c, s, e => e ≤ nulls.length ∧ Savable tz c s e
  | .array offs c, s, e => s ≤ e ∧ e ≤ offs.length ∧ (∀ x ∈ offs, x < 256 ^ 8) ∧ offs.Pairwise (· ≤ ·) ∧
      elemsBefore offs s = 0 ∧ Savable tz c 0 (elemsBefore offs e)
  | .map offs k v, s, e => s ≤ e ∧ e ≤ offs.length ∧ (∀ x ∈ offs, x < 256 ^ 8) ∧ offs.Pairwise (· ≤ ·) ∧
      elemsBefore offs s = 0 ∧ Savable tz k 0 (elemsBefore offs e) ∧ Savable tz v 0 (elemsBefore offs e)
  | .decimal p _ nb xs, s, e => nb = (if p ≤ 9 then .n32 else .n64) ∧ s ≤ e ∧ e ≤ xs.length ∧ ∀ x ∈ xs, x < 256 ^ nb.width
  | .enum w _ xs, s, e => s ≤ e ∧ e ≤ xs.length ∧ ∀ x ∈ xs, x < 256 ^ w.width
  | .simpleAgg _ c, s, e => Savable tz c s e
  | .lowCard ity index d _, s, e => s ≤ e ∧ e ≤ index.length ∧ e - s < 2 ^ 64 ∧
      ∃ n, d.len = .ok n ∧ n < 2 ^ 64 ∧ (∀ x ∈ index, x < n ∧ x < 256 ^ ity.width) ∧ Savable tz d 0 n
  | .chunk c cs ce, s, e => cs + e ≤ ce ∧ Savable tz c (cs + s) (cs + e)
  | _, _, _ => False

end CH.Spec

namespace CH.Spec

mutual
/-- A value a Rust `Value` can hold: numbers fit their width, addresses have their length, a map has as many values as keys. -/
def Genuine : Value → Prop
  | .num t raw => raw < 256 ^ t.width
  | .date d => d < 256 ^ 2
  | .datetime s _ => s < 256 ^ 4
  | .ip k b => b.length = k.size
  | .some v => Genuine v
  | .array _ vs => GenuineAll vs
  | .map _ _ ks vs => ks.length = vs.length ∧ GenuineAll ks ∧ GenuineAll vs
  | _ => True
/-- Every value of a list is genuine. -/
def GenuineAll : List Value → Prop
  | [] => True
  | v :: vs => Genuine v ∧ GenuineAll vs
end

end CH.Spec

namespace CH.Spec

/-- Types of locally built columns without sub-second times and low cardinality. (`DateTime` columns are built as
`chrono` columns.) -/
def PlainType : SqlType → Prop
  | .fixedString n => 0 < n
  | .decimal p _ => p ≤ 18
  | .datetime => False
  | .dt64 _ _ => False
  | .lowCard _ => False
  | .nullable t => PlainType t
  | .array t => PlainType t
  | .map k v => PlainType k ∧ PlainType v
  | .simpleAgg _ t => PlainType t
  | _ => True

/-- `v` is a value of type `t` in its canonical form, the form a cell of that type has: numbers and enums in range, fixed
strings of the declared length, decimals of the declared scale, maps with distinct integer or string keys. -/
def Fits : SqlType → Value → Prop
  | .num t, .num t' x => t' = t ∧ x < 256 ^ t.width
  | .string, .str _ => True
  | .fixedString n, .str b => b.length = n
  | .date, .date d => d < 256 ^ 2
  | .chrono, .datetime s _ => s < 256 ^ 4
  | .ip k, .ip k' b => k' = k ∧ b.length = k.size
  | .nullable t, .null t' => t' = t
  | .nullable t, .some v => Fits t v
  | .array t, .array t' vs => t' = t ∧ ∀ v ∈ vs, Fits t v
  | .map kt vt, .map kt' vt' ks vs => kt' = kt ∧ vt' = vt ∧ ks.length = vs.length ∧ (∀ k ∈ ks, Fits kt k) ∧
      (∀ v ∈ vs, Fits vt v) ∧ (∀ k ∈ ks, k.refHashable = true) ∧ ks.Pairwise (fun a b => Value.keyEq a b = false)
  | .decimal p s, .decimal d => d.precision = p ∧ d.scale = s ∧ d.nobits = (if p ≤ 9 then .n32 else .n64) ∧
      -(2 : Int) ^ (8 * d.nobits.width - 1) ≤ d.underlying ∧ d.underlying < (2 : Int) ^ (8 * d.nobits.width - 1)
  | .enum w items, .enum w' items' x => w' = w ∧ items' = items ∧
      -(2 : Int) ^ (8 * w.width - 1) ≤ x ∧ x < (2 : Int) ^ (8 * w.width - 1)
  | .simpleAgg _ t, v => Fits t v
  | .lowCard t, v => Fits t v
  | _, _ => False

end CH.Spec

namespace CH.Spec

/-- The column has no part whose `save` is unimplemented, lengths and offsets fit 64 bits, and columns of seconds are in the
connection's zone. -/
def Sendable (tz : Tz) : Col → Prop
  | .str xs => ∀ b ∈ xs, b.length < 2 ^ 63
  | .datetime z _ => z = tz
  | .dt64 _ _ _ => False
  | .chrono _ _ => False
  | .nullable _ c => Sendable tz c
  | .array offs c => (∀ x ∈ offs, x < 256 ^ 8) ∧ Sendable tz c
  | .map offs k v => (∀ x ∈ offs, x < 256 ^ 8) ∧ Sendable tz k ∧ Sendable tz v
  | .simpleAgg _ c => Sendable tz c
  | .lowCard _ index d _ => index.length < 2 ^ 64 - 1 ∧ Sendable tz d
  | _ => True

/-- Types whose values can be hashed as dictionary keys. -/
def HashType : SqlType → Prop
  | .num t => t ≠ .bool ∧ t ≠ .f32 ∧ t ≠ .f64
  | .string => True
  | .fixedString n => 0 < n
  | .date => True
  | _ => False

end CH.Spec
