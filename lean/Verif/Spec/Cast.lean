import Verif.Spec.Block
import Verif.Model.Cast

/-! Specification of the conversion of columns to the types of a table. -/

namespace CH.Spec

/-- The bytes spelled out by a list of `UInt8` values. -/
def octetsOf : List Value → Option Bytes
  | [] => some []
  | .num .u8 x :: vs => (octetsOf vs).map (UInt8.ofNat x :: ·)
  | _ :: _ => none

/-- `b` filled up with zero bytes to `n` bytes; longer strings do not fit. -/
def padded (n : Nat) (b : Bytes) : Option Bytes :=
  if b.length ≤ n then some (b ++ List.replicate (n - b.length) 0) else none

/-- The decimal number `u / 10^from` with `to` digits after the point, further digits cut off. -/
def rescale (u : Int) («from» to : Nat) : Int :=
  if to ≤ «from» then Int.tdiv u (10 ^ («from» - to)) else u * 10 ^ (to - «from»)

/-- Size in bytes of the integers of a `Decimal` of precision `p`. -/
def decimalBytes (p : Nat) : Nat := if p ≤ 9 then 4 else 8

/-- `u` fits a signed integer of `w` bytes. -/
def fitsBytes (w : Nat) (u : Int) : Prop := -(2 : Int) ^ (8 * w - 1) ≤ u ∧ u < (2 : Int) ^ (8 * w - 1)

instance (w : Nat) (u : Int) : Decidable (fitsBytes w u) := inferInstanceAs (Decidable (_ ∧ _))

/-- `f` of every element, if all are defined. -/
def allOf (f : α → Option β) : List α → Option (List β)
  | [] => some []
  | a :: as =>
    match f a, allOf f as with
    | some b, some bs => some (b :: bs)
    | _, _ => none

/-- The cell of type `t` that stands for the value `v`, if there is one; `parse` reads addresses written as text, `tz` is the zone
in which seconds are received. Digits a `Decimal` or `DateTime64` target has no room for are cut off; nothing else is lost. -/
def convert (parse : IpKind → String → Option Bytes) (tz : Tz) : SqlType → Value → Option Value
  | .num t, .num t' x => if t' = t then some (.num t x) else none
  | .string, .str b => some (.str b)
  | .string, .array (.num .u8) vs => (octetsOf vs).map .str
  | .fixedString n, .str b => (padded n b).map .str
  | .fixedString n, .array (.num .u8) vs => ((octetsOf vs).bind (padded n)).map .str
  | .date, .date d => some (.date d)
  | .datetime, .datetime s _ => some (.datetime s tz)
  | .datetime, .chrono s _ _ => if 0 ≤ s ∧ s < 2 ^ 32 then some (.datetime s.toNat tz) else none
  | .dt64 p z, .chrono s n _ =>
    if p ≤ 9 then some (.dt64 (Int.tdiv (s * 10 ^ 9 + n) (10 ^ (9 - p))) p z) else none
  | .ip k, .ip k' b => if k' = k then some (.ip k b) else none
  | .ip k, .str b =>
    if k = .uuid then none
    else ((strOfBytes? b).bind (parse k)).map fun octets => .ip k (if k = .v4 then octets.reverse else octets)
  | .nullable t, .null _ => some (.null t)
  | .nullable t, .some v => (convert parse tz t v).map .some
  | .array t, .array _ vs => (allOf (convert parse tz t) vs).map (.array t ·)
  | .map k v, .map k' v' ks vs => if k' = k ∧ v' = v then some (.map k v ks vs) else none
  | .decimal p s, .decimal d =>
    if fitsBytes (decimalBytes p) (rescale d.underlying d.scale s) then
      some (.decimal ⟨rescale d.underlying d.scale s, if p ≤ 9 then .n32 else .n64, p, s⟩)
    else none
  | .enum w items, .enum w' _ x => if w' = w then some (.enum w items x) else none
  | .simpleAgg _ t, v => convert parse tz t v
  | .lowCard t, v => convert parse tz t v
  | _, _ => none

/-- The value row `i` of a column holds. Locally built columns of times hold more than `at` returns (`at` cuts them to
seconds); every other cell is what `at` returns. -/
def cell : Col → Nat → Option Value
  | .chrono _ xs, i =>
    match xs[i]? with
    | some (s, n, z) => some (.chrono s n z)
    | none => none
  | .nullable nulls c, i =>
    match nulls[i]? with
    | some f => if f = 1 then some (.null c.sqlType) else (cell c i).map .some
    | none => none
  | .array offs c, i =>
    if i < offs.length then
      (allOf (cell c) (List.range' (elemsBefore offs i) (elemsBefore offs (i + 1) - elemsBefore offs i))).map (.array c.sqlType ·)
    else none
  | .simpleAgg _ c, i => cell c i
  | c, i =>
    match c.at i with
    | .ok v => some v
    | _ => none

/-- The column's lengths and offsets fit the machine, its decimals have at most 18 digits after the point, and it has no part that
cannot be sent to any table (a received `DateTime64` column cannot). Locally built columns of times are allowed. -/
def Sized (tz : Tz) : Col → Prop
  | .str xs => ∀ b ∈ xs, b.length < 2 ^ 63
  | .fixed k _ => k < 2 ^ 63
  | .datetime z _ => z = tz
  | .dt64 _ _ _ => False
  | .decimal _ s _ _ => s ≤ 18
  | .nullable _ c => Sized tz c
  | .array offs c => (∀ x ∈ offs, x < 2 ^ 63) ∧ Sized tz c
  | .map offs k v => (∀ x ∈ offs, x < 256 ^ 8) ∧ Sized tz k ∧ Sized tz v
  | .simpleAgg _ c => Sized tz c
  | .lowCard _ index d _ => index.length < 2 ^ 64 - 1 ∧ Sized tz d
  | _ => True

/-- `n` cells of the type, and one more, fit into memory as far as the strings of fixed length in it go. -/
def SpaceFor : SqlType → Nat → Prop
  | .fixedString k, n => (n + 1) * k < 2 ^ 63
  | .nullable t, n => SpaceFor t n
  | .lowCard t, n => SpaceFor t n
  | .simpleAgg _ t, n => SpaceFor t n
  | _, _ => True

/-- All times stored in the column, also those hidden behind NULLs, can be written as ticks of the `DateTime64` the target asks
for: 64 bits of nanoseconds, at most nine digits. -/
def TimesFit : SqlType → Col → Prop
  | .dt64 p _, .chrono _ xs => p ≤ 9 ∧ ∀ x ∈ xs, fitsBytes 8 (x.1 * 10 ^ 9 + x.2.1)
  | .nullable t, .nullable _ c => TimesFit t c
  | .array t, .array _ c => TimesFit t c
  | .simpleAgg _ t, .simpleAgg _ c => TimesFit t c
  | .simpleAgg _ t, c => TimesFit t c
  | _, _ => True

/-- Target types the theorems about conversion speak of: no `Map`, no `FixedString(0)`, and `LowCardinality` only of integers,
strings, days and times to the second. -/
def Insertable : SqlType → Prop
  | .map _ _ => False
  | .fixedString n => 0 < n
  | .lowCard t => HashType t ∨ t = .datetime
  | .nullable t => Insertable t
  | .array t => Insertable t
  | .simpleAgg _ t => Insertable t
  | _ => True

end CH.Spec
