import Verif.Model.Show
import Verif.Spec.Types
import Verif.Spec.Decimal

/-! What the texts of values and the table of a block should be. -/

namespace CH.Spec

/-- A line of cells: every text stands flush right in a field of the given width, with at least one blank before it and one blank
after it, and bars around. -/
inductive CellLine : List Nat → List Str → Str → Prop
  | done : CellLine [] [] ['│']
  | cell {w k : Nat} {ws : List Nat} {t : Str} {ts : List Str} {line : Str} : 0 < k → k + t.length = w → CellLine ws ts line →
      CellLine (w :: ws) (t :: ts) ('│' :: (List.replicate k ' ' ++ t ++ ' ' :: line))

/-- A ruled line over fields of the given widths. -/
def RuleLine (left center right : Char) (ws : List Nat) (line : Str) : Prop :=
  line = left :: (List.intercalate [center] (ws.map fun w => List.replicate (w + 1) '─') ++ [right])

/-- The lines of the table: ruled line, titles, and, if there are rows, a ruled line and the rows; at the end a ruled line. All
over the same fields. -/
def TableLines (ws : List Nat) (titles : List Str) (rows : List (List Str)) (lines : List Str) : Prop :=
  ∃ top head mid bottom, RuleLine '┌' '┬' '┐' ws top ∧ CellLine ws titles head ∧ RuleLine '├' '┼' '┤' ws mid ∧ RuleLine '└' '┴' '┘' ws bottom ∧
    ∃ body : List Str, body.length = rows.length ∧ (∀ (i : Nat) r l, rows[i]? = some r → body[i]? = some l → CellLine ws r l) ∧
      lines = top :: head :: ((if rows = [] then [] else mid :: body) ++ [bottom])

/-- `r` are the texts of row `i` of the columns. -/
def RowTexts (lib : TextLib) (cols : List NCol) (i : Nat) (r : List Str) : Prop :=
  r.length = cols.length ∧ ∀ (j : Nat) (c : NCol), cols[j]? = some c → ∃ v t, c.data.at i = .ok v ∧ refText lib false v = .ok t ∧ r[j]? = some t

/-- Bytes as pairs of hexadecimal digits. -/
def hexText (b : Bytes) : Str := b.flatMap fun x => Nat.toDigits 16 (x.toNat / 16) ++ Nat.toDigits 16 (x.toNat % 16)

/-- The text of a value: numbers in decimal, texts as they are, bytes that are no text as a list of numbers, decimals with their
point, addresses in their usual notation, arrays as a list. Points in time, enums and maps are left out. -/
inductive Prints (lib : TextLib) : Value → Str → Prop
  | no : Prints lib (.num .bool 0) "false".toList
  | yes : Prints lib (.num .bool 1) "true".toList
  | unsigned {t : NumTy} {raw : Nat} : t ∈ [NumTy.u8, .u16, .u32, .u64, .u128] → Prints lib (.num t raw) (intText raw)
  | signed {t : NumTy} {raw : Nat} {n : Int} : t ∈ [NumTy.i8, .i16, .i32, .i64, .i128] → raw < 2 ^ (8 * t.width) →
      -(2 ^ (8 * t.width - 1) : Nat) ≤ n → n < (2 ^ (8 * t.width - 1) : Nat) → (n - raw) % (2 ^ (8 * t.width) : Nat) = 0 →
      Prints lib (.num t raw) (intText n)
  | single {raw : Nat} : Prints lib (.num .f32 raw) (lib.f32 raw)
  | double {raw : Nat} : Prints lib (.num .f64 raw) (lib.f64 raw)
  | text {s : String} : Prints lib (.str (strBytes s)) s.toList
  | bytes {b : Bytes} : (∀ s, strBytes s ≠ b) →
      Prints lib (.str b) ('[' :: (List.intercalate ", ".toList (b.map fun x => intText x.toNat) ++ [']']))
  | day {d : Nat} : Prints lib (.date d) (lib.day d)
  | missing {t : SqlType} : Prints lib (.null t) "NULL".toList
  | present {v : Value} {s : Str} : Prints lib v s → Prints lib (.some v) s
  | array {t : SqlType} {vs : List Value} {ts : List Str} : vs.length = ts.length →
      (∀ (i : Nat) v s, vs[i]? = some v → ts[i]? = some s → Prints lib v s) →
      Prints lib (.array t vs) ('[' :: (List.intercalate ", ".toList ts ++ [']']))
  | decimal {d : Decimal} : 0 < d.scale → (0 ≤ d.underlying ∨ 10 ^ d.scale ≤ d.underlying.natAbs) → Prints lib (.decimal d) (decimalText d.underlying d.scale)
  | ip4 {a b c d : UInt8} : Prints lib (.ip .v4 [d, c, b, a])
      (List.intercalate ['.'] [intText a.toNat, intText b.toNat, intText c.toNat, intText d.toNat])
  | ip6 {b : Bytes} : Prints lib (.ip .v6 b) (lib.ip6 b)
  | uuid {x y g1 g2 g3 g4 g5 : Bytes} : x.length = 8 → y.length = 8 → x ++ y = g1 ++ g2 ++ g3 ++ g4 ++ g5 →
      g1.length = 4 → g2.length = 2 → g3.length = 2 → g4.length = 2 → g5.length = 6 →
      Prints lib (.ip .uuid (x.reverse ++ y.reverse)) (List.intercalate ['-'] [hexText g1, hexText g2, hexText g3, hexText g4, hexText g5])

end CH.Spec
