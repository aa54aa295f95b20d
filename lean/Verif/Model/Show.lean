import Verif.Model.Values
import Verif.Model.Block

/-!
Model of the texts of values (`Display for Value`, `Display for ValueRef`) and of the table that `Debug for Block` prints.

Only the formats `{}` and `{:#}` are modelled. The texts of floats, of IPv6 addresses and of points in time are those of `std` and
`chrono`; they are parameters.
-/

namespace CH

/-- Texts of `std` and `chrono` that /repo/src/types/value.rs:195-276 and value_ref.rs:127-204 ask for: `Display for f32`/`f64` of a
bit pattern; `Display for Ipv6Addr`; the day `days` after 1970-01-01 (`NaiveDate`'s `Display` and `%Y-%m-%d` are the same for the
years 1970 to 2149 that a `u16` reaches); a point in time as `to_rfc2822`, as `%Y-%m-%d %H:%M:%S` and by `Display`. -/
structure TextLib where
  f32 : Nat → Str
  f64 : Nat → Str
  ip6 : Bytes → Str
  day : Nat → Str
  rfc2822 : Int → Nat → Tz → Str
  stamp : Int → Nat → Tz → Str
  full : Int → Nat → Tz → Str

/-- `cells.join(", ")`, /repo/src/types/value.rs:248, 273, value_ref.rs:178, 201. -/
def joinList : List Str → Str
  | [] => []
  | [a] => a
  | a :: b :: rest => a ++ ", ".toList ++ joinList (b :: rest)

/-- `Debug` of a vector or slice of bytes, /repo/src/types/value.rs:210, value_ref.rs:142. -/
def debugBytes (b : Bytes) : Str := '[' :: joinList (b.map fun x => natChars x.toNat) ++ [']']

/-- `fmt::Display::fmt` of the primitive types, /repo/src/types/value.rs:197-213, value_ref.rs:129-145. -/
def numText (lib : TextLib) : NumTy → Nat → Str
  | .bool, raw => if raw = 0 then "false".toList else "true".toList
  | .f32, raw => lib.f32 raw
  | .f64, raw => lib.f64 raw
  | .i8, raw => intChars (toSigned 1 raw)
  | .i16, raw => intChars (toSigned 2 raw)
  | .i32, raw => intChars (toSigned 4 raw)
  | .i64, raw => intChars (toSigned 8 raw)
  | .i128, raw => intChars (toSigned 16 raw)
  | _, raw => natChars raw

/-- The text of `Value::String` and `ValueRef::String`, /repo/src/types/value.rs:208-211, value_ref.rs:140-143. -/
def bytesText (b : Bytes) : Str :=
  match strOfBytes? b with
  | some s => s.toList
  | none => debugBytes b

/-- A byte as two lower-case hexadecimal digits (`Display for Uuid`). -/
def hexByte (b : UInt8) : Str := [hexDigit (b.toNat / 16), hexDigit (b.toNat % 16)]
where
  /-- A hexadecimal digit, lower case. -/
  hexDigit (n : Nat) : Char := if n < 10 then Char.ofNat (48 + n) else Char.ofNat (87 + n)

/-- `Display for Uuid`: groups of 4, 2, 2, 2 and 6 bytes, /repo/src/types/value.rs:262, value_ref.rs:191. -/
def uuidText (b : Bytes) : Str :=
  (b.take 4).flatMap hexByte ++ '-' :: ((b.drop 4).take 2).flatMap hexByte ++ '-' :: ((b.drop 6).take 2).flatMap hexByte ++
    '-' :: ((b.drop 8).take 2).flatMap hexByte ++ '-' :: (b.drop 10).flatMap hexByte

/-- `Display for Ipv4Addr`: the four octets with dots. -/
def ip4Text : Bytes → Str
  | [] => []
  | [a] => natChars a.toNat
  | a :: b :: rest => natChars a.toNat ++ '.' :: ip4Text (b :: rest)

/-- `decode_ipv4`, `decode_ipv6` (/repo/src/types/value.rs:594-602) and the swap of the halves of a UUID (value.rs:257-265,
value_ref.rs:186-194) followed by the `Display` of the address. `Uuid::from_slice` of 16 bytes does not fail. -/
def ipText (lib : TextLib) : IpKind → Bytes → Str
  | .v4, b => ip4Text b.reverse
  | .v6, b => lib.ip6 b
  | .uuid, b => uuidText ((b.take 8).reverse ++ (b.drop 8).reverse)

/-- `Display for Enum8` and for `Enum16`, /repo/src/types/enums.rs:18-22, 58-62. -/
def enumText : EnumW → Int → Str
  | .w8, v => "Enum8(".toList ++ intChars v ++ [')']
  | .w16, v => "Enum(".toList ++ intChars v ++ [')']

/-- The entries of a map of values, /repo/src/types/value.rs:268-272. -/
def ownEntry (k v : Str) : Str := "key=>".toList ++ k ++ " value=>".toList ++ v

/-- The entries of a map of borrowed values, /repo/src/types/value_ref.rs:199. -/
def refEntry (k v : Str) : Str := k ++ '-' :: v

mutual
/-- `Display for Value`, /repo/src/types/value.rs:194-276; `alt` is `f.alternate()`. -/
def ownText (lib : TextLib) (alt : Bool) : Value → Out Str
  | .num t raw => .ok (numText lib t raw)
  | .str b => .ok (bytesText b)
  | .date d => .ok (lib.day d)
  | .datetime s tz => .ok (if alt then lib.full s 0 tz else lib.rfc2822 s 0 tz)
  | .dt64 v p tz => do
    let t ← toDatetime v p
    pure (lib.rfc2822 t.1 t.2 tz)
  | .chrono s n tz => .ok (lib.rfc2822 s n tz)
  | .ip k b => .ok (ipText lib k b)
  | .null _ => .ok "NULL".toList
  | .some v => ownText lib alt v
  | .array _ vs => do
    let cells ← ownTexts lib vs
    pure ('[' :: joinList cells ++ [']'])
  | .decimal d => .ok d.toStr
  | .enum .w8 _ v => .ok ("Enum8, ".toList ++ enumText .w8 v)
  | .enum .w16 _ v => .ok ("Enum16, ".toList ++ enumText .w16 v)
  | .map _ _ ks vs => do
    let ks ← ownTexts lib ks
    let vs ← ownTexts lib vs
    pure ('[' :: joinList (List.zipWith ownEntry ks vs) ++ [']'])
/-- The cells of an array or map, /repo/src/types/value.rs:247, 268-272. (For a map the code makes the text of each key and value
in turn; the result is the same.) -/
def ownTexts (lib : TextLib) : List Value → Out (List Str)
  | [] => .ok []
  | v :: vs => do
    let t ← ownText lib false v
    let ts ← ownTexts lib vs
    pure (t :: ts)
end

mutual
/-- `Display for ValueRef`, /repo/src/types/value_ref.rs:126-204; `alt` is `f.alternate()`. There is no `ChronoDateTime`. -/
def refText (lib : TextLib) (alt : Bool) : Value → Out Str
  | .num t raw => .ok (numText lib t raw)
  | .str b => .ok (bytesText b)
  | .date d => .ok (lib.day d)
  | .datetime s tz => .ok (if alt then lib.rfc2822 s 0 tz else lib.stamp s 0 tz)
  | .dt64 v p tz => do
    let t ← toDatetime v p
    pure (lib.stamp t.1 t.2 tz)
  | .chrono _ _ _ => .panic
  | .ip k b => .ok (ipText lib k b)
  | .null _ => .ok "NULL".toList
  | .some v => refText lib false v
  | .array _ vs => do
    let cells ← refTexts lib vs
    pure ('[' :: joinList cells ++ [']'])
  | .decimal d => .ok d.toStr
  | .enum w _ v => .ok (enumText w v)
  | .map _ _ ks vs => do
    let ks ← refTexts lib ks
    let vs ← refTexts lib vs
    pure ('[' :: joinList (List.zipWith refEntry ks vs) ++ [']'])
/-- The cells of an array or map, /repo/src/types/value_ref.rs:177, 199. -/
def refTexts (lib : TextLib) : List Value → Out (List Str)
  | [] => .ok []
  | v :: vs => do
    let t ← refText lib false v
    let ts ← refTexts lib vs
    pure (t :: ts)
end

/-! ### The table -/

/-- `text_cells`, /repo/src/types/block/mod.rs:441-443: the rows from `i`, `n` of them. -/
def textCells (lib : TextLib) (c : Col) : Nat → Nat → Out (List Str)
  | _, 0 => .ok []
  | i, n + 1 => do
    let v ← c.at i
    let t ← refText lib false v
    let ts ← textCells lib c (i + 1) n
    pure (t :: ts)

/-- The cells of all columns, /repo/src/types/block/mod.rs:386. -/
def allCells (lib : TextLib) : List NCol → Out (List (List Str))
  | [] => .ok []
  | c :: cs => do
    let n ← c.data.len
    let t ← textCells lib c.data 0 n
    let ts ← allCells lib cs
    pure (t :: ts)

/-- `String::len`, the number of bytes of a text. -/
def textBytes (t : Str) : Nat := (strBytes (String.ofList t)).length

/-- `column_width`, /repo/src/types/block/mod.rs:419-421. -/
def columnWidth (col : List Str) : Nat := (col.map textBytes).foldl max 0

/-- `{:>width$}` of a text: as many blanks in front as characters are missing. -/
def padLeft (fill : Char) (width : Nat) (t : Str) : Str := List.replicate (width - t.length) fill ++ t

/-- The loop of `print_line`, /repo/src/types/block/mod.rs:431-437; `first` is `i == 0`. -/
def lineParts (center : Char) : Bool → List Nat → Str
  | _, [] => []
  | first, len :: lens => (if first then [] else [center]) ++ padLeft '─' (len + 2) [] ++ lineParts center false lens

/-- `print_line`, /repo/src/types/block/mod.rs:423-439. -/
def printLine (lens : List Nat) (left : Str) (center : Char) (right : Str) : Str :=
  left ++ lineParts center true lens ++ right

/-- The cells of one line, /repo/src/types/block/mod.rs:397-400, 406-409; `lens` has as many entries as there are columns. -/
def cellParts : List Nat → List Str → Str
  | len :: lens, t :: ts => '│' :: padLeft ' ' (len + 1) t ++ ' ' :: cellParts lens ts
  | _, _ => []

/-- `col[j]` for all columns, /repo/src/types/block/mod.rs:407. -/
def rowCells (j : Nat) : List (List Str) → Out (List Str)
  | [] => .ok []
  | col :: cols => do
    let t ← idx col j
    let ts ← rowCells j cols
    pure (t :: ts)

/-- The loop over the rows, /repo/src/types/block/mod.rs:405-413, from row `j`, `n` of them. -/
def rowParts (lens : List Nat) (cells : List (List Str)) : Nat → Nat → Out Str
  | _, 0 => .ok []
  | j, n + 1 => do
    let row ← rowCells j cells
    let rest ← rowParts lens cells (j + 1) n
    pure (cellParts lens row ++ '│' :: (if n = 0 then [] else ['\n']) ++ rest)

/-- `titles_len`, /repo/src/types/block/mod.rs:388-393. -/
def tableWidths (titles : List Str) (cells : List (List Str)) : List Nat :=
  List.zipWith (fun t c => max t.length (columnWidth c)) titles cells

/-- `Debug for Block`, /repo/src/types/block/mod.rs:382-417. -/
def Block.debug (lib : TextLib) (b : Block) : Out Str := do
  let titles := b.columns.map fun c => c.name.toList
  let cells ← allCells lib b.columns
  let lens := tableWidths titles cells
  let rows ← b.rowCount
  let body ← rowParts lens cells 0 rows
  pure (printLine lens ['\n', '┌'] '┬' ['┐', '\n'] ++ cellParts lens titles ++ ['│'] ++
    (if rows > 0 then printLine lens ['\n', '├'] '┼' ['┤', '\n'] else []) ++ body ++
    printLine lens ['\n', '└'] '┴' ['┘'])

end CH
