import Verif.Model.Load

/-!
The spellings of type names, written down as a grammar independently of the parsers: which texts are type names, and
which type each of them means.
-/

namespace CH.Spec

/-- The code points with the Unicode property `White_Space`. -/
def whiteSpace : List Nat :=
  [0x9, 0xA, 0xB, 0xC, 0xD, 0x20, 0x85, 0xA0, 0x1680, 0x2000, 0x2001, 0x2002, 0x2003, 0x2004, 0x2005, 0x2006, 0x2007,
   0x2008, 0x2009, 0x200A, 0x2028, 0x2029, 0x202F, 0x205F, 0x3000]

/-- A text of white space only (it may be empty). -/
def Blank (b : Str) : Prop := ∀ c ∈ b, c.toNat ∈ whiteSpace

/-- `text` is `core` with white space around it, all of it. -/
def Padded (core text : Str) : Prop :=
  ∃ a b, Blank a ∧ Blank b ∧ text = a ++ core ++ b ∧
    (∀ c, core.head? = some c → c.toNat ∉ whiteSpace) ∧ (∀ c, core.getLast? = some c → c.toNat ∉ whiteSpace)

/-- The two texts are equal but for the case of ASCII letters. -/
def SameLetters (a b : Str) : Prop := a.map Char.toLower = b.map Char.toLower

/-- One-byte characters. -/
def Ascii (c : Char) : Prop := c.toNat < 128

/-- Decimal notation, leading zeros allowed. -/
inductive Numeral : Str → Nat → Prop where
  | digit {d : Nat} (h : d < 10) : Numeral [Char.ofNat (48 + d)] d
  | more {s : Str} {v d : Nat} (hs : Numeral s v) (h : d < 10) : Numeral (s ++ [Char.ofNat (48 + d)]) (10 * v + d)

/-- An unsigned number below `bound`, with an optional plus sign. -/
def Unsigned (bound : Nat) (s : Str) (v : Nat) : Prop :=
  (Numeral s v ∨ ∃ r, s = '+' :: r ∧ Numeral r v) ∧ v < bound

/-- A 16-bit number with an optional minus sign. -/
def Signed16 (s : Str) (v : Int) : Prop :=
  (∃ n, Numeral s n ∧ v = n ∧ n < 2 ^ 15) ∨ (∃ r n, s = '-' :: r ∧ Numeral r n ∧ v = -(n : Int) ∧ n ≤ 2 ^ 15)

/-- The text between quotes that stands for a word: a backslash protects the character after it. -/
inductive Quoted : Str → Str → Prop where
  | nil : Quoted [] []
  | escape (d : Char) {s w : Str} (h : Quoted s w) : Quoted ('\\' :: d :: s) (d :: w)
  | plain (c : Char) {s w : Str} (h1 : c ≠ '\'') (h2 : c ≠ '\\') (h : Quoted s w) : Quoted (c :: s) (c :: w)

/-- One enum entry `'name' = number`, with blanks anywhere between its parts. -/
def EnumEntry (text : Str) (item : Str × Int) : Prop :=
  ∃ b1 q b2 b3 i b4, text = b1 ++ '\'' :: (q ++ '\'' :: (b2 ++ '=' :: (b3 ++ i ++ b4))) ∧
    Blank b1 ∧ Blank b2 ∧ Blank b3 ∧ Blank b4 ∧ Quoted q item.1 ∧ Signed16 i item.2

/-- Enum entries separated by commas; at least one. -/
inductive EnumEntries : Str → List (Str × Int) → Prop where
  | one {e : Str} {it : Str × Int} (h : EnumEntry e it) : EnumEntries e [it]
  | more {e r : Str} {it : Str × Int} {items : List (Str × Int)} (h : EnumEntry e it) (hr : EnumEntries r items) :
      EnumEntries (e ++ ',' :: r) (it :: items)

/-- The number of an `Enum8` entry is what is left in eight bits of the number written. -/
def Low8 : List (Str × Int) → List (Str × Int) → Prop
  | [], [] => True
  | (n, v) :: a, (m, w) :: b => n = m ∧ (-128 ≤ w ∧ w < 128 ∧ ∃ k : Int, v = w + 256 * k) ∧ Low8 a b
  | _, _ => False

/-- The names without parameters, with their aliases. -/
def plainNames (tz : Tz) : List (String × Plan) :=
  [("Bool", .num .bool),
   ("UInt8", .num .u8), ("UInt16", .num .u16), ("UInt32", .num .u32), ("UInt64", .num .u64), ("UInt128", .num .u128),
   ("Int8", .num .i8), ("Int16", .num .i16), ("Int32", .num .i32), ("Int64", .num .i64), ("Int128", .num .i128),
   ("TinyInt", .num .i8), ("SmallInt", .num .i16), ("Int", .num .i32), ("Integer", .num .i32), ("BigInt", .num .i64),
   ("Float32", .num .f32), ("Float64", .num .f64), ("Float", .num .f32), ("Double", .num .f64),
   ("String", .string), ("Char", .string), ("Varchar", .string),
   ("Text", .string), ("TinyText", .string), ("MediumText", .string), ("LongText", .string),
   ("Blob", .string), ("TinyBlob", .string), ("MediumBlob", .string), ("LongBlob", .string),
   ("Date", .date tz), ("IPv4", .ip .v4), ("IPv6", .ip .v6), ("UUID", .ip .uuid)]

/-- Names of the functions of `SimpleAggregateFunction`. -/
def aggNames : List (String × AggFunc) :=
  [("any", .any), ("anyLast", .anyLast), ("min", .min), ("max", .max), ("sum", .sum),
   ("sumWithOverflow", .sumWithOverflow), ("groupBitAnd", .groupBitAnd), ("groupBitOr", .groupBitOr),
   ("groupBitXor", .groupBitXor), ("groupArrayArray", .groupArrayArray), ("groupUniqArrayArray", .groupUniqArrayArray),
   ("sumMap", .sumMap), ("minMap", .minMap), ("maxMap", .maxMap), ("argMin", .argMin), ("argMax", .argMax)]

/-- The zone of a `DateTime` or `DateTime64`: the one named, which must be known, or else the zone of the connection. -/
inductive ZoneOf (known : Tz → Bool) (tz : Tz) : Option Str → Tz → Prop where
  | given {z : Str} (h : known z = true) : ZoneOf known tz (some z) z
  | absent : ZoneOf known tz none tz

/-- The optional argument `('zone')` of `DateTime`. -/
inductive ZoneArg : Str → Option Str → Prop where
  | absent : ZoneArg [] none
  | given {b1 b2 b3 b4 q z : Str} (h1 : Blank b1) (h2 : Blank b2) (h3 : Blank b3) (h4 : Blank b4) (h : Quoted q z) :
      ZoneArg (b1 ++ '(' :: (b2 ++ '\'' :: (q ++ '\'' :: (b3 ++ ')' :: b4)))) (some z)

/-- The optional second argument `, 'zone'` of `DateTime64`. -/
inductive ZoneArg2 : Str → Option Str → Prop where
  | absent : ZoneArg2 [] none
  | given {b q z : Str} (h1 : Blank b) (h : Quoted q z) : ZoneArg2 (',' :: (b ++ '\'' :: (q ++ ['\'']))) (some z)

/-- `Spells known tz s p`: the text `s` is a type name and means `p`. `known` is the zone database, `tz` the zone of the
connection. The client is lenient: the brackets of `Nullable`, `FixedString`, `Array` and `Map` may be any two one-byte
characters, text may follow a decimal's or a low-cardinality type's closing parenthesis, and `SimpleAggregateFunction`'s arguments lose all
parentheses at either end. -/
inductive Spells (known : Tz → Bool) (tz : Tz) : Str → Plan → Prop where
  | plain {n : String} {s : Str} {p : Plan} (h : (n, p) ∈ plainNames tz) (hs : SameLetters s n.toList) :
      Spells known tz s p
  | nullable {c d : Char} {s : Str} {p : Plan} (hc : Ascii c) (hd : Ascii d) (hn : ¬ "Nullable".toList <+: s)
      (h : Spells known tz s p) : Spells known tz ("Nullable".toList ++ c :: (s ++ [d])) (.nullable p)
  | fixed {c d : Char} {s : Str} {n : Nat} (hc : Ascii c) (hd : Ascii d) (h : Unsigned (2 ^ 64) s n) :
      Spells known tz ("FixedString".toList ++ c :: (s ++ [d])) (.fixed n)
  | array {c d : Char} {s : Str} {p : Plan} (hc : Ascii c) (hd : Ascii d)
      (h : Spells known tz s p) : Spells known tz ("Array".toList ++ c :: (s ++ [d])) (.array p)
  /-- The key ends where the first comma is, counted in characters, but measured in bytes: for keys of one-byte characters it
  ends at the comma. -/
  | map {c d x : Char} {a b key val key' val' : Str} {k v : Plan} (hc : Ascii c) (hd : Ascii d) (hx : Ascii x)
      (ha : ',' ∉ a) (hab : a ++ ',' :: b = key' ++ x :: val') (hlen : a.length = (String.ofList key').utf8ByteSize)
      (hk : Padded key key') (hv : Padded val val') (h1 : Spells known tz key k) (h2 : Spells known tz val v) :
      Spells known tz ("Map".toList ++ c :: (a ++ ',' :: b ++ [d])) (.map k v)
  | decimal {x y xs ys junk : Str} {p s : Nat} (hx : Padded x xs) (hy : Padded y ys) (hp : Unsigned 256 x p)
      (hs : Unsigned 256 y s) (hsp : s ≤ p) (h18 : p ≤ 18) (hj : '(' ∉ junk ∧ ')' ∉ junk) :
      Spells known tz ("Decimal(".toList ++ xs ++ ',' :: (ys ++ ')' :: junk)) (.decimal p s (if p ≤ 9 then .n32 else .n64))
  | decimal32 {y junk : Str} {s : Nat} (hs : Unsigned 256 y s) (hj : '(' ∉ junk ∧ ')' ∉ junk) :
      Spells known tz ("Decimal32(".toList ++ y ++ ')' :: junk) (.decimal 9 s .n32)
  | decimal64 {y junk : Str} {s : Nat} (hs : Unsigned 256 y s) (hj : '(' ∉ junk ∧ ')' ∉ junk) :
      Spells known tz ("Decimal64(".toList ++ y ++ ')' :: junk) (.decimal 18 s .n64)
  | enum8 {b1 b2 body : Str} {items items' : List (Str × Int)} (h1 : Blank b1) (h2 : Blank b2)
      (h : EnumEntries body items) (hv : Low8 items items') :
      Spells known tz (b1 ++ "Enum8".toList ++ b2 ++ '(' :: (body ++ [')'])) (.enum .w8 items')
  | enum16 {b1 b2 body : Str} {items : List (Str × Int)} (h1 : Blank b1) (h2 : Blank b2) (h : EnumEntries body items) :
      Spells known tz (b1 ++ "Enum16".toList ++ b2 ++ '(' :: (body ++ [')'])) (.enum .w16 items)
  | datetime {b arg kw : Str} {z : Option Str} {z' : Tz} (hb : Blank b)
      (hk : kw = "DateTime".toList ∨ kw = "Timestamp".toList) (ha : ZoneArg arg z) (hz : ZoneOf known tz z z') :
      Spells known tz (b ++ kw ++ arg) (.datetime z')
  | dt64 {b1 b2 b3 b4 b5 d arg : Str} {p : Nat} {z : Option Str} {z' : Tz} (h1 : Blank b1) (h2 : Blank b2) (h3 : Blank b3)
      (h4 : Blank b4) (h5 : Blank b5) (hp : Numeral d p) (h32 : p < 2 ^ 32) (ha : ZoneArg2 arg z)
      (hz : ZoneOf known tz z z') :
      Spells known tz (b1 ++ "DateTime64".toList ++ b2 ++ '(' :: (b3 ++ d ++ b4 ++ arg ++ b5 ++ [')'])) (.dt64 p z')
  | simpleAgg {ps qs f fs t ts : Str} {n : String} {g : AggFunc} {p : Plan}
      (hps : ∀ c ∈ ps, c = '(' ∨ c = ')') (hqs : ∀ c ∈ qs, c = '(' ∨ c = ')')
      (hf : Padded f fs) (ht : Padded t ts) (hc : ',' ∉ fs) (hn : (n, g) ∈ aggNames) (hfn : f = n.toList)
      (hl : ∀ c, ts.getLast? = some c → c ≠ '(' ∧ c ≠ ')')
      (h : Spells known tz t p) :
      Spells known tz ("SimpleAggregateFunction(".toList ++ ps ++ fs ++ ',' :: (ts ++ qs ++ [')'])) (.simpleAgg g p)
  | lowCard {a b t ts : Str} {p : Plan} (ha : ∀ c ∈ a, Ascii c ∧ c ≠ '(') (hb : ∀ c ∈ b, Ascii c ∧ c ≠ ')')
      (ht : Padded t ts) (h : Spells known tz t p) :
      Spells known tz ("LowCardinality".toList ++ a ++ '(' :: (ts ++ ')' :: b)) (.lowCard p)

/-- No part of the plan is an error or a panic. -/
def Complete : Plan → Prop
  | .bad _ => False
  | .crash => False
  | .nullable p => Complete p
  | .array p => Complete p
  | .lowCard p => Complete p
  | .simpleAgg _ p => Complete p
  | .map k v => Complete k ∧ Complete v
  | _ => True

/-- `Panics s`: the analysis of the text `s` as a type name panics, that is, slices a text at a place that does not exist or that
is inside a character. -/
inductive Panics : Str → Prop where
  /-- What follows the keyword is not at least two characters, the first and the last of them one byte long. -/
  | bracket {kw r : Str} (hk : kw ∈ ["Nullable".toList, "FixedString".toList, "Array".toList, "Map".toList])
      (h : ¬ ∃ c d i, Ascii c ∧ Ascii d ∧ r = c :: (i ++ [d])) : Panics (kw ++ r)
  /-- The number of characters before the first comma is no byte offset at which a one-byte character starts. -/
  | mapComma {c d : Char} {a b : Str} (hc : Ascii c) (hd : Ascii d) (ha : ',' ∉ a)
      (h : ¬ ∃ k x v, Ascii x ∧ a ++ ',' :: b = k ++ x :: v ∧ a.length = (String.ofList k).utf8ByteSize) :
      Panics ("Map".toList ++ c :: (a ++ ',' :: b ++ [d]))
  /-- A longer character before the opening parenthesis, or with no opening parenthesis at all. -/
  | lowCardOpen {a r : Str} {x : Char} (ha : ∀ c ∈ a, Ascii c ∧ c ≠ '(') (hx : ¬ Ascii x) :
      Panics ("LowCardinality".toList ++ a ++ x :: r)
  /-- A longer character after the last closing parenthesis, or with no closing parenthesis at all. -/
  | lowCardClose {a i b : Str} {x : Char} (ha : ∀ c ∈ a, Ascii c ∧ c ≠ '(') (hb : ∀ c ∈ b, Ascii c ∧ c ≠ ')')
      (hx : ¬ Ascii x) : Panics ("LowCardinality".toList ++ a ++ '(' :: (i ++ x :: b))
  | nullable {c d : Char} {s : Str} (hc : Ascii c) (hd : Ascii d) (hn : ¬ "Nullable".toList <+: s) (h : Panics s) :
      Panics ("Nullable".toList ++ c :: (s ++ [d]))
  | array {c d : Char} {s : Str} (hc : Ascii c) (hd : Ascii d) (h : Panics s) :
      Panics ("Array".toList ++ c :: (s ++ [d]))
  | mapKey {c d x : Char} {a b key val key' val' : Str} (hc : Ascii c) (hd : Ascii d) (hx : Ascii x)
      (ha : ',' ∉ a) (hab : a ++ ',' :: b = key' ++ x :: val') (hlen : a.length = (String.ofList key').utf8ByteSize)
      (hk : Padded key key') (hv : Padded val val') (h : Panics key) :
      Panics ("Map".toList ++ c :: (a ++ ',' :: b ++ [d]))
  | mapValue {c d x : Char} {a b key val key' val' : Str} (hc : Ascii c) (hd : Ascii d) (hx : Ascii x)
      (ha : ',' ∉ a) (hab : a ++ ',' :: b = key' ++ x :: val') (hlen : a.length = (String.ofList key').utf8ByteSize)
      (hk : Padded key key') (hv : Padded val val') (h : Panics val) :
      Panics ("Map".toList ++ c :: (a ++ ',' :: b ++ [d]))
  | simpleAgg {ps qs f fs t ts : Str} {n : String} {g : AggFunc}
      (hps : ∀ c ∈ ps, c = '(' ∨ c = ')') (hqs : ∀ c ∈ qs, c = '(' ∨ c = ')')
      (hf : Padded f fs) (ht : Padded t ts) (hc : ',' ∉ fs) (hn : (n, g) ∈ aggNames) (hfn : f = n.toList)
      (hl : ∀ c, ts.getLast? = some c → c ≠ '(' ∧ c ≠ ')') (h : Panics t) :
      Panics ("SimpleAggregateFunction(".toList ++ ps ++ fs ++ ',' :: (ts ++ qs ++ [')']))
  | lowCard {a b t ts : Str} (ha : ∀ c ∈ a, Ascii c ∧ c ≠ '(') (hb : ∀ c ∈ b, Ascii c ∧ c ≠ ')')
      (ht : Padded t ts) (h : Panics t) : Panics ("LowCardinality".toList ++ a ++ '(' :: (ts ++ ')' :: b))

end CH.Spec
