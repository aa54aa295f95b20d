import Verif.Base

/-!
Model of column types and their names: /repo/src/types/mod.rs:234-470 (`SqlType`, `to_string`, `level`) and of the
type-name parsers in /repo/src/types/column/factory.rs:40-116, 245-547.

Texts are lists of characters; byte offsets (Rust slices strings by byte offsets) are computed with the UTF-8 width of
each character, and slicing outside the string or inside a character is a panic, as in Rust.
-/

namespace CH

/-- Text as a list of Unicode scalar values. -/
abbrev Str := List Char

/-- A time zone, identified by its IANA name (`chrono_tz::Tz`; its `Debug`/`name` is that name and `FromStr` accepts
exactly the names in the database). -/
abbrev Tz := Str

/-- Element types of `VectorColumnData<T>`, /repo/src/types/column/factory.rs:65-77. -/
inductive NumTy where
  | bool | u8 | u16 | u32 | u64 | u128 | i8 | i16 | i32 | i64 | i128 | f32 | f64
deriving DecidableEq, Repr

/-- `mem::size_of::<T>()` of the element type, used by /repo/src/types/column/list.rs:75-95, and the length of `StatBuffer::Buffer`,
/repo/src/types/stat_buffer.rs:9-163. -/
def NumTy.width : NumTy → Nat
  | .bool | .u8 | .i8 => 1
  | .u16 | .i16 => 2
  | .u32 | .i32 | .f32 => 4
  | .u64 | .i64 | .f64 => 8
  | .u128 | .i128 => 16

/-- `SimpleAggFunc`, /repo/src/types/mod.rs:240-258. -/
inductive AggFunc where
  | any | anyLast | min | max | sum | sumWithOverflow | groupBitAnd | groupBitOr | groupBitXor
  | groupArrayArray | groupUniqArrayArray | sumMap | minMap | maxMap | argMin | argMax
deriving DecidableEq, Repr

/-- `NoBits`, /repo/src/types/decimal.rs:29-33. -/
inductive NoBits where
  | n32 | n64
deriving DecidableEq, Repr

/-- The three users of `IpColumnData`, /repo/src/types/column/ip.rs:25-33. -/
inductive IpKind where
  | v4 | v6 | uuid
deriving DecidableEq, Repr

/-- `Enum8` or `Enum16` (the two are written out twice in the code, /repo/src/types/column/enums.rs). -/
inductive EnumW where
  | w8 | w16
deriving DecidableEq, Repr

/-- `SqlType`, /repo/src/types/mod.rs:309-339, with `DateTimeType` (mod.rs:233-238) flattened into `datetime`
(`DateTime32`), `dt64` and `chrono`. `&'static SqlType` interning (mod.rs:341-371) is identity of the type tree. -/
inductive SqlType where
  | num (t : NumTy)
  | string
  | fixedString (n : Nat)
  | date
  | datetime
  | dt64 (precision : Nat) (tz : Tz)
  | chrono
  | ip (k : IpKind)
  | nullable (inner : SqlType)
  | array (inner : SqlType)
  | lowCard (inner : SqlType)
  | decimal (precision scale : Nat)
  | enum (w : EnumW) (items : List (Str × Int))
  | simpleAgg (f : AggFunc) (inner : SqlType)
  | map (key value : SqlType)
deriving DecidableEq, Repr

/-- `From<SimpleAggFunc> for &str`, /repo/src/types/mod.rs:260-281. -/
def AggFunc.name : AggFunc → Str
  | .any => "any".toList | .anyLast => "anyLast".toList | .min => "min".toList | .max => "max".toList
  | .sum => "sum".toList | .sumWithOverflow => "sumWithOverflow".toList
  | .groupBitAnd => "groupBitAnd".toList | .groupBitOr => "groupBitOr".toList | .groupBitXor => "groupBitXor".toList
  | .groupArrayArray => "groupArrayArray".toList | .groupUniqArrayArray => "groupUniqArrayArray".toList
  | .sumMap => "sumMap".toList | .minMap => "minMap".toList | .maxMap => "maxMap".toList
  | .argMin => "argMin".toList | .argMax => "argMax".toList

/-- `FromStr for SimpleAggFunc`, /repo/src/types/mod.rs:283-307. -/
def AggFunc.parse (s : Str) : Option AggFunc :=
  if s = "any".toList then some .any else
  if s = "anyLast".toList then some .anyLast else
  if s = "min".toList then some .min else
  if s = "max".toList then some .max else
  if s = "sum".toList then some .sum else
  if s = "sumWithOverflow".toList then some .sumWithOverflow else
  if s = "groupBitAnd".toList then some .groupBitAnd else
  if s = "groupBitOr".toList then some .groupBitOr else
  if s = "groupBitXor".toList then some .groupBitXor else
  if s = "groupArrayArray".toList then some .groupArrayArray else
  if s = "groupUniqArrayArray".toList then some .groupUniqArrayArray else
  if s = "sumMap".toList then some .sumMap else
  if s = "minMap".toList then some .minMap else
  if s = "maxMap".toList then some .maxMap else
  if s = "argMin".toList then some .argMin else
  if s = "argMax".toList then some .argMax else none

/-- Decimal digit of a number below ten (as printed by Rust's integer `Display`). -/
def digitChar (n : Nat) : Char := Char.ofNat (48 + n)

/-- Rust's `Display` for unsigned integers. -/
def natChars (n : Nat) : Str :=
  if n < 10 then [digitChar n] else natChars (n / 10) ++ [digitChar (n % 10)]
termination_by n
decreasing_by omega

/-- Rust's `Display` for signed integers. -/
def intChars (v : Int) : Str :=
  if v < 0 then '-' :: natChars v.natAbs else natChars v.natAbs

/-- One `'name' = value` entry, /repo/src/types/mod.rs:432, 439 (the name is not escaped). -/
def enumItemName (it : Str × Int) : Str := '\'' :: it.1 ++ "' = ".toList ++ intChars it.2

/-- `a.join(",")`, /repo/src/types/mod.rs:434, 441. -/
def joinComma : List Str → Str
  | [] => []
  | [a] => a
  | a :: b :: rest => a ++ ',' :: joinComma (b :: rest)

/-- Names of the element types, /repo/src/types/mod.rs:398-413. -/
def NumTy.name : NumTy → Str
  | .bool => "Bool".toList | .u8 => "UInt8".toList | .u16 => "UInt16".toList | .u32 => "UInt32".toList
  | .u64 => "UInt64".toList | .u128 => "UInt128".toList | .i8 => "Int8".toList | .i16 => "Int16".toList
  | .i32 => "Int32".toList | .i64 => "Int64".toList | .i128 => "Int128".toList
  | .f32 => "Float32".toList | .f64 => "Float64".toList

/-- `SqlType::to_string`, /repo/src/types/mod.rs:396-445. -/
def SqlType.name : SqlType → Str
  | .num t => t.name
  | .string => "String".toList
  | .fixedString n => "FixedString(".toList ++ natChars n ++ [')']
  | .date => "Date".toList
  | .datetime => "DateTime".toList
  | .chrono => "DateTime".toList
  | .dt64 p tz => "DateTime64(".toList ++ natChars p ++ ", '".toList ++ tz ++ "')".toList
  | .ip .v4 => "IPv4".toList
  | .ip .v6 => "IPv6".toList
  | .ip .uuid => "UUID".toList
  | .nullable t => "Nullable(".toList ++ t.name ++ [')']
  | .array t => "Array(".toList ++ t.name ++ [')']
  | .lowCard t => "LowCardinality(".toList ++ t.name ++ [')']
  | .decimal p s => "Decimal(".toList ++ natChars p ++ ", ".toList ++ natChars s ++ [')']
  | .enum .w8 items => "Enum8(".toList ++ joinComma (items.map enumItemName) ++ [')']
  | .enum .w16 items => "Enum16(".toList ++ joinComma (items.map enumItemName) ++ [')']
  | .simpleAgg f t => "SimpleAggregateFunction(".toList ++ f.name ++ ", ".toList ++ t.name ++ [')']
  | .map k v => "Map(".toList ++ k.name ++ ", ".toList ++ v.name ++ [')']

/-! ### Rust string primitives used by the parsers -/

/-- `char::is_whitespace` (Unicode `White_Space`), used by `str::trim` and combine's `spaces`. -/
def isWs (c : Char) : Bool :=
  let n := c.toNat
  (9 ≤ n && n ≤ 13) || n == 0x20 || n == 0x85 || n == 0xA0 || n == 0x1680 || (0x2000 ≤ n && n ≤ 0x200A)
    || n == 0x2028 || n == 0x2029 || n == 0x202F || n == 0x205F || n == 0x3000

/-- `str::len`: the UTF-8 length. -/
def byteLen : Str → Nat
  | [] => 0
  | c :: cs => c.utf8Size + byteLen cs

/-- `&s[n..]`; `none` if `n` is beyond the end or inside a character (a panic). -/
def dropBytes : Nat → Str → Option Str
  | 0, s => some s
  | _ + 1, [] => none
  | n + 1, c :: cs => if c.utf8Size ≤ n + 1 then dropBytes (n + 1 - c.utf8Size) cs else none

/-- `&s[..n]`; `none` if `n` is beyond the end or inside a character (a panic). -/
def takeBytes : Nat → Str → Option Str
  | 0, _ => some []
  | _ + 1, [] => none
  | n + 1, c :: cs =>
    if c.utf8Size ≤ n + 1 then (takeBytes (n + 1 - c.utf8Size) cs).map (c :: ·) else none

/-- `&s[a..b]`; `none` is a panic (range reversed, out of bounds, or not on character boundaries). -/
def sliceBytes (s : Str) (a b : Nat) : Option Str :=
  if a ≤ b then
    match takeBytes b s with
    | some p => dropBytes a p
    | none => none
  else none

/-- `str::starts_with`. -/
def startsWith (s p : Str) : Bool := p.isPrefixOf s

/-- `str::ends_with(char)`. -/
def endsWithChar (s : Str) (c : Char) : Bool := s.getLast? = some c

/-- `str::trim`. -/
def trim (s : Str) : Str := ((s.dropWhile isWs).reverse.dropWhile isWs).reverse

/-- `str::trim_matches` with a predicate. -/
def trimMatches (p : Char → Bool) (s : Str) : Str := ((s.dropWhile p).reverse.dropWhile p).reverse

/-- ASCII lower-casing of one character (`u8::to_ascii_lowercase`). -/
def asciiLower (c : Char) : Char :=
  if 65 ≤ c.toNat ∧ c.toNat ≤ 90 then Char.ofNat (c.toNat + 32) else c

/-- `str::eq_ignore_ascii_case`. -/
def eqIgnoreCase (a b : Str) : Bool := a.map asciiLower == b.map asciiLower

/-- ASCII digit test. -/
def isDigitC (c : Char) : Bool := 48 ≤ c.toNat && c.toNat ≤ 57

/-- Value of a digit string (most significant first). -/
def digitsVal (s : Str) : Nat := s.foldl (fun acc c => acc * 10 + (c.toNat - 48)) 0

/-- The optional leading `+` of `str::parse::<uN>()`. -/
def stripPlus : Str → Str
  | [] => []
  | c :: r => if c = '+' then r else c :: r

/-- The optional leading sign of `str::parse::<iN>()`. -/
def splitSign : Str → Bool × Str
  | [] => (false, [])
  | c :: r => if c = '+' then (false, r) else if c = '-' then (true, r) else (false, c :: r)

/-- `str::parse::<uN>()` with maximum `bound - 1`: optional `+`, at least one digit, no overflow. -/
def parseUnsigned (bound : Nat) (s : Str) : Option Nat :=
  let d := stripPlus s
  if d.isEmpty then none
  else if d.all isDigitC then
    let v := digitsVal d
    if v < bound then some v else none
  else none

/-- `str::parse::<iN>()` for range `-half ≤ v < half`: optional sign, at least one digit, no overflow. -/
def parseSigned (half : Nat) (s : Str) : Option Int :=
  let d := (splitSign s).2
  if d.isEmpty then none
  else if d.all isDigitC then
    let v := digitsVal d
    if (splitSign s).1 then (if v ≤ half then some (-(v : Int)) else none)
    else (if v < half then some (v : Int) else none)
  else none

/-! ### The parsers of factory.rs -/

/-- `parse_fixed_string`, /repo/src/types/column/factory.rs:245-255 (`Out` because the slice may panic). -/
def parseFixedString (s : Str) : Out (Option Nat) :=
  if startsWith s "FixedString".toList then
    match sliceBytes s 12 (byteLen s - 1) with
    | none => .panic
    | some d => .ok (parseUnsigned (2 ^ 64) d)
  else .ok none

/-- `parse_nullable_type`, /repo/src/types/column/factory.rs:257-269. -/
def parseNullable (s : Str) : Out (Option Str) :=
  if startsWith s "Nullable".toList then
    match sliceBytes s 9 (byteLen s - 1) with
    | none => .panic
    | some inner => if startsWith inner "Nullable".toList then .ok none else .ok (some inner)
  else .ok none

/-- `parse_array_type`, /repo/src/types/column/factory.rs:271-278. -/
def parseArray (s : Str) : Out (Option Str) :=
  if startsWith s "Array".toList then
    match sliceBytes s 6 (byteLen s - 1) with
    | none => .panic
    | some inner => .ok (some inner)
  else .ok none

/-- `chars().position(|c| c == ch)`: the index counted in characters. -/
def charPos (ch : Char) : Str → Option Nat
  | [] => none
  | c :: cs => if c = ch then some 0 else (charPos ch cs).map (· + 1)

/-- `parse_map_type`, /repo/src/types/column/factory.rs:280-292. The comma position is counted in characters but used as a
byte offset. -/
def parseMap (s : Str) : Out (Option (Str × Str)) :=
  if startsWith s "Map".toList then
    match sliceBytes s 4 (byteLen s - 1) with
    | none => .panic
    | some body =>
      match charPos ',' body with
      | none => .ok none
      | some p =>
        match takeBytes p body, dropBytes (p + 1) body with
        | some k, some v => .ok (some (trim k, trim v))
        | _, _ => .panic
  else .ok none

/-- `parse_simple_agg_fun`, /repo/src/types/column/factory.rs:294-311 (`find(',')` gives a byte offset, so splitting at the
first comma needs no slicing check; byte 23 of the source is the opening parenthesis). -/
def parseSimpleAgg (s : Str) : Option (AggFunc × Str) :=
  if startsWith s "SimpleAggregateFunction(".toList && endsWithChar s ')' then
    let args := trimMatches (fun c => c == '(' || c == ')') (s.drop 23)
    match charPos ',' args with
    | none => none
    | some p =>
      match AggFunc.parse (trim (args.take p)) with
      | none => none
      | some f => some (f, trim (args.drop (p + 1)))
  else none

/-- `NoBits::from_precision`, /repo/src/types/decimal.rs:111-121. -/
def NoBits.fromPrecision (p : Nat) : Option NoBits :=
  if p ≤ 9 then some .n32 else if p ≤ 18 then some .n64 else none

/-- `str::split(',')`. -/
def splitComma : Str → List Str
  | [] => [[]]
  | c :: cs =>
    if c = ',' then [] :: splitComma cs
    else match splitComma cs with
      | [] => [[c]]
      | w :: ws => (c :: w) :: ws

/-- Position of the last occurrence of a character (loop variable `params_indexes.1`, factory.rs:342-344). -/
def lastPos (ch : Char) : Str → Option Nat
  | [] => none
  | c :: cs =>
    match lastPos ch cs with
    | some i => some (i + 1)
    | none => if c = ch then some 0 else none

/-- `parse_decimal`, /repo/src/types/column/factory.rs:313-390. The scan over the bytes (328-345) accepts only names in which
every `(` is preceded by exactly `Decimal`, `Decimal32` or `Decimal64`; hence at most one `(`, and the recorded `)` is the last
one. A `)` recorded before the `(` is impossible because the text before `(` contains none. -/
def parseDecimal (s : Str) : Option (Nat × Nat × NoBits) :=
  if byteLen s < 12 then none
  else if !startsWith s "Decimal".toList then none
  else
    let head := s.takeWhile (· ≠ '(')
    let tail := s.dropWhile (· ≠ '(')
    match tail with
    | [] => none
    | _ :: rest =>
      if rest.contains '(' then none
      else
        match lastPos ')' rest with
        | none => none
        | some e =>
          let params := rest.take e
          if head = "Decimal32".toList then
            (parseUnsigned 256 params).map fun sc => (9, sc, NoBits.n32)
          else if head = "Decimal64".toList then
            (parseUnsigned 256 params).map fun sc => (18, sc, NoBits.n64)
          else if head = "Decimal".toList then
            match (splitComma params).map trim with
            | [p, sc] =>
              match parseUnsigned 256 p, parseUnsigned 256 sc with
              | some p, some sc =>
                if sc > p then none else (NoBits.fromPrecision p).map fun nb => (p, sc, nb)
              | _, _ => none
            | _ => none
          else none

/-! combine parsers: deterministic, `none` is failure. Every use in factory.rs fails as a whole whenever a consumed
alternative fails, so committed and backtracking failure coincide. -/

/-- `spaces()`. -/
def skipWs (s : Str) : Str := s.dropWhile isWs

/-- `token(c)`. -/
def tok (c : Char) : Str → Option Str
  | [] => none
  | d :: ds => if d = c then some ds else none

/-- `string(p)`. -/
def strTok : Str → Str → Option Str
  | [], s => some s
  | c :: cs, s => match tok c s with
    | some r => strTok cs r
    | none => none

/-- `many(token('\\').with(any()).or(none_of("'")))` followed by `token('\'')`,
/repo/src/types/column/factory.rs:430-431, 461-464, 491-494. -/
def wordBody : Str → Option (Str × Str)
  | [] => none
  | c :: rest =>
    if c = '\'' then some ([], rest)
    else if c = '\\' then
      match rest with
      | [] => none
      | d :: rest' => (wordBody rest').map fun (w, r) => (d :: w, r)
    else (wordBody rest).map fun (w, r) => (c :: w, r)

/-- `word`: a quoted word. -/
def word (s : Str) : Option (Str × Str) := (tok '\'' s).bind wordBody

/-- `many1(digit())`. -/
def digits1 (s : Str) : Option (Str × Str) :=
  let d := s.takeWhile isDigitC
  if d.isEmpty then none else some (d, s.dropWhile isDigitC)

/-- `optional(token('-'))` of `parse_enum`, /repo/src/types/column/factory.rs:419. -/
def optMinus : Str → Str × Str
  | [] => ([], [])
  | c :: r => if c = '-' then (['-'], r) else ([], c :: r)

/-- `integer` of `parse_enum`, /repo/src/types/column/factory.rs:419-428. -/
def enumInteger (s : Str) : Option (Int × Str) :=
  match digits1 (optMinus s).2 with
  | none => none
  | some (d, r) => (parseSigned (2 ^ 15) ((optMinus s).1 ++ d)).map fun v => (v, r)

/-- `pair` of `parse_enum`, /repo/src/types/column/factory.rs:433-439. -/
def enumPair (s : Str) : Option ((Str × Int) × Str) := do
  let (w, r) ← word (skipWs s)
  let r ← tok '=' (skipWs r)
  let (v, r) ← enumInteger (skipWs r)
  pure ((w, v), skipWs r)

theorem wordBody_length {s w r : Str} (h : wordBody s = some (w, r)) : r.length < s.length := by
  fun_induction wordBody s generalizing w r
  · simp at h
  · simp at h; simp [h.2]
  · simp at h
  · rename_i ih
    simp only [Option.map_eq_some_iff, Prod.exists, Prod.mk.injEq] at h
    obtain ⟨w', r', h, _, rfl⟩ := h
    have := ih h
    simp only [List.length_cons]; omega
  · rename_i ih
    simp only [Option.map_eq_some_iff, Prod.exists, Prod.mk.injEq] at h
    obtain ⟨w', r', h, _, rfl⟩ := h
    have := ih h
    simp only [List.length_cons]; omega

theorem enumPair_length {s : Str} {p : Str × Int} {r : Str} (h : enumPair s = some (p, r)) : r.length < s.length := by
  unfold enumPair at h
  have hdw : ∀ t : Str, (skipWs t).length ≤ t.length := fun t => by
    unfold skipWs; exact (List.dropWhile_sublist _).length_le
  have htok : ∀ c (t u : Str), tok c t = some u → u.length < t.length := by
    intro c t u h; cases t <;> simp [tok] at h; grind
  have hdig : ∀ t d u : Str, digits1 t = some (d, u) → u.length ≤ t.length := by
    intro t d u h; unfold digits1 at h; simp at h
    rw [← h.2.2]; exact (List.dropWhile_sublist _).length_le
  have hint : ∀ (t : Str) v u, enumInteger t = some (v, u) → u.length ≤ t.length := by
    intro t v u h
    unfold enumInteger at h
    have hr : (optMinus t).2.length ≤ t.length := by
      cases t with
      | nil => simp [optMinus]
      | cons c r => rw [optMinus]; split <;> simp
    split at h
    · simp at h
    · rename_i d r' hd
      simp at h
      have := hdig _ _ _ hd
      obtain ⟨_, _, _, h⟩ := h
      subst h; omega
  simp only [Option.bind_eq_bind, Option.pure_def] at h
  simp only [Option.bind_eq_some_iff, word] at h
  obtain ⟨⟨w, r1⟩, ⟨u, hu, hw⟩, r2, ht, ⟨v, r3⟩, hi, hp⟩ := h
  simp only [Option.some.injEq, Prod.mk.injEq] at hp
  dsimp only at ht hi
  have h1 := wordBody_length hw
  have h2 := htok _ _ _ hu
  have h3 := htok _ _ _ ht
  have h4 := hint _ _ _ hi
  have h5 := hdw s; have h6 := hdw r1; have h7 := hdw r2; have h8 := hdw r3
  rw [← hp.2]; omega

/-- `sep_by1(pair, token(','))`, /repo/src/types/column/factory.rs:440. -/
def enumBody (s : Str) : Option (List (Str × Int) × Str) :=
  match _h : enumPair s with
  | none => none
  | some (p, r) =>
    match _hr : tok ',' r with
    | none => some ([p], r)
    | some r' => (enumBody r').map fun (ps, r) => (p :: ps, r)
termination_by s.length
decreasing_by
  have h1 := enumPair_length _h
  have h2 : r'.length < r.length := by
    cases r <;> simp [tok] at _hr; grind
  omega

/-- `parse_enum`, /repo/src/types/column/factory.rs:413-458. -/
def parseEnum (kw : Str) (s : Str) : Option (List (Str × Int)) := do
  let r ← strTok kw (skipWs s)
  let r ← tok '(' (skipWs r)
  let (items, r) ← enumBody (skipWs r)
  let r ← tok ')' r
  if r.isEmpty then some items else none

/-- `*val as i8`, /repo/src/types/column/factory.rs:402. -/
def asI8 (v : Int) : Int := (v + 128) % 256 - 128

/-- `parse_enum8`, /repo/src/types/column/factory.rs:397-408. -/
def parseEnum8 (s : Str) : Option (List (Str × Int)) :=
  (parseEnum "Enum8".toList s).map fun items => items.map fun (k, v) => (k, asI8 v)

/-- `parse_enum16`, /repo/src/types/column/factory.rs:409-411. -/
def parseEnum16 (s : Str) : Option (List (Str × Int)) := parseEnum "Enum16".toList s

/-- The optional `('tz')` of `parse_date_time`, /repo/src/types/column/factory.rs:468-476. -/
def dateTimeTz (s : Str) : Option (Str × Str) := do
  let r ← tok '(' (skipWs s)
  let (w, r) ← word (skipWs r)
  let r ← tok ')' (skipWs r)
  pure (w, skipWs r)

/-- `parse_date_time`, /repo/src/types/column/factory.rs:460-482. -/
def parseDateTime (s : Str) : Option (Option Str) :=
  let s := skipWs s
  match (match strTok "DateTime".toList s with
    | some r => some r
    | none => strTok "Timestamp".toList s) with
  | none => none
  | some r =>
    match dateTimeTz r with
    | some (w, r') => if r'.isEmpty then some (some w) else none
    | none => if r.isEmpty then some none else none

/-- The optional `, 'tz'` of `parse_date_time64`, /repo/src/types/column/factory.rs:496. -/
def dt64Tz (s : Str) : Option (Str × Str) := do
  let r ← tok ',' (skipWs s)
  word (skipWs r)

/-- `parse_date_time64`, /repo/src/types/column/factory.rs:484-517. -/
def parseDateTime64 (s : Str) : Option (Nat × Option Str) := do
  let r ← strTok "DateTime64".toList (skipWs s)
  let r ← tok '(' (skipWs r)
  let (d, r) ← digits1 (skipWs r)
  let p ← parseUnsigned (2 ^ 32) d
  let r := skipWs r
  let (tz, r) := match dt64Tz r with
    | some (w, r') => (some w, r')
    | none => (none, r)
  let r ← tok ')' (skipWs r)
  if r.isEmpty then some (p, tz) else none

/-- First loop of `parse_low_cardinality`, /repo/src/types/column/factory.rs:527-529: advance byte by byte from offset `lo`
(`rest` is the text from there) to the first `(`; testing `&source[lo..lo+1]` inside a multi-byte character panics.
Returns the byte offset reached and the text from there. -/
def lcLo : Nat → Str → Option (Nat × Str)
  | lo, [] => some (lo, [])
  | lo, c :: cs =>
    if c = '(' then some (lo, c :: cs)
    else if c.utf8Size = 1 then lcLo (lo + 1) cs
    else none

/-- Second loop, /repo/src/types/column/factory.rs:531-533: walk back from the last byte to the last `)`;
`rev` is the text after the opening parenthesis, reversed. `none` is a panic, `some none` means no `)` found. -/
def lcHi : Str → Option (Option Str)
  | [] => some none
  | c :: cs =>
    if c = ')' then some (some cs)
    else if c.utf8Size = 1 then lcHi cs
    else none

/-- `parse_low_cardinality`, /repo/src/types/column/factory.rs:519-540. -/
def parseLowCard (s : Str) : Out (Option Str) :=
  if startsWith s "LowCardinality".toList then
    match lcLo 14 (s.drop 14) with
    | none => .panic
    | some (_, []) => .ok none
    | some (_, _ :: body) =>
      match lcHi body.reverse with
      | none => .panic
      | some none => .ok none
      | some (some revInner) => .ok (some (trim revInner.reverse))
  else .ok none

/-- What a type name was recognised as by the dispatch in `load_data`, /repo/src/types/column/factory.rs:64-115. -/
inductive Head where
  | num (t : NumTy)
  | string | date
  | ip (k : IpKind)
  | nullable (inner : Str)
  | fixedString (n : Nat)
  | array (inner : Str)
  | map (key value : Str)
  | decimal (p s : Nat) (nb : NoBits)
  | enum (w : EnumW) (items : List (Str × Int))
  | datetime (tz : Option Str)
  | dt64 (p : Nat) (tz : Option Str)
  | simpleAgg (f : AggFunc) (inner : Str)
  | lowCard (inner : Str)
  | unsupported
deriving DecidableEq, Repr

/-- The simple names and their aliases, /repo/src/types/column/factory.rs:65-82, in the order tested. -/
def simpleNames : List (Str × Head) :=
  [("Bool".toList, .num .bool), ("UInt8".toList, .num .u8), ("UInt16".toList, .num .u16),
   ("UInt32".toList, .num .u32), ("UInt64".toList, .num .u64), ("UInt128".toList, .num .u128),
   ("Int8".toList, .num .i8), ("TinyInt".toList, .num .i8), ("Int16".toList, .num .i16),
   ("SmallInt".toList, .num .i16), ("Int32".toList, .num .i32), ("Int".toList, .num .i32),
   ("Integer".toList, .num .i32), ("Int64".toList, .num .i64), ("BigInt".toList, .num .i64),
   ("Int128".toList, .num .i128), ("Float32".toList, .num .f32), ("Float".toList, .num .f32),
   ("Float64".toList, .num .f64), ("Double".toList, .num .f64), ("String".toList, .string),
   ("Char".toList, .string), ("Varchar".toList, .string), ("Text".toList, .string),
   ("TinyText".toList, .string), ("MediumText".toList, .string), ("LongText".toList, .string),
   ("Blob".toList, .string), ("TinyBlob".toList, .string), ("MediumBlob".toList, .string),
   ("LongBlob".toList, .string), ("Date".toList, .date), ("IPv4".toList, .ip .v4), ("IPv6".toList, .ip .v6),
   ("UUID".toList, .ip .uuid)]

/-- `match_str!`, /repo/src/types/column/factory.rs:40-54. -/
def lookupSimple (s : Str) : List (Str × Head) → Option Head
  | [] => none
  | (n, h) :: rest => if eqIgnoreCase s n then some h else lookupSimple s rest

/-- The dispatch of `load_data` on the type name, /repo/src/types/column/factory.rs:64-115, without the loading. -/
def dispatch (s : Str) : Out Head :=
  match lookupSimple s simpleNames with
  | some h => .ok h
  | none =>
    match parseNullable s with
    | .panic => .panic
    | .err e => .err e
    | .ok (some inner) => .ok (.nullable inner)
    | .ok none =>
    match parseFixedString s with
    | .panic => .panic
    | .err e => .err e
    | .ok (some n) => .ok (.fixedString n)
    | .ok none =>
    match parseArray s with
    | .panic => .panic
    | .err e => .err e
    | .ok (some inner) => .ok (.array inner)
    | .ok none =>
    match parseMap s with
    | .panic => .panic
    | .err e => .err e
    | .ok (some (k, v)) => .ok (.map k v)
    | .ok none =>
    match parseDecimal s with
    | some (p, sc, nb) => .ok (.decimal p sc nb)
    | none =>
    match parseEnum8 s with
    | some items => .ok (.enum .w8 items)
    | none =>
    match parseEnum16 s with
    | some items => .ok (.enum .w16 items)
    | none =>
    match parseDateTime s with
    | some tz => .ok (.datetime tz)
    | none =>
    match parseDateTime64 s with
    | some (p, tz) => .ok (.dt64 p tz)
    | none =>
    match parseSimpleAgg s with
    | some (f, inner) => .ok (.simpleAgg f inner)
    | none =>
    match parseLowCard s with
    | .panic => .panic
    | .err e => .err e
    | .ok (some inner) => .ok (.lowCard inner)
    | .ok none => .ok .unsupported

/-- `SqlType::level`, /repo/src/types/mod.rs:447-455. -/
def SqlType.level : SqlType → Nat
  | .nullable t => 1 + t.level
  | .array t => 1 + t.level
  | .map _ v => 1 + v.level
  | .lowCard _ => 1
  | _ => 0

/-- `SqlType::map_level`, /repo/src/types/mod.rs:457-464. -/
def SqlType.mapLevel : SqlType → Nat
  | .nullable t => t.level
  | .array t => t.level
  | .map _ v => 1 + v.level
  | _ => 0

end CH
