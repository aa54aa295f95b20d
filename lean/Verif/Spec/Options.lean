import Verif.Model.Insert

/-! Specifications for quoting, options and durations. -/

namespace CH.Spec

/-- A decimal digit. -/
def Digit (c : Char) : Prop := '0' ≤ c ∧ c ≤ '9'

/-- The digit string denotes the number. -/
inductive Denotes : Str → Nat → Prop
  | one {c} : Digit c → Denotes [c] (c.toNat - '0'.toNat)
  | snoc {s n c} : Denotes s n → Digit c → Denotes (s ++ [c]) (10 * n + (c.toNat - '0'.toNat))

/-- A duration as the documentation describes it: a number followed by `s` or `ms`, in milliseconds. -/
def IsDuration (s : Str) (ms : Nat) : Prop :=
  ∃ d n, Denotes d n ∧ n < 2 ^ 64 ∧ ((s = d ++ "s".toList ∧ ms = 1000 * n) ∨ (s = d ++ "ms".toList ∧ ms = n))

/-- The rest of a backquoted identifier as the ClickHouse lexer reads it: a backslash escapes the next character, a doubled
backquote is a backquote, a single one ends the identifier. Answers the identifier and what follows it. -/
def scanQuoted : Str → Option (Str × Str)
  | [] => none
  | '`' :: '`' :: r => (scanQuoted r).map fun x => ('`' :: x.1, x.2)
  | '`' :: r => some ([], r)
  | ['\\'] => none
  | '\\' :: c :: r => (scanQuoted r).map fun x => (c :: x.1, x.2)
  | c :: r => (scanQuoted r).map fun x => (c :: x.1, x.2)

/-- An element of a column list. -/
inductive Ident where
  | number (s : Str)
  | quoted (s : Str)
deriving DecidableEq

/-- A column list as the server reads it: elements separated by a comma and a space; an element is a run of digits or a
backquoted identifier. -/
inductive ColumnList : Str → List Ident → Prop
  | nil : ColumnList [] []
  | lastNumber {d} : d ≠ [] → (∀ c ∈ d, Digit c) → ColumnList d [.number d]
  | lastQuoted {s n} : scanQuoted s = some (n, []) → ColumnList ('`' :: s) [.quoted n]
  | number {d r is} : d ≠ [] → (∀ c ∈ d, Digit c) → is ≠ [] → ColumnList r is → ColumnList (d ++ ',' :: ' ' :: r) (.number d :: is)
  | quoted {s n r is} : scanQuoted s = some (n, ',' :: ' ' :: r) → is ≠ [] → ColumnList r is →
      ColumnList ('`' :: s) (.quoted n :: is)

/-- How a column should appear. -/
inductive Shown : Str → Ident → Prop
  | number {d} : (∀ c ∈ d, Digit c) → Shown d (.number d)
  | quoted {n} : Shown n (.quoted n)

/-- The value of the last pair with a given key. -/
def lastOf (key : String) (ps : List (String × String)) : Option String :=
  ((ps.filter fun p => p.1 = key).map Prod.snd).getLast?

/-- The names of the recognised parameters. -/
def recognised : List String :=
  ["pool_min", "pool_max", "nodelay", "keepalive", "ping_before_query", "send_retries", "retry_timeout", "ping_timeout",
    "connection_timeout", "query_timeout", "insert_timeout", "execute_timeout", "compression", "alt_hosts"]

/-- A number in the sense of `usize` parameters: digits, optionally with a leading plus sign, fitting 64 bits. -/
def IsUsize (s : Str) (n : Nat) : Prop := n < 2 ^ 64 ∧ (Denotes s n ∨ ∃ d, s = '+' :: d ∧ Denotes d n)

/-- `true` or `false`. -/
def IsBool (s : Str) (b : Bool) : Prop := (s = "true".toList ∧ b = true) ∨ (s = "false".toList ∧ b = false)

/-- A duration or `none`. -/
def IsOptDuration (s : Str) (d : Option Nat) : Prop := (s = "none".toList ∧ d = none) ∨ ∃ ms, d = some ms ∧ IsDuration s ms

/-- `none` or `lz4`. -/
def IsCompression (s : Str) (b : Bool) : Prop := (s = "none".toList ∧ b = false) ∨ (s = "lz4".toList ∧ b = true)

/-- Hosts separated by commas, each of which is the host part of a `tcp` URL. -/
def IsHosts (lib : UrlLib) (s : Str) (as : List Addr) : Prop :=
  ∃ hs : List Str, s = (hs.intersperse [',']).flatten ∧ hs ≠ [] ∧ (∀ h ∈ hs, ',' ∉ h) ∧
    hs.map (fun h => (lib.parse (String.ofList ("tcp://".toList ++ h))).map fun u => Addr.mk u.host u.port) = as.map some

/-- A hexadecimal digit and the number it stands for. -/
inductive Hex : UInt8 → Nat → Prop
  | digit {n} : n < 10 → Hex (UInt8.ofNat (48 + n)) n
  | upper {n} : 10 ≤ n → n < 16 → Hex (UInt8.ofNat (65 + (n - 10))) n
  | lower {n} : 10 ≤ n → n < 16 → Hex (UInt8.ofNat (97 + (n - 10))) n

/-- `e` writes the bytes `b` in a URL: each byte but `%` as itself, or any byte as `%` and its two hexadecimal digits. -/
inductive Encodes : Bytes → Bytes → Prop
  | nil : Encodes [] []
  | plain {a b e} : a ≠ 37 → Encodes b e → Encodes (a :: b) (a :: e)
  | escaped {a b e x y} {hi lo : Nat} : Hex x hi → Hex y lo → a.toNat = 16 * hi + lo → Encodes b e →
      Encodes (a :: b) (37 :: x :: y :: e)

/-- The URL text `e` writes the string `s`. -/
def Writes (s e : String) : Prop := Encodes (strBytes s) (strBytes e)

end CH.Spec
