import Verif.Model.From

/-!
Model of the conversions between Rust values and `Value` (/repo/src/types/value.rs:322-602): what `row!` and `Block::push` put in a
block, and what `From<Value>` takes out of a value.
-/

namespace CH

/-- The Rust types with `From<T> for Value`, /repo/src/types/value.rs:322-494. `text` stands for `String` and `&str`, `bytes` for
`Vec<u8>` and `&[u8]`, `time` for `DateTime<Tz>`, `utc` for `DateTime<Utc>`, `octets4` and `octets16` for `[u8; 4]` and `[u8; 16]`. -/
inductive RustTy where
  | num (t : NumTy)
  | decimal
  | enum (w : EnumW)
  | text
  | bytes
  | date
  | time
  | utc
  | octets4
  | octets16
  | uuid
  | vecNum (t : NumTy)
  | vecText
  | opt (t : RustTy)
  | hmap (k v : RustTy)
deriving DecidableEq, Repr

/-- Their values, in the representation of `Base.El` (Model/From.lean); an instant in UTC is seconds and nanoseconds, a `HashMap`
its pairs in some iteration order. Models the argument types of /repo/src/types/value.rs:322-494. -/
def RustTy.El : RustTy → Type
  | .num _ => Nat
  | .decimal => Decimal
  | .enum _ => Int
  | .text => String
  | .bytes => Bytes
  | .date => Int
  | .time => Int × Nat × Tz
  | .utc => Int × Nat
  | .octets4 => Bytes
  | .octets16 => Bytes
  | .uuid => Bytes
  | .vecNum _ => List Nat
  | .vecText => List String
  | .opt t => Option t.El
  | .hmap k v => List (k.El × v.El)

/-- `HasSqlType::get_sql_type`, /repo/src/types/mod.rs:187-231. The types of the last arm do not implement the trait. -/
def RustTy.sqlType : RustTy → SqlType
  | .num t => .num t
  | .text => .string
  | .date => .date
  | .time => .datetime
  | .hmap k v => .map k.sqlType v.sqlType
  | _ => .string

/-- `HashMap::insert` with the keys of `Value`: the first key equal to the new one (/repo/src/types/value.rs:85-149) gets the new
value, otherwise the pair is added. A comparison that panics cannot happen for keys that can be hashed and come from Rust values. -/
def ownPut (k v : Value) : List Value → List Value → List Value × List Value
  | x :: xs, y :: ys =>
    match ownEq x k with
    | .ok true => (x :: xs, v :: ys)
    | _ => let m := ownPut k v xs ys; (x :: m.1, y :: m.2)
  | _, _ => ([k], [v])

/-- The loop of `From<HashMap<K, V>> for Value`, /repo/src/types/value.rs:439-441; a key `Hash for Value` (value.rs:60-81) does not
know panics. -/
def ownFill (m : List Value × List Value) : List (Value × Value) → Out (List Value × List Value)
  | [] => .ok m
  | (k, v) :: ps =>
    match ownHash k with
    | .ok _ => ownFill (ownPut k v m.1 m.2) ps
    | _ => .panic

/-- `hm.into_iter()` with `k.into()`, `v.into()`, /repo/src/types/value.rs:439-440. -/
def intoPairs {α β : Type} (f : α → Out Value) (g : β → Out Value) : List (α × β) → Out (List (Value × Value))
  | [] => .ok []
  | (a, b) :: ps => do
    let x ← f a
    let y ← g b
    let r ← intoPairs f g ps
    pure ((x, y) :: r)

/-- `From<T> for Value`, /repo/src/types/value.rs: options 322-336, numbers, decimals and octets 338-348 and 454-478, vectors
350-363, 413-420 and 480-494 (list of types), dates 365-369, enums 371-381, times 383-387, UTC times 389-393, strings 395-411 and
489-494, UUIDs 422-429, maps 431-447. -/
def toValue : (t : RustTy) → t.El → Out Value
  | .num t, x => .ok (.num t x)
  | .decimal, x => .ok (.decimal x)
  | .enum w, x => .ok (.enum w [] x)
  | .text, x => .ok (.str (strBytes x))
  | .bytes, x => .ok (.str x)
  | .date, x => .ok (.date (getDays x))
  | .time, x => .ok (.chrono x.1 x.2.1 x.2.2)
  | .utc, x => .ok (.datetime (asU32 x.1) "UTC".toList)
  | .octets4, x => .ok (.ip .v4 x)
  | .octets16, x => .ok (.ip .v6 x)
  | .uuid, x => .ok (.ip .uuid ((x.take 8).reverse ++ (x.drop 8).reverse))
  | .vecNum t, x => .ok (.array (.num t) (x.map fun (n : Nat) => .num t n))
  | .vecText, x => .ok (.array .string (x.map fun (s : String) => .str (strBytes s)))
  | .opt t, none => .ok (.null t.sqlType)
  | .opt t, some x => do
    let v ← toValue t x
    pure (.some v)
  | .hmap k v, x => do
    let ps ← intoPairs (toValue k) (toValue v) x
    let m ← ownFill ([], []) ps
    pure (.map k.sqlType v.sqlType m.1 m.2)

/-- The Rust types with `From<Value>`, /repo/src/types/value.rs:495-592. -/
inductive Taker where
  | num (t : NumTy)
  | octets4
  | text
  | bytes
  | date
  | time
deriving DecidableEq, Repr

/-- `From<Value> for T`, /repo/src/types/value.rs: `String` 495-507, `Vec<u8>` 519-529, numbers and `[u8; 4]` 531-545 and 577-592,
dates 547-557, times 559-575. Every other variant panics, as does a string that is not UTF-8. -/
def takeOut : Taker → Value → Out RustVal
  | .num t, .num t' raw => if t' = t then .ok (.num raw) else .panic
  | .octets4, .ip .v4 b => .ok (.ip b)
  | .text, .str b =>
    match strOfBytes? b with
    | .some s => .ok (.text s)
    | .none => .panic
  | .bytes, .str b => .ok (.bytes b)
  | .date, .date d => .ok (.date d)
  | .time, v => do
    let (s, n, z) ← v.toAppDateTime
    pure (.time s n z)
  | _, _ => .panic

end CH
