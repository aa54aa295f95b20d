import Verif.Model.Value

/-!
Model of the operations on values: equality and hashing of `Value` (/repo/src/types/value.rs) and `ValueRef`
(/repo/src/types/value_ref.rs), the conversions between the two, and `FromSql` (/repo/src/types/from_sql.rs).

Arrays and maps are behind an `Arc`; `Arc::eq` answers `true` at once when both sides are the same allocation. That shortcut is
not modelled: equality here is that of separately built values.
-/

namespace CH

/-- Whether the bit pattern of a float is a NaN (exponent all ones, mantissa not zero). -/
def isNaN (t : NumTy) (raw : Nat) : Bool :=
  match t with
  | .f32 => decide (raw % 2 ^ 31 > 0x7f800000)
  | .f64 => decide (raw % 2 ^ 63 > 0x7ff0000000000000)
  | _ => false

/-- Whether the bit pattern of a float is a zero, of either sign. -/
def isZero (t : NumTy) (raw : Nat) : Bool :=
  match t with
  | .f32 => raw % 2 ^ 31 == 0
  | .f64 => raw % 2 ^ 63 == 0
  | _ => raw == 0

/-- `==` of two numbers of one Rust type given by their bits: IEEE comparison for floats, identity for the others. -/
def numEq (t : NumTy) (a b : Nat) : Bool :=
  !isNaN t a && !isNaN t b && (a == b || (isZero t a && isZero t b))

mutual
/-- `PartialEq for ValueRef`, /repo/src/types/value_ref.rs:79-124. `Bool`, `Ipv4`, `Ipv6` and `Uuid` have no arm. Instants compare
by their UTC time. -/
def refEq : Value → Value → Out Bool
  | .num t a, .num t' b => .ok (t == t' && t != .bool && numEq t a b)
  | .str a, .str b => .ok (a == b)
  | .date a, .date b => .ok (a == b)
  | .datetime a _, .datetime b _ => .ok (a == b)
  | .null a, .null b => .ok (a == b)
  | .some a, .some b => refEq a b
  | .array t a, .array t' b => if t = t' ∧ a.length = b.length then refEqs a b else .ok false
  | .decimal a, .decimal b => a.eq b
  | .enum w a x, .enum w' b y => .ok (w == w' && x == y && a == b)
  | .dt64 a p _, .dt64 b q _ => do
    let x ← toDatetime a p
    let y ← toDatetime b q
    pure (x == y)
  | .map k v ks vs, .map k' v' ks' vs' =>
    if ks.length ≠ ks'.length ∨ k ≠ k' ∨ v ≠ v' then .ok false else refMapEq ks vs ks' vs'
  | _, _ => .ok false
termination_by structural a => a
/-- Elementwise `==` of two vectors of equal length, stopping at the first difference. -/
def refEqs : List Value → List Value → Out Bool
  | a :: as, b :: bs => do
    let r ← refEq a b
    if r then refEqs as bs else .ok false
  | _, _ => .ok true
termination_by structural a => a
/-- `HashMap::eq` for maps of equal size: every pair of the first is looked up in the second. Looking up hashes the key. -/
def refMapEq : List Value → List Value → List Value → List Value → Out Bool
  | k :: ks, v :: vs, ks', vs' =>
    if k.refHashable then
      match keyIndex k ks' with
      | none => .ok false
      | some j =>
        match vs'[j]? with
        | none => .ok false
        | some w => do
          let r ← refEq v w
          if r then refMapEq ks vs ks' vs' else .ok false
    else .panic
  | _, _, _, _ => .ok true
termination_by structural _ a => a
end

/-- `MULTIPLIERS[p]`, /repo/src/types/value.rs:125-137: ten entries, other indexes panic. -/
def multiplier (p : Nat) : Out Int := if p ≤ 9 then .ok (10 ^ (9 - p)) else .panic

/-- The `DateTime64` arm of `PartialEq for Value`, /repo/src/types/value.rs:120-143. -/
def dt64Eq (a : Int) (p : Nat) (b : Int) (q : Nat) : Out Bool :=
  if p = q then do
    let f ← multiplier p
    let x ← checkI64 (a * f)
    let y ← checkI64 (b * f)
    pure (x == y)
  else .ok false

mutual
/-- `PartialEq for Value`, /repo/src/types/value.rs:85-149. `Map` has no arm. -/
def ownEq : Value → Value → Out Bool
  | .num t a, .num t' b => .ok (t == t' && numEq t a b)
  | .str a, .str b => .ok (a == b)
  | .date a, .date b => .ok (a == b)
  | .datetime a _, .datetime b _ => .ok (a == b)
  | .chrono s n _, .chrono s' n' _ => .ok (s == s' && n == n')
  | .null a, .null b => .ok (a == b)
  | .some a, .some b => ownEq a b
  | .array t a, .array t' b => if t = t' ∧ a.length = b.length then ownEqs a b else .ok false
  | .decimal a, .decimal b => a.eq b
  | .enum w a x, .enum w' b y => .ok (w == w' && a == b && x == y)
  | .ip k a, .ip k' b => .ok (k == k' && a == b)
  | .dt64 a p _, .dt64 b q _ => dt64Eq a p b q
  | _, _ => .ok false
/-- Elementwise `==` of two vectors of equal length, stopping at the first difference. -/
def ownEqs : List Value → List Value → Out Bool
  | a :: as, b :: bs => do
    let r ← ownEq a b
    if r then ownEqs as bs else .ok false
  | _, _ => .ok true
end

/-- What a `Hash` implementation feeds to the hasher: integers of a width, or length-prefixed bytes. -/
inductive Feed where
  | int (bytes : Nat) (raw : Int)
  | blob (b : Bytes)
deriving DecidableEq, Repr

/-- `Hash for ValueRef`, /repo/src/types/value_ref.rs:56-75. -/
def refHash : Value → Out (List Feed)
  | .str b => .ok [.blob b]
  | .num t raw => if t = .bool ∨ t = .f32 ∨ t = .f64 then .panic else .ok [.int t.width raw]
  | _ => .panic

/-- `Hash for Value`, /repo/src/types/value.rs:60-81. -/
def ownHash : Value → Out (List Feed)
  | .str b => .ok [.blob b]
  | .num t raw => if t = .bool ∨ t = .f32 ∨ t = .f64 then .panic else .ok [.int t.width raw]
  | .date d => .ok [.int 2 d]
  | .datetime s _ => .ok [.int 4 s]
  | .dt64 v p _ => .ok [.int 8 v, .int 4 p]
  | _ => .panic

mutual
/-- `From<&Value> for ValueRef`, /repo/src/types/value_ref.rs:370-423: maps are rebuilt with `ValueRef` keys. -/
def toRef : Value → Out Value
  | .chrono _ _ _ => .panic
  | .some v => do
    let v ← toRef v
    pure (.some v)
  | .array t vs => do
    let vs ← toRefs vs
    pure (.array t vs)
  | .map k v ks vs => do
    let ks ← toRefs ks
    let vs ← toRefs vs
    let m ← mapBuild ([], []) ks vs
    pure (.map k v m.1 m.2)
  | v => .ok v
/-- The loops over array elements and map entries of `From<&Value>`, value_ref.rs:394-400, 414-419. -/
def toRefs : List Value → Out (List Value)
  | [] => .ok []
  | v :: vs => do
    let v ← toRef v
    let vs ← toRefs vs
    pure (v :: vs)
end

/-- Filling a `HashMap<Value, Value>`, /repo/src/types/value_ref.rs:315-320. The keys come out of a map of `ValueRef`s, so they
are integers or strings, for which `keyEq` is the equality; a key `Hash for Value` does not know panics. -/
def ownBuild (m : List Value × List Value) : List Value → List Value → Out (List Value × List Value)
  | k :: ks, v :: vs =>
    match ownHash k with
    | .ok _ => ownBuild (mapInsert m k v) ks vs
    | _ => .panic
  | _, _ => .ok m

mutual
/-- `From<ValueRef> for Value`, /repo/src/types/value_ref.rs:273-325. -/
def toOwned : Value → Out Value
  | .some v => do
    let v ← toOwned v
    pure (.some v)
  | .array t vs => do
    let vs ← toOwneds vs
    pure (.array t vs)
  | .map k v ks vs => do
    let ks ← toOwneds ks
    let vs ← toOwneds vs
    let m ← ownBuild ([], []) ks vs
    pure (.map k v m.1 m.2)
  | v => .ok v
/-- The loops over array elements and map entries of `From<ValueRef>`, value_ref.rs:299-303, 315-320. -/
def toOwneds : List Value → Out (List Value)
  | [] => .ok []
  | v :: vs => do
    let v ← toOwned v
    let vs ← toOwneds vs
    pure (v :: vs)
end

/-! ### Typed reads -/

/-- The Rust types `FromSql` is implemented for, /repo/src/types/from_sql.rs. `&str`/`String` and `&[u8]`/`Vec<u8>` elements
differ only in ownership and are one target each. -/
inductive Target where
  | num (t : NumTy)
  | decimal
  | enum (w : EnumW)
  | text
  | bytes
  | ip (k : IpKind)
  | date
  | time
  | vecNum (t : NumTy)
  | vecU8
  | vecText
  | vecBytes
  | vecDate
  | vecTime
  | vecEnum (w : EnumW)
  | opt (t : Target)
  | hmap (k v : Target)
deriving DecidableEq, Repr

/-- Rust values produced by a typed read: a date is days since 1970-01-01, a time is seconds, nanoseconds and zone. -/
inductive RustVal where
  | num (raw : Nat)
  | decimal (d : Decimal)
  | enum (v : Int)
  | text (s : String)
  | bytes (b : Bytes)
  | ip (octets : Bytes)
  | date (days : Nat)
  | time (secs : Int) (nanos : Nat) (tz : Tz)
  | vec (rs : List RustVal)
  | none
  | some (r : RustVal)
  | hmap (ks vs : List RustVal)

/-- `FromSqlError::InvalidType`. -/
def typeError : Err := .other "InvalidType"

/-- `as_str`, /repo/src/types/value_ref.rs:244-253. -/
def Value.asStr : Value → Out RustVal
  | .str b =>
    match strOfBytes? b with
    | .some s => .ok (.text s)
    | .none => .err .utf8
  | _ => .err typeError

/-- `as_bytes`, /repo/src/types/value_ref.rs:260-270. -/
def Value.asBytes : Value → Out RustVal
  | .str b => .ok (.bytes b)
  | _ => .err typeError

/-- `decode_ipv4`, `decode_ipv6` (/repo/src/types/value.rs:594-602) and the body of `FromSql for Uuid`
(/repo/src/types/from_sql.rs:161-165): octets of the address from the stored bytes. -/
def ipOctets : IpKind → Bytes → Bytes
  | .v4, b => b.reverse
  | .v6, b => b
  | .uuid, b => (b.take 8).reverse ++ (b.drop 8).reverse

/-- `From<ValueRef> for DateTime<Tz>`, /repo/src/types/value_ref.rs:472-486: panics on other values. -/
def Value.intoTime : Value → Out RustVal
  | .datetime s tz => .ok (.time s 0 tz)
  | .dt64 v p tz => do
    let (s, n) ← toDatetime v p
    pure (.time s n tz)
  | _ => .panic

/-- `From<ValueRef> for NaiveDate`, /repo/src/types/value_ref.rs:440-450: panics on other values. -/
def Value.intoDate : Value → Out RustVal
  | .date d => .ok (.date d)
  | _ => .panic

/-- `From<ValueRef> for Enum8`/`Enum16`, /repo/src/types/value_ref.rs:452-470: panics on other values. -/
def Value.intoEnum (w : EnumW) : Value → Out RustVal
  | .enum w' _ x => if w' = w then .ok (.enum x) else .panic
  | _ => .panic

/-- `From<ValueRef> for $t`, /repo/src/types/value_ref.rs:424-438: panics on other values. -/
def Value.intoNum (t : NumTy) : Value → Out RustVal
  | .num t' raw => if t' = t then .ok (.num raw) else .panic
  | _ => .panic

/-- A loop pushing `f(element)?` for every element, /repo/src/types/from_sql.rs:186-190, 222-226, 240-244. -/
def readAll (f : Value → Out RustVal) : List Value → Out (List RustVal)
  | [] => .ok []
  | v :: vs => do
    let r ← f v
    let rs ← readAll f vs
    pure (r :: rs)

/-- The loop of `FromSql for HashMap`, /repo/src/types/from_sql.rs:117-119. Different keys of the map give different Rust keys
(`fromSql_key_injective`), so every `insert` adds a pair. -/
def readPairs (f g : Value → Out RustVal) : List Value → List Value → Out (List RustVal × List RustVal)
  | k :: ks, v :: vs => do
    let a ← f k
    let b ← g v
    let (as, bs) ← readPairs f g ks vs
    pure (a :: as, b :: bs)
  | _, _ => .ok ([], [])

/-- An array whose element type satisfies the pattern, read element by element; any other value is a type error. -/
def readVec (pat : SqlType → Bool) (f : Value → Out RustVal) : Value → Out RustVal
  | .array t vs =>
    if pat t then do
      let rs ← readAll f vs
      pure (.vec rs)
    else .err typeError
  | _ => .err typeError

/-- `FromSql::from_sql` for every target. Lines of /repo/src/types/from_sql.rs: numbers 25-41 and 339-356; decimal 43-56; enums
58-88; text 90-94, 102-106; bytes 96-100; addresses 128-176; vectors 178-216, 233-274; `Vec<u8>` 218-231; options 276-298;
dates 300-315; times 317-337; maps 108-126. -/
def fromSql : Target → Value → Out RustVal
  | .num t, .num t' raw => if t' = t then .ok (.num raw) else .err typeError
  | .num _, _ => .err typeError
  | .decimal, .decimal d => .ok (.decimal d)
  | .decimal, _ => .err typeError
  | .enum w, .enum w' _ x => if w' = w then .ok (.enum x) else .err typeError
  | .enum _, _ => .err typeError
  | .text, v => v.asStr
  | .bytes, v => v.asBytes
  | .ip k, .ip k' b => if k' = k then .ok (.ip (ipOctets k b)) else .err typeError
  | .ip _, _ => .err typeError
  | .date, .date d => .ok (.date d)
  | .date, _ => .err typeError
  | .time, .datetime s tz => .ok (.time s 0 tz)
  | .time, .dt64 v p tz => do
    let (s, n) ← toDatetime v p
    pure (.time s n tz)
  | .time, _ => .err typeError
  | .vecNum t, v => readVec (· == .num t) (Value.intoNum t) v
  | .vecU8, .array t vs =>
    if t = .num .u8 then do
      let rs ← readAll (Value.intoNum .u8) vs
      pure (.vec rs)
    else .err typeError
  | .vecU8, v => v.asBytes
  | .vecText, v => readVec (· == .string) Value.asStr v
  | .vecBytes, v => readVec (· == .string) Value.asBytes v
  | .vecDate, v => readVec (· == .date) Value.intoDate v
  | .vecTime, v => readVec (fun t => match t with | .datetime | .dt64 _ _ | .chrono => true | _ => false) Value.intoTime v
  | .vecEnum w, v => readVec (fun t => match t with | .enum w' _ => w' == w | _ => false) (Value.intoEnum w) v
  | .opt _, .null _ => .ok .none
  | .opt t, .some v => do
    let r ← fromSql t v
    pure (.some r)
  | .opt _, _ => .err typeError
  | .hmap k v, .map _ _ ks vs => do
    let (as, bs) ← readPairs (fromSql k) (fromSql v) ks vs
    pure (.hmap as bs)
  | .hmap _ _, _ => .err (.other "ohh no")

end CH
