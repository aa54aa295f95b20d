import Verif.Model.Into
import Verif.Spec.Values

/-! What conversions between Rust values and `Value` should do. -/

namespace CH.Spec

/-- The Rust types for which the trait bounds of the conversions hold: options and maps are made of numbers, text, dates, times and
maps; keys of maps are such as Rust hashes. -/
def Legal : RustTy → Prop
  | .opt t => Typed t ∧ Legal t
  | .hmap k v => KeyTy k ∧ Typed v ∧ Legal v
  | _ => True
where
  Typed : RustTy → Prop
    | .num _ | .text | .date | .time | .hmap _ _ => True
    | _ => False
  KeyTy : RustTy → Prop
    | .num t => t ≠ .f32 ∧ t ≠ .f64
    | .text | .date | .time => True
    | _ => False

/-- The column type such values are for. (A decimal says its own.) -/
def declares : RustTy → Option SqlType
  | .num t => some (.num t)
  | .decimal => none
  | .enum w => some (.enum w [])
  | .text => some .string
  | .bytes => some .string
  | .date => some .date
  | .time => some .datetime
  | .utc => some .datetime
  | .octets4 => some (.ip .v4)
  | .octets16 => some (.ip .v6)
  | .uuid => some (.ip .uuid)
  | .vecNum t => some (.array (.num t))
  | .vecText => some (.array .string)
  | .opt t => (declares t).map .nullable
  | .hmap k v => (declares k).bind fun a => (declares v).map fun b => .map a b

/-- The type to ask for to get the Rust value back by a typed read. -/
def askedFor : RustTy → Target
  | .num t => .num t
  | .decimal => .decimal
  | .enum w => .enum w
  | .text => .text
  | .bytes => .bytes
  | .date => .date
  | .time => .time
  | .utc => .time
  | .octets4 => .ip .v4
  | .octets16 => .ip .v6
  | .uuid => .ip .uuid
  | .vecNum t => .vecNum t
  | .vecText => .vecText
  | .opt t => .opt (askedFor t)
  | .hmap k v => .hmap (askedFor k) (askedFor v)

/-- What was read is what was given. -/
def Returns : (t : RustTy) → t.El → RustVal → Prop
  | .num _, x, r => r = .num x
  | .decimal, x, r => r = .decimal x
  | .enum _, x, r => r = .enum x
  | .text, x, r => r = .text x
  | .bytes, x, r => r = .bytes x
  | .date, x, r => ∃ n : Nat, r = .date n ∧ (n : Int) = x
  | .time, x, r => r = .time x.1 x.2.1 x.2.2
  | .utc, x, r => r = .time x.1 x.2 "UTC".toList
  | .octets4, x, r => r = .ip x
  | .octets16, x, r => r = .ip x
  | .uuid, x, r => r = .ip x
  | .vecNum _, x, r => r = .vec (x.map fun (n : Nat) => .num n)
  | .vecText, x, r => r = .vec (x.map fun (s : String) => .text s)
  | .opt _, none, r => r = .none
  | .opt t, some x, r => ∃ s, r = .some s ∧ Returns t x s
  | .hmap k v, x, r => ∃ ks vs, r = .hmap ks vs ∧ ks.length = List.length x ∧ vs.length = List.length x ∧
      ∀ (i : Nat) p a b, (show List (k.El × v.El) from x)[i]? = some p → ks[i]? = some a → vs[i]? = some b → Returns k p.1 a ∧ Returns v p.2 b

/-- The value fits what the variant of `Value` holds: dates between 1970 and 2149, UTC times between 1970 and 2106 in whole
seconds. A map is filled with distinct keys, numbers other than booleans, or text. -/
def Held : (t : RustTy) → t.El → Prop
  | .date, x => 0 ≤ (show Int from x) ∧ (show Int from x) < 65536
  | .utc, x => 0 ≤ (show Int × Nat from x).1 ∧ (show Int × Nat from x).1 < 2 ^ 32 ∧ (show Int × Nat from x).2 = 0
  | .uuid, x => (show Bytes from x).length = 16
  | .opt t, x => ∀ y, (show Option t.El from x) = some y → Held t y
  | .hmap k v, x => (k = .text ∨ ∃ t, k = .num t ∧ t ≠ .bool ∧ t ≠ .f32 ∧ t ≠ .f64) ∧
      ((show List (k.El × v.El) from x).map (·.1)).Nodup ∧
      ∀ p ∈ (show List (k.El × v.El) from x), Held v p.2
  | _, _ => True

/-- No `DateTime<Tz>` and no `[u8; 4]` inside. -/
def Borrows : RustTy → Prop
  | .time | .octets4 => False
  | .opt t => Borrows t
  | .hmap _ v => Borrows v
  | _ => True

/-- The types that can be taken out of a `Value` again by `From<Value>`. -/
def taker : RustTy → Option Taker
  | .num t => some (.num t)
  | .text => some .text
  | .bytes => some .bytes
  | .date => some .date
  | .time => some .time
  | .utc => some .time
  | .octets4 => some .octets4
  | _ => none

/-- The value holds this Rust value under this type; the times a precision can express are those of `ReadExactly`. -/
inductive Holds : Taker → Value → RustVal → Prop
  | num {t x} : Holds (.num t) (.num t x) (.num x)
  | octets4 {b} : Holds .octets4 (.ip .v4 b) (.ip b)
  | text {s : String} : Holds .text (.str (strBytes s)) (.text s)
  | bytes {b} : Holds .bytes (.str b) (.bytes b)
  | date {d} : Holds .date (.date d) (.date d)
  | time {s z} : Holds .time (.datetime s z) (.time s 0 z)
  | time64 {v p z s} {n : Nat} : p ≤ 9 → n < 1000000000 → s * 1000000000 + (n : Int) = v * 10 ^ (9 - p) →
      Holds .time (.dt64 v p z) (.time s n z)
  | chrono {s n z} : Holds .time (.chrono s n z) (.time s n z)

end CH.Spec
