import Verif.Spec.Values
import Verif.Model.Cast
import Verif.Model.Iter

/-! Small specifications for column types made from values, and for keys. -/

namespace CH.Spec
open CH

/-- The type of a column made for values of a type: the type itself, but times are kept as `chrono` times until they are cast. -/
def made : SqlType → SqlType
  | .datetime => .chrono
  | .nullable t => .nullable (made t)
  | .array t => .array (made t)
  | .simpleAgg f t => .simpleAgg f (made t)
  | .map k v => .map (made k) (made v)
  | .lowCard t => .lowCard (made t)
  | t => t

/-- `SameKey x y`: two keys of a map are the same: the same content; for times, the same instant. -/
inductive SameKey : Item → Item → Prop where
  | num {t : NumTy} {x : Nat} : SameKey (.num t x) (.num t x)
  | ip {k : IpKind} {b : Bytes} : SameKey (.ip k b) (.ip k b)
  | bytes {b : Bytes} : SameKey (.bytes b) (.bytes b)
  | time {s : Int} {n : Nat} {z z' : Tz} : SameKey (.time s n z) (.time s n z')
  | naive {s : Int} {n : Nat} : SameKey (.naive s n) (.naive s n)
  | date {d : Int} : SameKey (.date d) (.date d)
  | none : SameKey .none .none
  | some {x y : Item} (h : SameKey x y) : SameKey (.some x) (.some y)
  | empty : SameKey (.vec []) (.vec [])
  | cons {x y : Item} {xs ys : List Item} (h : SameKey x y) (t : SameKey (.vec xs) (.vec ys)) :
      SameKey (.vec (x :: xs)) (.vec (y :: ys))

/-- The same value, up to the zones in which times are given and the sign of zero. -/
inductive Alike : Value → Value → Prop
  | num {t a b} : SameNum t a b → ¬ NaN t a → ¬ NaN t b → Alike (.num t a) (.num t b)
  | str {b} : Alike (.str b) (.str b)
  | date {d} : Alike (.date d) (.date d)
  | datetime {s z z'} : Alike (.datetime s z) (.datetime s z')
  | dt64 {a p z z'} : p ≤ 9 → -(2 ^ 63) ≤ a * 10 ^ (9 - p) → a * 10 ^ (9 - p) ≤ 2 ^ 63 - 1 → Alike (.dt64 a p z) (.dt64 a p z')
  | chrono {s n z z'} : Alike (.chrono s n z) (.chrono s n z')
  | ip {k b} : Alike (.ip k b) (.ip k b)
  | null {t} : Alike (.null t) (.null t)
  | some {a b} : Alike a b → Alike (.some a) (.some b)
  | array {t as bs} : as.length = bs.length → (∀ (i : Nat) a b, as[i]? = Option.some a → bs[i]? = Option.some b → Alike a b) →
      Alike (.array t as) (.array t bs)
  | decimal {a b} : a.scale = b.scale → a.underlying = b.underlying → Alike (.decimal a) (.decimal b)
  | enum {w items x} : Alike (.enum w items x) (.enum w items x)

/-- The first time in a value is in the given zone. (A value of array type is one whose elements have the element type.) -/
inductive FirstTime : Value → Tz → Prop
  | time {s z} : FirstTime (.datetime s z) z
  | some {v z} : FirstTime v z → FirstTime (.some v) z
  | array {t v vs z} : t = v.sqlType → FirstTime v z → FirstTime (.array t (v :: vs)) z

end CH.Spec
