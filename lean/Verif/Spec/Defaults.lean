import Verif.Model.Value

/-! For C75: the value that stands for nothing. -/

namespace CH.Spec
open CH

/-- The value of the type that is zero: the number 0, the text without characters or with zero bytes only, the day and the point in time
number 0, no elements. Enums have the value 0 whether or not it is listed; a nullable type has NULL. -/
inductive ZeroOf : SqlType → Value → Prop where
  | num (t : NumTy) : ZeroOf (.num t) (.num t 0)
  | text : ZeroOf .string (.str [])
  | fixed (n : Nat) (b : Bytes) (hn : b.length = n) (hb : ∀ x ∈ b, x = 0) : ZeroOf (.fixedString n) (.str b)
  | date : ZeroOf .date (.date 0)
  | datetime : ZeroOf .datetime (.datetime 0 defaultTz)
  | chrono : ZeroOf .chrono (.datetime 0 defaultTz)
  | dt64 (p : Nat) (tz : Tz) : ZeroOf (.dt64 p tz) (.dt64 0 1 defaultTz)
  | address (k : IpKind) (b : Bytes) (hn : b.length = k.size) (hb : ∀ x ∈ b, x = 0) : ZeroOf (.ip k) (.ip k b)
  | decimal (p s : Nat) : ZeroOf (.decimal p s) (.decimal ⟨0, .n64, p, s⟩)
  | enum (w : EnumW) (items : List (Str × Int)) : ZeroOf (.enum w items) (.enum w items 0)
  | null (t : SqlType) : ZeroOf (.nullable t) (.null t)
  | array (t : SqlType) : ZeroOf (.array t) (.array t [])
  | map (k v : SqlType) : ZeroOf (.map k v) (.map k v [] [])
  | lowCard (t : SqlType) (v : Value) : ZeroOf t v → ZeroOf (.lowCard t) v
  | aggregate (f : AggFunc) (t : SqlType) (v : Value) : ZeroOf t v → ZeroOf (.simpleAgg f t) v

end CH.Spec
