import Verif.Model.Share

/-! Specification vocabulary for columns of which copies exist. -/

namespace CH.Spec

/-- Appending the values `vs` one after the other to the column `c`, with nobody else looking at it, gives `c'`. -/
inductive Takes : Col → List Value → Col → Prop where
  | nil (c : Col) : Takes c [] c
  | cons {c c₁ c' : Col} {v : Value} {vs : List Value} : c.push v = .ok c₁ → Takes c₁ vs c' → Takes c (v :: vs) c'

/-- The columns inside a column. -/
def insides : Col → List Col
  | .nullable _ c => [c]
  | .array _ c => [c]
  | .map _ k v => [k, v]
  | .simpleAgg _ c => [c]
  | .lowCard _ _ d _ => [d]
  | _ => []

/-- The column is a low-cardinality column. -/
def IsLowCard : Col → Prop
  | .lowCard .. => True
  | _ => False

/-- Appending values to the `h`-th column, one after the other. -/
inductive Appends (h : Nat) : Mem → List Value → Mem → Prop where
  | nil (m : Mem) : Appends h m [] m
  | cons {m m₁ m' : Mem} {v : Value} {vs : List Value} : m.pushColumn h v = .ok m₁ → Appends h m₁ vs m' → Appends h m (v :: vs) m'

end CH.Spec
