import Verif.Model.SqlType

/-! For C23: how deep a type is. -/

namespace CH.Spec
open CH

/-- The largest number of types around each other in a type. -/
def depth : SqlType → Nat
  | .nullable t => depth t + 1
  | .array t => depth t + 1
  | .map k v => max (depth k) (depth v) + 1
  | .lowCard t => depth t + 1
  | .simpleAgg _ t => depth t + 1
  | _ => 0

end CH.Spec
