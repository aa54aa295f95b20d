import Verif.Spec.Native

/-! Which types the keys of a map may have for the map to be readable. -/

namespace CH.Spec

/-- Types of integers and of strings. -/
def Hashes : SqlType → Prop
  | .num t => t ≠ .bool ∧ t ≠ .f32 ∧ t ≠ .f64
  | .string | .fixedString _ => True
  | .simpleAgg _ t | .lowCard t => Hashes t
  | _ => False

end CH.Spec
