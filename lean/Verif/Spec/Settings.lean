import Verif.Model.Options

/-! Specification for C72: what a sequence of `with_setting` calls asks for. -/

namespace CH.Spec
open CH

/-- `name` was given the value `v` last. -/
def LastGiven (calls : List (String × SettingValue)) (name : String) (v : SettingValue) : Prop :=
  ∃ before after, calls = before ++ (name, v) :: after ∧ ∀ c ∈ after, c.1 ≠ name

/-- `name` was never given. -/
def NeverGiven (calls : List (String × SettingValue)) (name : String) : Prop := ∀ c ∈ calls, c.1 ≠ name

end CH.Spec
