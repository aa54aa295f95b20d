import Verif.Model.Value

/-! What a line of the log reveals. -/

namespace CH.Spec

/-- The line contains the text. -/
def Reveals (line : Str) (s : String) : Prop := ∃ pre post, line = pre ++ s.toList ++ post

/-- What is logged is the same whatever the secret is. -/
def Hides (log : String → List Str) : Prop := ∀ s s', log s = log s'

end CH.Spec
