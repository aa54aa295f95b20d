import Verif.Model.Errors

/-! For C97: what an error is to tell the caller. -/

namespace CH.Spec
open CH CH.Errors

/-- The error means: not enough bytes yet, ask again. -/
def NotYet (e : Error) : Prop := ∃ t, e = .io ⟨.wouldBlock, t⟩

/-- The error is one of input and output. -/
def IsIo (e : Error) : Prop := ∃ i, e = .io i

/-- The text has the other one in it. -/
def TextHas (big small : Str) : Prop := ∃ a b, big = a ++ small ++ b

end CH.Spec
