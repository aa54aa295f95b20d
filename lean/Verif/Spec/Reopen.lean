import Verif.Model.Reopen

/-! For C93: which revision the commands on a connection are written for, and which one its server has. -/

namespace CH.Spec
open CH

/-- The contexts the statements in a command are written with. -/
def contextsIn : Cmd → List Context
  | .sendQuery _ c => [c]
  | .union a b => contextsIn a ++ contextsIn b
  | _ => []

/-- `revisionOf` tells the revision of every server. Every statement given to the connection is written for the server at its other
end. -/
def WrittenFor (revisionOf : (List Cmd → List Inc) → Nat) (c : Conn) : Prop :=
  ∀ cmd ∈ c.sent, ∀ ctx ∈ contextsIn cmd, ctx.revision = revisionOf c.server

/-- What a handle knows of the server is what that server said, and all it has sent there is written for it. -/
def ToldBy (revisionOf : (List Cmd → List Inc) → Nat) (h : Handle) : Prop :=
  ∀ c, h.inner = some c → h.context.revision = revisionOf c.server ∧ WrittenFor revisionOf c

/-- The same for everything reconnecting may give. -/
def ToldWorld (revisionOf : (List Cmd → List Inc) → Nat) (w : WorldC) : Prop :=
  ∀ c ctx, some (c, ctx) ∈ w → ctx.revision = revisionOf c.server ∧ WrittenFor revisionOf c

/-- The connections alone. -/
def connsOf (w : WorldC) : World := w.map (Option.map Prod.fst)

end CH.Spec
