import Verif.Model.Connect
import Verif.Spec.Options

/-! Specifications for opening a connection. -/

namespace CH.Spec

/-- The attempt is decided in the end, and the address is then connected. -/
def Reachable (a : Attempt) : Prop := a.wait ≠ none ∧ a.error = none

/-- The attempt is decided in the end, and fails with `e`. -/
def Refuses (a : Attempt) (e : String) : Prop := a.wait ≠ none ∧ a.error = some e

/-- The server greets: the first thing it sends upon the client's greeting is its own. -/
def Greets (server : List Cmd → List Inc) (ctx : Context) (i : ServerInfo) (rest : List Inc) : Prop :=
  server [.hello ctx] = .packet (.hello i) :: rest

/-- The parameters ask for an encrypted connection: the last `secure` among them is `true`. -/
def AsksTls (ps : List (String × String)) : Prop := lastOf "secure" ps = some "true"

end CH.Spec
