import Verif.Model.PoolDrop
import Verif.Spec.Pool

/-! What is expected when a pool is no longer used. -/

namespace CH.Spec

open CH.Pool

/-- The states that some interleaving of calls leads to, with the clones of the pool. -/
inductive LReach (cfg : Cfg) : Life → Prop where
  | init : LReach cfg Life.init
  | step {l l' : Life} (e : LEv) : LReach cfg l → l.step cfg e = some l' → LReach cfg l'

/-- The event drops a handle. -/
def drops : LEv → Prop
  | .pool (.drop _) => True
  | _ => False

/-- The event starts a call. -/
def lstarts : LEv → Prop
  | .pool e => starts e
  | _ => False

/-- The states that executions lead to on one thread in which no handle is dropped while a connection is being opened. -/
inductive CalmReach (cfg : Cfg) : Life → Prop where
  | init : CalmReach cfg Life.init
  | step {l l' : Life} (e : LEv) : CalmReach cfg l → (lstarts e → Quiet l.st) → (drops e → l.st.new = none) →
      l.step cfg e = some l' → CalmReach cfg l'

/-- A further execution. -/
inductive LSteps (cfg : Cfg) : Life → Life → Prop where
  | refl (l : Life) : LSteps cfg l l
  | step {l l' l'' : Life} (e : LEv) : LSteps cfg l l' → l'.step cfg e = some l'' → LSteps cfg l l''

/-- The user has dropped the pool and every handle, and no call is in progress. -/
structure Over (l : Life) : Prop where
  pools : l.users = 0
  handles : ∀ h ∈ l.st.out, h = ⟨none, .none⟩
  calls : Quiet l.st

/-- The execution given by a list of events. -/
def lexec (cfg : Cfg) : Life → List LEv → Option Life
  | l, [] => some l
  | l, e :: es => (l.step cfg e).bind fun l => lexec cfg l es

end CH.Spec
