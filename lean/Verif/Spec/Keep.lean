import Verif.Spec.Pool

/-!
# What is expected of the connections that a pool keeps

Which connections a pool keeps idle, how many, and in which order it hands them out.
-/

namespace CH.Spec

open CH.Pool

/-- The idle connections, in the order of the queue. -/
def idleIds (s : St) : List Nat := s.idle.map (·.conn.id)

/-- Whether the call has not yet come to its end. -/
def ongoingCall : Pc → Bool
  | .done _ => false
  | _ => true

/-- How many calls are in progress. -/
def inProgress (s : St) : Nat := s.threads.countP ongoingCall

/-- The states of executions in which at no time more than `k` calls are in progress. -/
inductive ReachAtMost (cfg : Cfg) (k : Nat) : St → Prop where
  | init : ReachAtMost cfg k St.init
  | step {s s' : St} (e : Ev) : ReachAtMost cfg k s → step cfg s e = some s' → inProgress s' ≤ k → ReachAtMost cfg k s'

/-- A further execution throughout which a connection is idle. -/
inductive StaysIdle (cfg : Cfg) (x : Nat) : St → St → Prop where
  | refl (s : St) : x ∈ idleIds s → StaysIdle cfg x s s
  | step {s s' s'' : St} (e : Ev) : StaysIdle cfg x s s' → step cfg s' e = some s'' → x ∈ idleIds s'' → StaysIdle cfg x s s''

/-- A further execution in which only one call goes on. -/
inductive Alone (cfg : Cfg) (i : Nat) : St → St → Prop where
  | refl (s : St) : Alone cfg i s s
  | step {s s' s'' : St} (o : Outcome) : Alone cfg i s s' → step cfg s' (.run i o) = some s'' → Alone cfg i s s''

end CH.Spec
