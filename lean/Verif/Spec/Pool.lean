import Verif.Model.Pool

/-!
# What is expected of the connection pool

Executions, and what an observer of the pool and of its connections would count.
-/

namespace CH.Spec

open CH.Pool

/-- The states that some interleaving of calls leads to. -/
inductive Reach (cfg : Cfg) : St → Prop where
  | init : Reach cfg St.init
  | step {s s' : St} (e : Ev) : Reach cfg s → step cfg s e = some s' → Reach cfg s'

/-- The event starts a call (polling, or dropping a handle or a connection). -/
def starts : Ev → Prop
  | .poll _ => True
  | .drop _ => True
  | .lose _ => True
  | _ => False

/-- No call is in progress. -/
def Quiet (s : St) : Prop := ∀ pc ∈ s.threads, ∃ e, pc = .done e

/-- The states that executions lead to in which a call only starts when no other is in progress: all uses of the pool are on one
thread. -/
inductive SeqReach (cfg : Cfg) : St → Prop where
  | init : SeqReach cfg St.init
  | step {s s' : St} (e : Ev) : SeqReach cfg s → (starts e → Quiet s) → step cfg s e = some s' → SeqReach cfg s'

/-- A further execution. -/
inductive Steps (cfg : Cfg) : St → St → Prop where
  | refl (s : St) : Steps cfg s s
  | step {s s' s'' : St} (e : Ev) : Steps cfg s s' → step cfg s' e = some s'' → Steps cfg s s''

/-- The execution given by a list of events. -/
def exec (cfg : Cfg) : St → List Ev → Option St
  | s, [] => some s
  | s, e :: es => (step cfg s e).bind fun s => exec cfg s es

/-- The connection, open or being opened, that a call holds. -/
def held : Pc → Option Nat
  | .polling _ f => some f.id
  | .opened _ h => some h.conn.id
  | .notYet _ f => some f.id
  | .taken _ h => some h.conn.id
  | .giveBack h _ => some h.conn.id
  | .store h _ => some h.conn.id
  | .dec h _ => h.map fun h => h.conn.id
  | .wakeAll h _ => h.map fun h => h.conn.id
  | _ => none

/-- All connections that exist: being opened, idle, in use, or held by a call in progress. -/
def connections (s : St) : List Nat :=
  s.new.toList.map (·.id) ++ s.idle.map (·.conn.id) ++ s.out.filterMap (fun h => h.conn.map (·.id))
    ++ s.threads.filterMap held

/-- The connections in use: handed out, and neither given back nor closed. -/
def inUse (s : St) : List Nat := s.out.filterMap fun h => h.conn.map (·.id)

/-- The call is giving back or closing a connection that is still counted. -/
def stillCounted : Pc → Bool
  | .giveBack _ p => !p
  | .store _ p => !p
  | .dec _ p => !p
  | .release => true
  | _ => false

/-- The idle store was full and the call panicked, after which the in-use counter was decremented for a connection that had
never been handed out. -/
def miscounted : Pc → Bool
  | .wakeAll _ p => p
  | .done .overflowed => true
  | _ => false

/-- The call is one that makes a connection or a place available. -/
def frees : Pc → Prop
  | .giveBack _ _ => True
  | .store _ _ => True
  | .dec _ _ => True
  | .wakeAll _ _ => True
  | .release => True
  | .releaseWake => True
  | _ => False

/-- The task was told to wait. -/
def Waits (s : St) (t : Nat) : Prop := .done (.pending t) ∈ s.threads

end CH.Spec
