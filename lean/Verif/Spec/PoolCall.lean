import Verif.Spec.Pool

/-! For C95: what a task that asks the pool for a connection is told. -/

namespace CH.Spec
open CH.Pool

/-- What a task can be told. -/
inductive Told where
  | gets (id : Nat)
  | fails
  | waits
deriving DecidableEq, Repr

/-- What a task should be told that asks while nobody else uses the pool: connections are handed out in the order in which they
became available; the one being opened goes on being opened; if there is neither, a connection is opened unless the maximum
is in use. `o` is how the opening goes on. -/
def telling (max : Nat) (opening : Option Nat) (idle : List Nat) (used fresh : Nat) (o : Outcome) : Told :=
  match opening, o with
  | some n, .ready => .gets ((idle ++ [n]).headD n)
  | some _, .pending => match idle with
    | i :: _ => .gets i
    | [] => .waits
  | some _, _ => .fails
  | none, o => match idle with
    | i :: _ => .gets i
    | [] => if max ≤ used then .waits else match o with
      | .ready => .gets fresh
      | .pending => .waits
      | _ => .fails

/-- The task has been told this by the call that was the last to be made: it has got the connection, or an error, or is
registered to be woken (also by the opening of a connection, if one is being opened). -/
def WasTold (s s' : St) (t : Nat) : Told → Prop
  | .gets id => s'.threads = s.threads ++ [.done (.handed t)] ∧ s'.out = s.out ++ [⟨some ⟨id, false⟩, .attached⟩]
  | .fails => s'.threads = s.threads ++ [.done (.failed t)] ∧ s'.out = s.out
  | .waits => s'.threads = s.threads ++ [.done (.pending t)] ∧ s'.out = s.out ∧ t ∈ s'.tasks ∧ ∀ f, s'.new = some f → f.waker = some t

/-- How often the task has got a connection, has been told to wait, and has been woken. -/
def timesServed (s : St) (t : Nat) : Nat := s.threads.count (.done (.handed t))
def timesWaiting (s : St) (t : Nat) : Nat := s.threads.count (.done (.pending t))
def timesWoken (s : St) (t : Nat) : Nat := s.woken.count t

end CH.Spec
