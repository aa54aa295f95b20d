import Verif.Model.Cancel

/-!
A user's program whose operations may be abandoned or time out, for C85.
-/

namespace CH.Spec
open CH

/-- What a user gets of an operation: `none` if it was abandoned. -/
inductive Gets : OpRes Unit → Option Reply → Prop where
  | ok : Gets (.ok ()) (some (.items []))
  | err (e : OpErr) : Gets (.err e) (some (.failed e))
  | abandoned : Gets .waits none

/-- One thing asked of a handle over the socket, as `AskS`, if it may be abandoned (`none`). A query is abandoned while its connection is
checked, or while its stream is awaited after `m` items; `fetch_all` and the like do so when their timeout is over
(/repo/src/types/query_result/mod.rs:30-47). -/
inductive AskT (env : Env) (numeric : Char → Bool) (cast : Block → Block → Out Block) (h : HandleS) (w : WorldS) :
    Wish → Option Reply → HandleS → Prop where
  | ping {r a h'} (hp : PingT env h r h') (ha : Gets r a) : AskT env numeric cast h w .ping a h'
  | execute {q r a h' w'} (hx : h.executeT env q w r h' w') (ha : Gets r a) : AskT env numeric cast h w (.execute q) a h'
  | insert {t b r a h' w'} (hx : h.insertT env numeric cast t b w r h' w') (ha : Gets r a) : AskT env numeric cast h w (.insert t b) a h'
  | select {q skip n s h1 w1 is s' h2 h'} (ho : OpenT env h q skip w (.ok s) h1 w1) (hr : RunS env n s h1 is s' h2)
      (hd : s'.drop h2 = some h') : AskT env numeric cast h w (.select q skip n) (some (.items is)) h'
  | selectErr {q skip n e h' w'} (ho : OpenT env h q skip w (.err e) h' w') :
      AskT env numeric cast h w (.select q skip n) (some (.failed e)) h'
  | checkAbandoned {q skip n h' w' a} (ho : OpenT env h q skip w .waits h' w') (ha : a = none ∨ a = some (.failed .timeout)) :
      AskT env numeric cast h w (.select q skip n) a h'
  | nextAbandoned {q skip n m s h1 w1 is s' h2 s'' h' a} (ho : OpenT env h q skip w (.ok s) h1 w1) (hr : RunS env m s h1 is s' h2)
      (hw : NextWaits env s' s'') (hd : s''.drop h2 = some h') (ha : a = none ∨ a = some (.failed .timeout)) :
      AskT env numeric cast h w (.select q skip n) a h'

/-- The command for which the rest of an abandoned answer is read. -/
def cancelFirst (k : Sock) : List Cmd := if k.t.inconsistent then [.cancel] else []

end CH.Spec
