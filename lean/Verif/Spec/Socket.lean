import Verif.Model.Socket
import Verif.Spec.Faults

/-!
What it means that a handle over a socket is the handle of `Model/Client`, and a user's program over the socket, for C82.
-/

namespace CH.Spec
open CH

/-- `IsConn env k c`: the connection `k` is `c` to the operations; all the messages that its socket will ever deliver are already on
their way on `c`, so that nothing more comes upon a command. What the socket has taken and what is still to be sent are, byte for
byte, the commands sent on `c`. -/
structure IsConn (env : Env) (k : Sock) (c : Conn) : Prop where
  carries : Carries env k.t k.revs c
  encodable : Encodable env k.t
  mute : ∀ log, c.server log = []
  reads : Lasting k.revs
  writes : LastingW k.writer.evs
  written : k.writer.out ++ k.t.wr ++ cmdBytes env.codec k.t.cmds = cmdBytes env.codec c.sent

/-- Both there and related, or neither. -/
inductive Both {α β : Type} (R : α → β → Prop) : Option α → Option β → Prop where
  | none : Both R none none
  | some {a b} (h : R a b) : Both R (some a) (some b)

/-- The same for handles. -/
structure IsHandle (env : Env) (h : HandleS) (c : Handle) : Prop where
  inner : Both (IsConn env) h.inner c.inner
  context : h.context = c.context
  binding : h.binding = c.binding

/-- The same for what reconnecting will give. -/
inductive IsWorld (env : Env) : WorldS → World → Prop where
  | nil : IsWorld env [] []
  | cons {k c w u} (h : Both (IsConn env) k c) (t : IsWorld env w u) : IsWorld env (k :: w) (c :: u)

/-- A user awaiting `n` items of a stream of blocks over the socket. -/
inductive RunS (env : Env) : Nat → BStreamS → HandleS → List BItem → BStreamS → HandleS → Prop where
  | zero {s h} : RunS env 0 s h [] s h
  | succ {n s h i s1 h1 is s' h'} (hn : NextS env s h i s1 h1) (hr : RunS env n s1 h1 is s' h') : RunS env (n + 1) s h (i :: is) s' h'

/-- A user's program for one thing asked of a handle over the socket, as `askW`. -/
inductive AskS (env : Env) (numeric : Char → Bool) (cast : Block → Block → Out Block) (h : HandleS) (w : WorldS) :
    Wish → Reply → HandleS → Prop where
  | ping {h'} (hp : PingS env h (.ok ()) h') : AskS env numeric cast h w .ping (.items []) h'
  | pingErr {e h'} (hp : PingS env h (.err e) h') : AskS env numeric cast h w .ping (.failed e) h'
  | execute {q h' w'} (hx : h.execute env q w (.ok ()) h' w') : AskS env numeric cast h w (.execute q) (.items []) h'
  | executeErr {q e h' w'} (hx : h.execute env q w (.err e) h' w') : AskS env numeric cast h w (.execute q) (.failed e) h'
  | select {q skip n s h1 w1 is s' h2 h'} (ho : OpenS env h q skip w (.ok s) h1 w1) (hr : RunS env n s h1 is s' h2)
      (hd : s'.drop h2 = some h') : AskS env numeric cast h w (.select q skip n) (.items is) h'
  | selectErr {q skip n e h' w'} (ho : OpenS env h q skip w (.err e) h' w') :
      AskS env numeric cast h w (.select q skip n) (.failed e) h'
  | insert {t b h' w'} (hi : h.insert env numeric cast t b w (.ok ()) h' w') : AskS env numeric cast h w (.insert t b) (.items []) h'
  | insertErr {t b e h' w'} (hi : h.insert env numeric cast t b w (.err e) h' w') :
      AskS env numeric cast h w (.insert t b) (.failed e) h'

/-- The data of an INSERT have an encoding: every chunk of whatever the block is converted to. -/
def DataEncodes (env : Env) (cast : Block → Block → Out Block) (ctx : Context) : Wish → Prop
  | .insert _ b => ∀ d b' chs ch, cast b d = .ok b' → insertChunks b' = .ok chs → ch ∈ chs →
      ∃ x, (Cmd.union (.sendData ch ctx) (.sendData Block.new ctx)).encode env.codec = .ok x
  | _ => True

/-- A user's program for several things asked in turn, without reconnections. -/
inductive AskAllS (env : Env) (numeric : Char → Bool) (cast : Block → Block → Out Block) : HandleS → List Wish → List Reply → HandleS → Prop where
  | nil {h} : AskAllS env numeric cast h [] [] h
  | cons {h a r h1 l rs h'} (ha : AskS env numeric cast h [] a r h1) (hl : AskAllS env numeric cast h1 l rs h') :
      AskAllS env numeric cast h (a :: l) (r :: rs) h'

/-- What a server sends upon the commands `cmds`, one after the other, when it has received `log` before. -/
def replies (server : List Cmd → List Inc) : List Cmd → List Cmd → List Inc
  | _, [] => []
  | log, cmd :: cmds => server (log ++ [cmd]) ++ replies server (log ++ [cmd]) cmds

/-- How often the socket will take bytes. -/
def accepts : List WriteEv → Nat
  | [] => 0
  | .wrote (_ + 1) :: evs => accepts evs + 1
  | _ :: evs => accepts evs

/-- An upper bound of the number of writes it takes to send a command, if each write takes only one byte. -/
def cost (env : Env) (c : Cmd) : Nat :=
  match c.encode env.codec with
  | .ok b => b.length + 1
  | _ => 0

/-- The same for what is buffered and the commands that wait. -/
def unsent (env : Env) (t : Transport) : Nat :=
  t.wr.length + (t.cmds.map (cost env)).sum

end CH.Spec
