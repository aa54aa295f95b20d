import Verif.Spec.Socket
import Verif.Spec.Verdict

/-!
What a client hears over a socket that may fail or end at any time, and the handle on decoded messages it amounts to, for C84.
-/

namespace CH.Spec
open CH

/-- `Hears env ends n i bs xs`: `xs` may be heard over a socket that delivers the bytes `bs`, fails at most `n` times and, only if
`ends`, says that the connection is closed: the messages at the front of the bytes, in order and each once, with failures
of the socket and closings anywhere between them. Listening may stop at any point. -/
inductive Hears (env : Env) (ends : Prop) : Nat → TransportInfo → Bytes → List Inc → Prop where
  | stop {n i bs} : Hears env ends n i bs []
  | packet {n i j bs rest p xs} (h : parsePacket env i bs = .ok p rest) (hk : Knows i p j) (t : Hears env ends n j rest xs) :
      Hears env ends n i bs (.packet p :: xs)
  | error {n i bs rest e xs} (h : parsePacket env i bs = .err e rest) (t : Hears env ends n i rest xs) :
      Hears env ends n i bs (.error e :: xs)
  | failure {n i bs xs} (e : Err) (t : Hears env ends n i bs xs) : Hears env ends (n + 1) i bs (.error e :: xs)
  | closed {n i bs xs} (h : ends) (t : Hears env ends n i bs xs) : Hears env ends n i bs (.closed :: xs)

/-- How often the socket will fail. -/
def failures (revs : List ReadEv) (wevs : List WriteEv) : Nat := revs.count .fail + wevs.count .fail

/-- The connection has come to its end, or will. -/
def Closes (t : Transport) (revs : List ReadEv) : Prop := t.done = true ∨ .ready [] ∈ revs

/-- What may be heard on a connection. -/
def HearsOn (env : Env) (k : Sock) (xs : List Inc) : Prop :=
  Hears env (Closes k.t k.revs) (failures k.revs k.writer.evs) k.t.info (k.t.rd ++ received k.revs) xs

/-- `log` are the commands given to a connection so far: what the socket has taken and what is still to be sent are, byte for byte, these. -/
structure Issued (env : Env) (k : Sock) (log : List Cmd) : Prop where
  encodable : Encodable env k.t
  written : k.writer.out ++ k.t.wr ++ cmdBytes env.codec k.t.cmds = cmdBytes env.codec log

/-- The connection on decoded messages on which `xs` come. -/
def heardConn (k : Sock) (log : List Cmd) (xs : List Inc) : Conn := ⟨xs, fun _ => [], k.t.inconsistent, log⟩

/-- The same for handles. -/
def heardHandle (h : HandleS) (log : List Cmd) (xs : List Inc) : Handle := ⟨h.inner.map (heardConn · log xs), h.context, h.binding⟩

/-- `log` are the commands given to the connection of a handle, if there is one. -/
def IssuedIn (env : Env) (h : HandleS) (log : List Cmd) : Prop := ∀ k, h.inner = some k → Issued env k log

/-- What may be heard on the connection of a handle. -/
def HearsIn (env : Env) (h : HandleS) (xs : List Inc) : Prop := ∀ k, h.inner = some k → HearsOn env k xs

/-- The connections that reconnecting gives are usable. -/
def IssuedWorld (env : Env) (w : WorldS) : Prop := ∀ k, some k ∈ w → ∃ log, Issued env k log

/-- What reconnecting will give, with what may be heard on the connections. -/
inductive HearsWorld (env : Env) : WorldS → World → Prop where
  | nil : HearsWorld env [] []
  | refused {w u} (t : HearsWorld env w u) : HearsWorld env (none :: w) (none :: u)
  | opened {k log xs w u} (hi : Issued env k log) (h : HearsOn env k xs) (t : HearsWorld env w u) :
      HearsWorld env (some k :: w) (some (heardConn k log xs) :: u)

/-- A user's program for several things asked in turn over the socket; each comes with what reconnecting would give. -/
inductive AskEachS (env : Env) (numeric : Char → Bool) (cast : Block → Block → Out Block) :
    HandleS → List (Wish × WorldS) → List Reply → HandleS → Prop where
  | nil {h} : AskEachS env numeric cast h [] [] h
  | cons {h a w r h1 l rs h'} (ha : AskS env numeric cast h w a r h1) (hl : AskEachS env numeric cast h1 l rs h') :
      AskEachS env numeric cast h ((a, w) :: l) (r :: rs) h'

/-- The same things asked, with what may be heard on the connections that reconnecting gives. -/
inductive HearsEvents (env : Env) : List (Wish × WorldS) → List Event → Prop where
  | nil : HearsEvents env [] []
  | cons {a w wc l es} (h : HearsWorld env w wc) (t : HearsEvents env l es) : HearsEvents env ((a, w) :: l) (.asked a wc :: es)

/-- The packets among messages. -/
def packetsHeard : List Inc → List Packet
  | [] => []
  | .packet p :: xs => p :: packetsHeard xs
  | _ :: xs => packetsHeard xs

/-- What is left of an abandoned answer, with its end, if there is one. -/
def Cleared : Bool → List Packet → Prop
  | false, ps => ps = []
  | true, ps => ∃ ls e, ps = ls ++ [e] ∧ (∀ p ∈ ls, LeftOver p) ∧ EndsLeftOver e

/-- The whole answer to a statement. -/
def WholeExecute (ps : List Packet) : Prop := ∃ ss, ps = ss ++ [.eof] ∧ ∀ p ∈ ss, ExecuteSkips p

/-- The whole answer to a query of which the user is to see the blocks `bs`. -/
def WholeSelect (skip : Bool) (bs : List Block) (ps : List Packet) : Prop :=
  ∃ ss, ps = ss ++ [.eof] ∧ (∀ p ∈ ss, Middle (.packet p)) ∧ bs = resultBlocks skip (ss.map .packet)

/-- The answers to `n` chunks of an INSERT: each is a header, `d` for the first, and what ends the chunk. -/
inductive Rounds : Nat → Block → List Packet → Prop where
  | one {d cs cs' e} (hc : ∀ p ∈ cs, InsertSkips p) (hc' : ∀ p ∈ cs', InsertSkips p) (he : InsertEnds e) :
      Rounds 1 d ((cs ++ [.block d]) ++ (cs' ++ [e]))
  | more {n d d' ps qs} (h : Rounds 1 d ps) (t : Rounds n d' qs) : Rounds (n + 1) d (ps ++ qs)

/-- The whole answer to an INSERT of the block `b`: a round for each of the chunks that are sent, once it has been converted to the header. -/
def WholeInsert (cast : Block → Block → Out Block) (b : Block) (ps : List Packet) : Prop :=
  ∃ d b' chs, cast b d = .ok b' ∧ insertChunks b' = .ok chs ∧ Rounds chs.length d ps

/-- All that the socket of a connection will ever deliver, with what is in its buffer, begins with the packets `ps`. -/
def Delivers (env : Env) (k : Sock) (ps : List Packet) : Prop :=
  ∃ j rest, Decodes env k.t.info (k.t.rd ++ received k.revs) (ps.map .inl) j rest

end CH.Spec
