import Verif.Model.Client

/-! Specifications for the client operations: what a query's result is, orderly servers, histories of a handle. -/

namespace CH.Spec

/-- The blocks among what the server sent, in order. -/
def blocksOf (l : List Inc) : List Block := l.filterMap fun i => match i with | .packet (.block b) => some b | _ => none

/-- What the user is to see of a query's answer: its blocks in order, without the leading one if the header is to be skipped,
and without blocks that have no columns. -/
def resultBlocks (skipHeader : Bool) (l : List Inc) : List Block :=
  ((blocksOf l).drop (if skipHeader then 1 else 0)).filter fun b => decide (b.columns ≠ [])

/-- Packets that belong to the middle of a query's answer. -/
inductive Middle : Inc → Prop where
  | block (b : Block) : Middle (.packet (.block b))
  | progress (p : Progress) : Middle (.packet (.progress p))
  | profileInfo (p : ProfileInfo) : Middle (.packet (.profileInfo p))

/-- Packets after which the server has nothing more to say about the command. -/
inductive Final : Packet → Prop where
  | eof : Final .eof
  | pong : Final .pong
  | hello (i : ServerInfo) : Final (.hello i)
  | exception (e : ServerError) : Final (.exception e)

/-- Nothing follows a final packet. -/
def Ends (l : List Inc) : Prop := ∀ pre p post, l = pre ++ .packet p :: post → Final p → post = []

/-- A server that keeps to the protocol: nothing follows the end of an answer, a cancel request is not answered by itself, and the
answer to an INSERT is the header block, to its data no block. `isInsert` tells which query texts are INSERTs. -/
structure Orderly (isInsert : Query → Prop) (server : List Cmd → List Inc) : Prop where
  ends : ∀ cmds, Ends (server cmds)
  cancel : ∀ cmds, server (cmds ++ [.cancel]) = []
  header : ∀ cmds q ctx pre b post, isInsert q →
    server (cmds ++ [.sendQuery q ctx]) = pre ++ .packet (.block b) :: post → post = []
  data : ∀ cmds a b, ∀ x ∈ server (cmds ++ [.union a b]), ∀ bl, x ≠ .packet (.block bl)

/-- A connection on which nothing is outstanding. -/
def FreshConn (isInsert : Query → Prop) (c : Conn) : Prop :=
  c.incoming = [] ∧ c.inconsistent = false ∧ Orderly isInsert c.server

/-- Every connection that will be opened is fresh. -/
def FreshWorld (isInsert : Query → Prop) (w : World) : Prop := ∀ c, some c ∈ w → FreshConn isInsert c

/-- Awaiting `n` items of a result stream: what the user got. -/
def run : Nat → BStream → Handle → List BItem × BStream × Handle
  | 0, s, h => ([], s, h)
  | n + 1, s, h =>
    let (i, s, h) := s.next h
    let (is, s, h) := run n s h
    (i :: is, s, h)

/-- The handles that can arise in a session that starts on a fresh connection with the check before queries switched on: pings,
executes, inserts, queries whose result streams are read any number of times and dropped; any of these may fail or be cut off. -/
inductive Session (isInsert : Query → Prop) (numeric : Char → Bool) (cast : Block → Block → Out Block) : Handle → Prop where
  | start {c : Conn} {ctx : Context} {b : Binding} : FreshConn isInsert c → ctx.options.pingBeforeQuery = true →
      Session isInsert numeric cast ⟨some c, ctx, b⟩
  | ping {h : Handle} : Session isInsert numeric cast h → Session isInsert numeric cast h.ping.2
  | execute {h : Handle} {q : Query} {w : World} : Session isInsert numeric cast h → FreshWorld isInsert w →
      Session isInsert numeric cast (h.execute q w).2.1
  | insert {h : Handle} {t q : Query} {b : Block} {w : World} : Session isInsert numeric cast h → FreshWorld isInsert w →
      makeQuery numeric t b = .ok q → isInsert q → Session isInsert numeric cast (h.insert numeric cast t b w).2.1
  | query {h h' : Handle} {q : Query} {skip : Bool} {w w' : World} {s : BStream} {n : Nat} {h'' : Handle} :
      Session isInsert numeric cast h → FreshWorld isInsert w → h.openStream q skip w = (.ok s, h', w') →
      (run n s h').2.1.drop (run n s h').2.2 = some h'' → Session isInsert numeric cast h''
  | badQuery {h h' : Handle} {q : Query} {skip : Bool} {w w' : World} {r : OpRes BStream} :
      Session isInsert numeric cast h → FreshWorld isInsert w → h.openStream q skip w = (r, h', w') → (∀ s, r ≠ .ok s) →
      Session isInsert numeric cast h'

/-- The blocks among the items the user got. -/
def blocksGot (l : List BItem) : List Block := l.filterMap fun i => match i with | .block b => some b | _ => none

end CH.Spec

namespace CH.Spec

/-- The messages a command puts on the wire, /repo/src/types/cmd.rs `Union` being two in a row. -/
def messages : Cmd → List Cmd
  | .union a b => messages a ++ messages b
  | c => [c]

/-- The messages of an INSERT of the given chunks: for each the query, the data, and one empty block. -/
def insertMessages (q : Query) (ctx : Context) (chunks : List Block) : List Cmd :=
  chunks.flatMap fun ch => [.sendQuery q ctx, .sendData ch ctx, .sendData Block.new ctx]

/-- Anything that neither hands over the connection nor makes `clear` fail: what may be left of an old query's answer. -/
def Leftover (x : Inc) : Prop := ∃ p, x = .packet p ∧ ¬ Final p

end CH.Spec
