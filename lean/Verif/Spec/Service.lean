import Verif.Spec.Client
import Verif.Spec.Block
import Verif.Model.Block

/-!
A database as its clients see it, for C79: states, answers, and what statements and stored blocks make of the
state. Only `Between`, `ask` and `askAll` at the end mention the client: the connection it holds and the operations it offers.
-/

namespace CH.Spec
open CH

/-- A database with states `σ`. -/
structure Db (σ : Type) where
  /-- statements that announce data -/
  isInsert : Query → Bool
  /-- the answer to any other statement, up to its end -/
  answer : σ → Query → List Inc
  /-- the state after such a statement -/
  after : σ → Query → σ
  /-- the columns an INSERT statement asks for -/
  table : σ → Query → Block
  /-- the state after a block of data for an INSERT statement -/
  store : σ → Query → Block → σ
  answers : ∀ s q, ∀ x ∈ answer s q, Middle x

/-- What one command does: a statement is executed, an INSERT statement is remembered until its data comes. -/
def Db.does (db : Db σ) : σ × Option Query → Cmd → σ × Option Query
  | (s, _), .sendQuery q _ => if db.isInsert q then (s, some q) else (db.after s q, none)
  | (s, some q), .union (.sendData b _) _ => (db.store s q b, none)
  | x, _ => x

/-- The state after all commands received on a connection. -/
def Db.state (db : Db σ) (s : σ) (log : List Cmd) : σ × Option Query := log.foldl db.does (s, none)

/-- A server that gives access to the database, which is in state `s` when the connection is opened. -/
structure Serves (db : Db σ) (s : σ) (server : List Cmd → List Inc) : Prop where
  ping : ∀ log, server (log ++ [.ping]) = [.packet .pong]
  /-- whole answers are sent, so there is nothing to cancel -/
  cancel : ∀ log, server (log ++ [.cancel]) = []
  statement : ∀ log q ctx, db.isInsert q = false →
    server (log ++ [.sendQuery q ctx]) = db.answer (db.state s log).1 q ++ [.packet .eof]
  insert : ∀ log q ctx, db.isInsert q = true → ∃ pre : List (String × String),
    server (log ++ [.sendQuery q ctx]) =
      (pre.map fun p => .packet (.tableColumns p.1 p.2)) ++ [.packet (.block (db.table (db.state s log).1 q))]
  data : ∀ log a b, server (log ++ [.union a b]) = [.packet .eof]

/-- A connection between operations, the database being in state `s`: in step with the server, or with the rest of an abandoned
answer on its way. -/
structure Between (db : Db σ) (s0 : σ) (c : Conn) (s : σ) : Prop where
  serves : Serves db s0 c.server
  state : (db.state s0 c.sent).1 = s
  rest : c.inconsistent = false ∧ c.incoming = [] ∨
    c.inconsistent = true ∧ ∃ body, c.incoming = body ++ [.packet .eof] ∧ ∀ x ∈ body, Middle x

/-- What a user may ask of a handle. -/
inductive Wish where
  | ping
  | execute (q : Query)
  /-- the stream of a query's blocks, of which `n` items are awaited before it is dropped -/
  | select (q : Query) (skipHeader : Bool) (n : Nat)
  | insert (table : Query) (b : Block)

/-- The items a stream of the blocks `bs` gives when `n` are awaited. -/
def itemsOf (n : Nat) (bs : List Block) : List BItem := (bs.take n).map .block ++ List.replicate (n - bs.length) .ended

/-- `Effect .. s a s' items`: what asking `a` of the database in state `s` should lead to: the state afterwards and what the user
gets. `numeric` and `cast` are the parameters of INSERT (the statement made from the table's name and the columns of the block,
and the conversion to the column types of the table). -/
inductive Effect (db : Db σ) (numeric : Char → Bool) (cast : Block → Block → Out Block) : σ → Wish → σ → List BItem → Prop where
  | ping {s} : Effect db numeric cast s .ping s []
  | execute {s q} : db.isInsert q = false → Effect db numeric cast s (.execute q) (db.after s q) []
  | select {s q skip n} : db.isInsert q = false →
      Effect db numeric cast s (.select q skip n) (db.after s q) (itemsOf n (resultBlocks skip (db.answer s q)))
  | insert {s t b q b'} (chunks : List Block) : makeQuery numeric t b = .ok q → cast b (db.table s q) = .ok b' →
      (∀ ch ∈ chunks, header ch = header b' ∧ ∃ r, ch.rowCount = .ok r ∧ 0 < r ∧ r ≤ 1048576) →
      chunks.flatMap rowsOf = rowsOf b' →
      Effect db numeric cast s (.insert t b) (chunks.foldl (fun s ch => db.store s q ch) s) []

/-- The database can do what is asked: statements without data for `execute` and queries; for an INSERT, a statement can be made,
and the block can be converted and has rows. (That the columns asked for stay the same while the chunks are stored is not needed:
the client converts once.) -/
inductive Can (db : Db σ) (numeric : Char → Bool) (cast : Block → Block → Out Block) : σ → Wish → Prop where
  | ping {s} : Can db numeric cast s .ping
  | execute {s q} : db.isInsert q = false → Can db numeric cast s (.execute q)
  | select {s q skip n} : db.isInsert q = false → Can db numeric cast s (.select q skip n)
  | insert {s t b q b' m} : makeQuery numeric t b = .ok q → db.isInsert q = true → cast b (db.table s q) = .ok b' →
      0 < m → Rect b' m → b'.rowCount = .ok m → Can db numeric cast s (.insert t b)

/-- The database can do everything asked in turn, whatever state it comes to. -/
inductive Workable (db : Db σ) (numeric : Char → Bool) (cast : Block → Block → Out Block) : σ → List Wish → Prop where
  | nil {s} : Workable db numeric cast s []
  | cons {s a l} : Can db numeric cast s a → (∀ s' o, Effect db numeric cast s a s' o → Workable db numeric cast s' l) →
      Workable db numeric cast s (a :: l)

/-- The effects of everything asked in turn. -/
inductive Effects (db : Db σ) (numeric : Char → Bool) (cast : Block → Block → Out Block) : σ → List Wish → σ → List (List BItem) → Prop where
  | nil {s} : Effects db numeric cast s [] s []
  | cons {s s' s'' a l o os} : Effect db numeric cast s a s' o → Effects db numeric cast s' l s'' os →
      Effects db numeric cast s (a :: l) s'' (o :: os)

/-- A user's program for one thing asked: the operation of the handle, without a reconnection; for a query the stream is opened,
items are awaited, the stream is dropped. `none`: it failed. -/
def ask (numeric : Char → Bool) (cast : Block → Block → Out Block) (h : Handle) : Wish → Option (List BItem × Handle)
  | .ping =>
    match h.ping with
    | (.ok (), h') => some ([], h')
    | _ => none
  | .execute q =>
    match h.execute q [] with
    | (.ok (), h', _) => some ([], h')
    | _ => none
  | .select q skip n =>
    match h.openStream q skip [] with
    | (.ok s, h', _) => ((run n s h').2.1.drop (run n s h').2.2).map fun g => ((run n s h').1, g)
    | _ => none
  | .insert t b =>
    match h.insert numeric cast t b [] with
    | (.ok (), h', _) => some ([], h')
    | _ => none

/-- The program for a list of them. -/
def askAll (numeric : Char → Bool) (cast : Block → Block → Out Block) (h : Handle) : List Wish → Option (List (List BItem) × Handle)
  | [] => some ([], h)
  | a :: l =>
    match ask numeric cast h a with
    | none => none
    | some (o, h') => (askAll numeric cast h' l).map fun r => (o :: r.1, r.2)

end CH.Spec
