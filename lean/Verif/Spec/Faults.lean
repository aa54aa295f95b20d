import Verif.Spec.Service

/-!
A database that may refuse statements and data or break off its answers, and connections that may break between operations, for
C81. As in `Spec/Service`, only the definitions from `GoodConn` on mention the client.
-/

namespace CH.Spec
open CH

/-- What may come instead of the end of an answer, and the error it means to the user: an exception of the server, or a failure of
the socket. -/
inductive Fault : Inc → OpErr → Prop where
  | exception (e : ServerError) : Fault (.packet (.exception e)) (.server e)
  | socket (e : Err) : Fault (.error e) .io

/-- A database with states `σ` that may fail. The states after a failure are as the database says (`after`, `store`): a statement
that failed may or may not have had an effect. -/
structure Shaky (σ : Type) where
  isInsert : Query → Bool
  /-- the answer to a statement without data, up to its end or failure -/
  answer : σ → Query → List Inc
  after : σ → Query → σ
  table : σ → Query → Block
  store : σ → Query → Block → σ
  /-- a failure in place of the end of the answer, or in place of the columns of an INSERT -/
  refuses : σ → Query → Option (Inc × OpErr)
  /-- a failure when a block of data is stored -/
  loses : σ → Query → Block → Option (Inc × OpErr)
  answers : ∀ s q, ∀ x ∈ answer s q, Middle x
  refused : ∀ s q x e, refuses s q = some (x, e) → Fault x e
  lost : ∀ s q b x e, loses s q b = some (x, e) → Fault x e

/-- How an answer ends. -/
def closing : Option (Inc × OpErr) → Inc
  | none => .packet .eof
  | some (x, _) => x

/-- What one command does. -/
def Shaky.does (db : Shaky σ) : σ × Option Query → Cmd → σ × Option Query
  | (s, _), .sendQuery q _ => if db.isInsert q ∧ (db.refuses s q).isNone then (s, some q) else (db.after s q, none)
  | (s, some q), .union (.sendData b _) _ => (db.store s q b, none)
  | x, _ => x

/-- The state after all commands received on a connection. -/
def Shaky.state (db : Shaky σ) (s : σ) (log : List Cmd) : σ × Option Query := log.foldl db.does (s, none)

/-- A server that gives access to the database, which is in state `s` when `n` commands have been received on the connection (for a
new connection `n` is 0; it need not be, because others may use the database too). -/
structure ServesShaky (db : Shaky σ) (n : Nat) (s : σ) (server : List Cmd → List Inc) : Prop where
  ping : ∀ log, n ≤ log.length → server (log ++ [.ping]) = [.packet .pong]
  cancel : ∀ log, n ≤ log.length → server (log ++ [.cancel]) = []
  statement : ∀ log q ctx, n ≤ log.length → db.isInsert q = false → server (log ++ [.sendQuery q ctx]) =
    db.answer (db.state s (log.drop n)).1 q ++ [closing (db.refuses (db.state s (log.drop n)).1 q)]
  insert : ∀ log q ctx, n ≤ log.length → db.isInsert q = true → ∃ pre : List (String × String),
    server (log ++ [.sendQuery q ctx]) = (pre.map fun p => .packet (.tableColumns p.1 p.2)) ++
      [match db.refuses (db.state s (log.drop n)).1 q with
        | none => .packet (.block (db.table (db.state s (log.drop n)).1 q))
        | some (x, _) => x]
  data : ∀ log q t b e ctx, n ≤ log.length → db.state s (log.drop n) = (t, some q) →
    server (log ++ [.union (.sendData b ctx) (.sendData e ctx)]) = [closing (db.loses t q b)]

/-- What a user gets. -/
inductive Reply where
  | items (l : List BItem)
  | failed (e : OpErr)

/-- Storing blocks for an INSERT statement until one is lost or the statement is refused; the first statement was accepted already. -/
inductive StoreAll (db : Shaky σ) (q : Query) : σ → List Block → σ → Option OpErr → Prop where
  | last {s b} : db.loses s q b = none → StoreAll db q s [b] (db.store s q b) none
  | lost {s b l x e} : db.loses s q b = some (x, e) → StoreAll db q s (b :: l) (db.store s q b) (some e)
  | refused {s b b' l x e} : db.loses s q b = none → db.refuses (db.store s q b) q = some (x, e) →
      StoreAll db q s (b :: b' :: l) (db.after (db.store s q b) q) (some e)
  | more {s b b' l t r} : db.loses s q b = none → db.refuses (db.store s q b) q = none →
      StoreAll db q (db.store s q b) (b' :: l) t r → StoreAll db q s (b :: b' :: l) t r

/-- The reply to an INSERT. -/
def storeReply : Option OpErr → Reply
  | none => .items []
  | some e => .failed e

/-- `Outcome .. s a s' r`: what asking `a` of the database in state `s` should lead to. Only a ping may also fail because the
connection broke before it: it is there to find that out. -/
inductive Outcome (db : Shaky σ) (numeric : Char → Bool) (cast : Block → Block → Out Block) : σ → Wish → σ → Reply → Prop where
  | ping {s} : Outcome db numeric cast s .ping s (.items [])
  | pingFailed {s} (e : OpErr) : Outcome db numeric cast s .ping s (.failed e)
  | execute {s q} : db.isInsert q = false → db.refuses s q = none → Outcome db numeric cast s (.execute q) (db.after s q) (.items [])
  | executeFailed {s q x e} : db.isInsert q = false → db.refuses s q = some (x, e) →
      Outcome db numeric cast s (.execute q) (db.after s q) (.failed e)
  | select {s q skip n} : db.isInsert q = false →
      Outcome db numeric cast s (.select q skip n) (db.after s q) (.items (itemsOf n (resultBlocks skip (db.answer s q))))
  | insertRefused {s t b q x e} : makeQuery numeric t b = .ok q → db.refuses s q = some (x, e) →
      Outcome db numeric cast s (.insert t b) (db.after s q) (.failed e)
  | insertUnfit {s t b q e} : makeQuery numeric t b = .ok q → db.refuses s q = none → cast b (db.table s q) = .err e →
      Outcome db numeric cast s (.insert t b) s (.failed (.other e))
  | insert {s t b q b' s' r} (chunks : List Block) : makeQuery numeric t b = .ok q → db.refuses s q = none →
      cast b (db.table s q) = .ok b' →
      (∀ ch ∈ chunks, header ch = header b' ∧ ∃ r, ch.rowCount = .ok r ∧ 0 < r ∧ r ≤ 1048576) →
      chunks.flatMap rowsOf = rowsOf b' → StoreAll db q s chunks s' r →
      Outcome db numeric cast s (.insert t b) s' (storeReply r)

/-- What may be asked: a query whose answer breaks off must be dropped before that point is read (C52 shows what happens to the handle
otherwise); a block for an INSERT cannot be converted, or it can and has rows then. -/
inductive Askable (db : Shaky σ) (numeric : Char → Bool) (cast : Block → Block → Out Block) : σ → Wish → Prop where
  | ping {s} : Askable db numeric cast s .ping
  | execute {s q} : db.isInsert q = false → Askable db numeric cast s (.execute q)
  | select {s q skip n} : db.isInsert q = false → db.refuses s q = none → Askable db numeric cast s (.select q skip n)
  | selectPart {s q skip n} : db.isInsert q = false → n ≤ (resultBlocks skip (db.answer s q)).length →
      Askable db numeric cast s (.select q skip n)
  | insertRefused {s t b q x e} : makeQuery numeric t b = .ok q → db.isInsert q = true → db.refuses s q = some (x, e) →
      Askable db numeric cast s (.insert t b)
  | insertUnfit {s t b q e} : makeQuery numeric t b = .ok q → db.isInsert q = true → cast b (db.table s q) = .err e →
      Askable db numeric cast s (.insert t b)
  | insert {s t b q b' m} : makeQuery numeric t b = .ok q → db.isInsert q = true → cast b (db.table s q) = .ok b' →
      0 < m → Rect b' m → b'.rowCount = .ok m → Askable db numeric cast s (.insert t b)

/-- Nothing, or the end of the connection. -/
inductive Tail : List Inc → Prop where
  | none : Tail []
  | closed {l} : Tail (.closed :: l)
  | socket {e l} : Tail (.error e :: l)

/-- A connection in step with a server of the database in state `s`. -/
def GoodConn (db : Shaky σ) (c : Conn) (s : σ) : Prop :=
  ∃ n s0, ServesShaky db n s0 c.server ∧ n ≤ c.sent.length ∧ (db.state s0 (c.sent.drop n)).1 = s ∧
    c.inconsistent = false ∧ c.incoming = []

/-- A connection between operations, as it can also lie in a pool: in step or with the rest of an answer on its way (perhaps of one
that breaks off), and then perhaps broken. -/
structure Link (db : Shaky σ) (c : Conn) (s : σ) : Prop where
  serves : ∃ n0 s0, ServesShaky db n0 s0 c.server ∧ n0 ≤ c.sent.length ∧ (db.state s0 (c.sent.drop n0)).1 = s
  rest : (c.inconsistent = false ∧ Tail c.incoming) ∨
    (c.inconsistent = true ∧ ∃ body x t, c.incoming = body ++ x :: t ∧ (∀ y ∈ body, Middle y) ∧
      (x = .packet .eof ∨ ∃ e, Fault x e) ∧ Tail t)

/-- What reconnecting gives while the database is in state `s` and `retries` more failures to connect are tolerated: connections that
were used before, as long as that number is not 0; failures; and at last a good connection. -/
inductive Reopens (db : Shaky σ) (s : σ) : Nat → World → Prop where
  | good {retries c w} : GoodConn db c s → Reopens db s retries (some c :: w)
  | used {retries c w} : Link db c s → Reopens db s (retries + 1) w → Reopens db s (retries + 1) (some c :: w)
  | failed {retries w} : Reopens db s retries w → Reopens db s (retries + 1) (none :: w)

/-- What happens to a handle: something is asked of it, with what reconnecting would give then; or its connection breaks. -/
inductive Event where
  | asked (a : Wish) (w : World)
  | broken (x : Inc)

/-- A user's program for one thing asked (as `ask`, with reconnections and errors). `none`: it panics or waits. -/
def askW (numeric : Char → Bool) (cast : Block → Block → Out Block) (h : Handle) (w : World) : Wish → Option (Reply × Handle)
  | .ping =>
    match h.ping with
    | (.ok (), h') => some (.items [], h')
    | (.err e, h') => some (.failed e, h')
    | _ => none
  | .execute q =>
    match h.execute q w with
    | (.ok (), h', _) => some (.items [], h')
    | (.err e, h', _) => some (.failed e, h')
    | _ => none
  | .select q skip n =>
    match h.openStream q skip w with
    | (.ok s, h', _) => ((run n s h').2.1.drop (run n s h').2.2).map fun g => (.items (run n s h').1, g)
    | (.err e, h', _) => some (.failed e, h')
    | _ => none
  | .insert t b =>
    match h.insert numeric cast t b w with
    | (.ok (), h', _) => some (.items [], h')
    | (.err e, h', _) => some (.failed e, h')
    | _ => none

/-- What is left of the reconnections after it. -/
def restW (numeric : Char → Bool) (cast : Block → Block → Out Block) (h : Handle) (w : World) : Wish → World
  | .ping => w
  | .execute q => (h.execute q w).2.2
  | .select q skip _ => (h.openStream q skip w).2.2
  | .insert t b => (h.insert numeric cast t b w).2.2

/-- Everything that happens in turn. When a connection breaks, what was on its way still arrives. -/
def live (numeric : Char → Bool) (cast : Block → Block → Out Block) (h : Handle) : List Event → Option (List Reply × Handle)
  | [] => some ([], h)
  | .asked a w :: l =>
    match askW numeric cast h w a with
    | none => none
    | some (r, h') => (live numeric cast h' l).map fun x => (r :: x.1, x.2)
  | .broken x :: l =>
    live numeric cast { h with inner := h.inner.map fun c => { c with incoming := c.incoming ++ [x] } } l

/-- Whatever the database comes to, what is asked can be asked and a new connection can be had. -/
inductive Liveable (db : Shaky σ) (numeric : Char → Bool) (cast : Block → Block → Out Block) (retries : Nat) : σ → List Event → Prop where
  | nil {s} : Liveable db numeric cast retries s []
  | asked {s a w l} : Askable db numeric cast s a → Reopens db s retries w →
      (∀ s' r, Outcome db numeric cast s a s' r → Liveable db numeric cast retries s' l) →
      Liveable db numeric cast retries s (.asked a w :: l)
  | broken {s x l} : Tail [x] → Liveable db numeric cast retries s l → Liveable db numeric cast retries s (.broken x :: l)

/-- The outcomes of everything asked in turn. -/
inductive Outcomes (db : Shaky σ) (numeric : Char → Bool) (cast : Block → Block → Out Block) : σ → List Event → σ → List Reply → Prop where
  | nil {s} : Outcomes db numeric cast s [] s []
  | asked {s s' s'' a w l r rs} : Outcome db numeric cast s a s' r → Outcomes db numeric cast s' l s'' rs →
      Outcomes db numeric cast s (.asked a w :: l) s'' (r :: rs)
  | broken {s s' x l rs} : Outcomes db numeric cast s l s' rs → Outcomes db numeric cast s (.broken x :: l) s' rs

end CH.Spec
