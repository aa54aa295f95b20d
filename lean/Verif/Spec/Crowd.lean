import Verif.Spec.Faults
import Verif.Model.PoolUse

/-!
Several tasks with handles of one pool, and others, use one database: what happens, and what every task should get, for C86. The
database and its replies are those of `Spec/Faults`.
-/

namespace CH.Spec
open CH

/-- What a server does from now on with what comes over a connection. That others use the database in the meantime does not show in
the commands sent over this connection; it is why the server is looked at anew for every operation. -/
abbrev Served := Conn → List Cmd → List Inc

/-- The connection, with the server doing `k` from now on. -/
def facing (k : Served) (c : Conn) : Conn := { c with server := fun log => k c (log.drop c.sent.length) }

/-- A handle with such a connection. -/
def facingH (k : Served) (h : Handle) : Handle := { h with inner := h.inner.map (facing k) }

/-- A connection on which something more comes. -/
def gets (x : Inc) (c : Conn) : Conn := { c with incoming := c.incoming ++ [x] }

/-- What can happen. -/
inductive Happening (σ : Type) where
  /-- a task gets a handle; if there is no idle one, with the new connection `c` -/
  | comes (c : Conn) (ctx : Context)
  /-- the task of handle `i` asks something; `opened` is what opening connections will give -/
  | asks (i : Nat) (a : Wish) (k : Served) (opened : World)
  /-- it opens the stream of a query's blocks -/
  | opens (i : Nat) (q : Query) (skipHeader : Bool) (k : Served) (opened : World)
  /-- it awaits the next block of the stream -/
  | awaits (i : Nat)
  /-- it drops the stream -/
  | closes (i : Nat)
  /-- it drops its handle -/
  | leaves (i : Nat)
  /-- it abandons an operation it has sent, and so loses the connection (C85) -/
  | loses (i : Nat)
  /-- the connection of handle `i` breaks -/
  | breaks (i : Nat) (x : Inc)
  /-- the connection of the `j`-th idle handle breaks -/
  | breaksIdle (j : Nat) (x : Inc)
  /-- somebody else changes the database -/
  | others (s : σ)

/-- The stream's connection breaks. -/
def streamGets (x : Inc) (s : BStream) : BStream := { s with inner := { s.inner with conn := s.inner.conn.map (gets x) } }

/-- The tasks' programs: what happens to the pool and the handles, and what the task in question gets. `none`: it panics, waits, or
cannot happen. -/
def crowdStep (min max : Nat) (numeric : Char → Bool) (cast : Block → Block → Out Block) (p : Crowd) :
    Happening σ → Option (Crowd × Option (Nat × Reply))
  | .comes c ctx =>
    (getHandle p.idle ⟨some c, ctx, .none⟩).map fun r => (⟨r.2, p.seats ++ [.resting r.1]⟩, none)
  | .asks i a k opened =>
    match p.seats[i]? with
    | some (.resting h) =>
      let w := poolWorld (p.idle.map (facingH k)) opened
      (askW numeric cast (facingH k h) w a).map fun r =>
        (⟨p.idle.drop (w.length - (restW numeric cast (facingH k h) w a).length), p.seats.set i (.resting r.2)⟩, some (i, r.1))
    | _ => none
  | .opens i q skip k opened =>
    match p.seats[i]? with
    | some (.resting h) =>
      let w := poolWorld (p.idle.map (facingH k)) opened
      match (facingH k h).openStream q skip w with
      | (.ok s, h', w') => some (⟨p.idle.drop (w.length - w'.length), p.seats.set i (.streaming s h')⟩, none)
      | _ => none
    | _ => none
  | .awaits i =>
    match p.seats[i]? with
    | some (.streaming s h) =>
      let r := s.next h
      some (⟨p.idle, p.seats.set i (.streaming r.2.1 r.2.2)⟩, some (i, .items [r.1]))
    | _ => none
  | .closes i =>
    match p.seats[i]? with
    | some (.streaming s h) => (s.drop h).map fun h' => (⟨p.idle, p.seats.set i (.resting h')⟩, none)
    | _ => none
  | .leaves i =>
    match p.seats[i]? with
    | some (.resting h) => some (⟨dropHandle min max p.idle h, p.seats.set i .gone⟩, none)
    | _ => none
  | .loses i =>
    match p.seats[i]? with
    | some (.resting h) => some (⟨p.idle, p.seats.set i (.resting { h with inner := none })⟩, none)
    | _ => none
  | .breaks i x =>
    match p.seats[i]? with
    | some (.resting h) => some (⟨p.idle, p.seats.set i (.resting { h with inner := h.inner.map (gets x) })⟩, none)
    | some (.streaming s h) =>
      some (⟨p.idle, p.seats.set i (.streaming (streamGets x s) { h with inner := h.inner.map (gets x) })⟩, none)
    | _ => none
  | .breaksIdle j x => some (⟨p.idle.modify j fun h => { h with inner := h.inner.map (gets x) }, p.seats⟩, none)
  | .others _ => some (p, none)

/-- Everything that happens in turn, and what the tasks get. -/
def crowdRun (min max : Nat) (numeric : Char → Bool) (cast : Block → Block → Out Block) (p : Crowd) :
    List (Happening σ) → Option (Crowd × List (Nat × Reply))
  | [] => some (p, [])
  | x :: l =>
    match crowdStep min max numeric cast p x with
    | none => none
    | some (p', r) => (crowdRun min max numeric cast p' l).map fun y => (y.1, r.toList ++ y.2)

/-- How a query's result ends: properly, with an exception of the server, or with a failure of the socket. -/
inductive Ending where
  | whole
  | refused (e : ServerError)
  | cut

/-- The ending that goes with a failure of the database. -/
def ending : Option (Inc × OpErr) → Ending
  | none => .whole
  | some (_, .server e) => .refused e
  | some _ => .cut

/-- What a task is doing: nothing; reading a query's result, of which these blocks are left; it has read the exception at the end of one,
and has then dropped the stream; its handle is gone. -/
inductive Doing where
  | free
  | reading (left : List Block) (e : Ending)
  | refused
  | spent
  | gone

/-- The database and the tasks, as they should be. -/
structure Scene (σ : Type) where
  state : σ
  places : List Doing

/-- `Happens .. v x v' r`: what should come of it when `x` happens. The pool and its connections do not occur. -/
inductive Happens (db : Shaky σ) (numeric : Char → Bool) (cast : Block → Block → Out Block) :
    Scene σ → Happening σ → Scene σ → Option (Nat × Reply) → Prop where
  | comes {s l c ctx} : Happens db numeric cast ⟨s, l⟩ (.comes c ctx) ⟨s, l ++ [.free]⟩ none
  | asks {s l i a k w s' r} : l[i]? = some .free → Outcome db numeric cast s a s' r →
      Happens db numeric cast ⟨s, l⟩ (.asks i a k w) ⟨s', l⟩ (some (i, r))
  | opens {s l i q skip k w} : l[i]? = some .free → db.isInsert q = false →
      Happens db numeric cast ⟨s, l⟩ (.opens i q skip k w)
        ⟨db.after s q, l.set i (.reading (resultBlocks skip (db.answer s q)) (ending (db.refuses s q)))⟩ none
  | block {s l i b bs e} : l[i]? = some (.reading (b :: bs) e) →
      Happens db numeric cast ⟨s, l⟩ (.awaits i) ⟨s, l.set i (.reading bs e)⟩ (some (i, .items [.block b]))
  | ended {s l i} : l[i]? = some (.reading [] .whole) → Happens db numeric cast ⟨s, l⟩ (.awaits i) ⟨s, l⟩ (some (i, .items [.ended]))
  | refused {s l i e} : l[i]? = some (.reading [] (.refused e)) →
      Happens db numeric cast ⟨s, l⟩ (.awaits i) ⟨s, l.set i .refused⟩ (some (i, .items [.err (.server e)]))
  | after {s l i} : l[i]? = some .refused → Happens db numeric cast ⟨s, l⟩ (.awaits i) ⟨s, l⟩ (some (i, .items [.ended]))
  | closes {s l i bs e} : l[i]? = some (.reading bs e) → Happens db numeric cast ⟨s, l⟩ (.closes i) ⟨s, l.set i .free⟩ none
  | closesRefused {s l i} : l[i]? = some .refused → Happens db numeric cast ⟨s, l⟩ (.closes i) ⟨s, l.set i .spent⟩ none
  | leaves {s l i} : l[i]? = some .free → Happens db numeric cast ⟨s, l⟩ (.leaves i) ⟨s, l.set i .gone⟩ none
  | leavesSpent {s l i} : l[i]? = some .spent → Happens db numeric cast ⟨s, l⟩ (.leaves i) ⟨s, l.set i .gone⟩ none
  | loses {s l i} : l[i]? = some .free → Happens db numeric cast ⟨s, l⟩ (.loses i) ⟨s, l⟩ none
  | breaks {s l i x} : Happens db numeric cast ⟨s, l⟩ (.breaks i x) ⟨s, l⟩ none
  | breaksIdle {s l j x} : Happens db numeric cast ⟨s, l⟩ (.breaksIdle j x) ⟨s, l⟩ none
  | others {s l s'} : Happens db numeric cast ⟨s, l⟩ (.others s') ⟨s', l⟩ none

/-- The same in turn. -/
inductive HappensAll (db : Shaky σ) (numeric : Char → Bool) (cast : Block → Block → Out Block) :
    Scene σ → List (Happening σ) → Scene σ → List (Nat × Reply) → Prop where
  | nil {v} : HappensAll db numeric cast v [] v []
  | cons {v v' v'' x l r rs} : Happens db numeric cast v x v' r → HappensAll db numeric cast v' l v'' rs →
      HappensAll db numeric cast v (x :: l) v'' (r.toList ++ rs)

/-- What opening connections gives while the database is in state `s`: failures, no more than may be retried, and then a connection. -/
def Opens (db : Shaky σ) (s : σ) (retries : Nat) (w : World) : Prop :=
  ∃ k c w', w = List.replicate k none ++ some c :: w' ∧ k ≤ retries ∧ GoodConn db c s

/-- `CanHappen .. v x`: handles are used as the borrow checker has it (a handle lent to a stream is not used); the server gives access to
the database in its present state; a query's result is not read up to the point where the socket fails; a handle is not used any more when an
exception was read at the end of a query's result, only dropped; what is asked is `Askable`. -/
inductive CanHappen (db : Shaky σ) (numeric : Char → Bool) (cast : Block → Block → Out Block) (o : Options) :
    Scene σ → Happening σ → Prop where
  | comes {s l c ctx} : GoodConn db c s → ctx.options = o → CanHappen db numeric cast o ⟨s, l⟩ (.comes c ctx)
  | asks {s l i a k w} : l[i]? = some .free → Askable db numeric cast s a → (∀ c, ServesShaky db 0 s (k c)) → Opens db s o.sendRetries w →
      CanHappen db numeric cast o ⟨s, l⟩ (.asks i a k w)
  | opens {s l i q skip k w} : l[i]? = some .free → db.isInsert q = false → (∀ c, ServesShaky db 0 s (k c)) →
      Opens db s o.sendRetries w → CanHappen db numeric cast o ⟨s, l⟩ (.opens i q skip k w)
  | block {s l i b bs e} : l[i]? = some (.reading (b :: bs) e) → CanHappen db numeric cast o ⟨s, l⟩ (.awaits i)
  | ended {s l i} : l[i]? = some (.reading [] .whole) → CanHappen db numeric cast o ⟨s, l⟩ (.awaits i)
  | refused {s l i e} : l[i]? = some (.reading [] (.refused e)) → CanHappen db numeric cast o ⟨s, l⟩ (.awaits i)
  | after {s l i} : l[i]? = some .refused → CanHappen db numeric cast o ⟨s, l⟩ (.awaits i)
  | closes {s l i bs e} : l[i]? = some (.reading bs e) → CanHappen db numeric cast o ⟨s, l⟩ (.closes i)
  | closesRefused {s l i} : l[i]? = some .refused → CanHappen db numeric cast o ⟨s, l⟩ (.closes i)
  | leaves {s l i} : l[i]? = some .free → CanHappen db numeric cast o ⟨s, l⟩ (.leaves i)
  | leavesSpent {s l i} : l[i]? = some .spent → CanHappen db numeric cast o ⟨s, l⟩ (.leaves i)
  | loses {s l i} : l[i]? = some .free → CanHappen db numeric cast o ⟨s, l⟩ (.loses i)
  | breaks {s l i x} : (l[i]? = some .free ∨ ∃ bs e, l[i]? = some (.reading bs e)) → Tail [x] →
      CanHappen db numeric cast o ⟨s, l⟩ (.breaks i x)
  | breaksIdle {s l j x} : Tail [x] → CanHappen db numeric cast o ⟨s, l⟩ (.breaksIdle j x)
  | others {s l s'} : CanHappen db numeric cast o ⟨s, l⟩ (.others s')

/-- Whatever comes of the first, the others can happen after it. -/
inductive CanHappenAll (db : Shaky σ) (numeric : Char → Bool) (cast : Block → Block → Out Block) (o : Options) :
    Scene σ → List (Happening σ) → Prop where
  | nil {v} : CanHappenAll db numeric cast o v []
  | cons {v x l} : CanHappen db numeric cast o v x → (∀ v' r, Happens db numeric cast v x v' r → CanHappenAll db numeric cast o v' l) →
      CanHappenAll db numeric cast o v (x :: l)

end CH.Spec
