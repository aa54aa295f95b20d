import Verif.Model.Client
import Verif.Model.Options

/-!
# The connection pool

`/repo/src/pool/mod.rs`, `/repo/src/pool/futures/get_handle.rs` and the part of `/repo/src/io/transport.rs` that tells the pool
about a connection that is closed. The pool's state is shared between threads and every access to it is one atomic operation on
a queue or on a counter, so the functions are modelled as small machines: a program counter (`Pc`) for each call in progress and
one step for each access to the shared state. An execution is any interleaving of these steps.

What is inside a connection does not matter here: a connection is a number, and the flag `inside` of its `TransportStatus`.
-/

namespace CH.Pool

/-- One more than the largest `usize` (64-bit targets). The counters of the pool wrap around at this number, as `fetch_add` and
`fetch_sub` do. -/
def usize : Nat := 18446744073709551616

/-- `AtomicUsize::fetch_add(1, _)`. -/
@[irreducible] def incr (n : Nat) : Nat := (n + 1) % usize

/-- `AtomicUsize::fetch_sub(1, _)`. -/
@[irreducible] def decr (n : Nat) : Nat := if n = 0 then usize - 1 else n - 1

/-- The limits `min` and `max` of `Pool`, /repo/src/pool/mod.rs:101-106, and the number of hosts (`Inner::hosts`, line 29). -/
structure Cfg where
  min : Nat
  max : Nat
  hosts : Nat

/-- A connection: a number that tells connections apart, and `TransportStatus::inside`, /repo/src/io/transport.rs:68-71. The
other parts of the transport are left out. -/
structure PConn where
  id : Nat
  inside : Bool
deriving DecidableEq, Repr

/-- A `ClientHandle` that has its connection, /repo/src/lib.rs:243-247: what `Client::open` gives (lines 287-297 with the
binding `Detached`), what the pool keeps and what it hands out. -/
structure PHandle where
  conn : PConn
  binding : Binding
deriving DecidableEq, Repr

/-- A `ClientHandle` in the hands of the user. `conn` is `none` when the connection has been given up. A connection that has
been moved into a query in progress belongs to a handle that is borrowed until the query ends, and is still counted here. A handle
that has been dropped is left as `⟨none, .none⟩`. -/
structure UHandle where
  conn : Option PConn
  binding : Binding
deriving DecidableEq, Repr

/-- A future that opens a connection (`new_connection`, /repo/src/pool/mod.rs:217-221): the number of the connection it is
opening, whether it has already asked for an address, and the task that polled it last, which is the one that will be woken when
it can go on. -/
structure Opening where
  id : Nat
  asked : Bool
  waker : Option Nat
deriving DecidableEq, Repr

/-- How a call ended: `Ready(Ok(_))`, `Ready(Err(_))` and `Pending` of `poll`, /repo/src/pool/mod.rs:192-215; a panic (of the
`unwrap` of line 227: `overflowed`); the end of `return_conn` or `release_conn`. -/
inductive End where
  | handed (task : Nat)
  | failed (task : Nat)
  | pending (task : Nat)
  | panicked
  | overflowed
  | finished
deriving DecidableEq, Repr

/-- What remains to do of a call that is being executed. Lines of /repo/src/pool/mod.rs. -/
inductive Pc where
  /-- `poll` by the task, about to pop `new` (line 224). -/
  | poll (task : Nat)
  /-- About to poll the future (line 225). -/
  | polling (task : Nat) (f : Opening)
  /-- The connection is open; about to push it to `idle` (line 227). -/
  | opened (task : Nat) (h : PHandle)
  /-- Not yet open; about to push the future back to `new` (line 233). -/
  | notYet (task : Nat) (f : Opening)
  /-- `take_conn`, about to pop `idle` (line 245). -/
  | take (task : Nat)
  /-- About to increment `ongoing` (line 248). -/
  | taken (task : Nat) (h : PHandle)
  /-- `conn_count`, about to read the length of `new` (line 42). -/
  | count (task : Nat)
  /-- About to read `ongoing` (line 43). -/
  | countNew (task : Nat) (new : Nat)
  /-- About to read the length of `idle` (line 44). -/
  | countOngoing (task : Nat) (new ongoing : Nat)
  /-- About to push a future to `new` (line 201). -/
  | create (task : Nat)
  /-- About to push the waker to `tasks` (line 204). -/
  | wait (task : Nat)
  /-- `return_conn`, about to read the length of `idle` (lines 256-262). The flag tells that the handle is dropped by the panic
  of line 227. -/
  | giveBack (h : PHandle) (panicking : Bool)
  /-- About to push to `idle` (line 263). -/
  | store (h : PHandle) (panicking : Bool)
  /-- About to decrement `ongoing` (line 265); the handle, if it is still held, is dropped at the end of the function. -/
  | dec (h : Option PHandle) (panicking : Bool)
  /-- The loop that wakes the tasks (lines 267-270). -/
  | wakeAll (h : Option PHandle) (panicking : Bool)
  /-- `release_conn`, about to decrement `ongoing` (line 35). -/
  | release
  /-- The loop of `release_conn` (lines 36-38). -/
  | releaseWake
  /-- Returned. -/
  | done (e : End)
deriving DecidableEq, Repr

/-- `Inner`, /repo/src/pool/mod.rs:24-31, with the calls in progress (`threads`) and the handles of the users (`out`).
`new` is a queue of capacity one, `idle` one of capacity `max` (lines 161-168). `nextId` numbers the connections; `addrs` records
the results of `get_addr` and `woken` the calls of `wake`: these three are there to state properties only. -/
structure St where
  new : Option Opening
  idle : List PHandle
  tasks : List Nat
  ongoing : Nat
  connectionsNum : Nat
  threads : List Pc
  out : List UHandle
  nextId : Nat
  addrs : List Nat
  woken : List Nat

/-- `Pool::new`, /repo/src/pool/mod.rs:132-176: the limits and the number of hosts. `none` is an options source that fails
(line 149). The warning of lines 152-159 is left out. -/
def Cfg.new : Option Options → Cfg
  | some o => ⟨o.poolMin, o.poolMax, 1 + o.altHosts.length⟩
  | none => ⟨5, 10, 0⟩

/-- The state made by `Pool::new`, /repo/src/pool/mod.rs:161-168. -/
def St.init : St := ⟨none, [], [], 0, 0, [], [], 0, [], []⟩

/-- `get_addr`, /repo/src/pool/mod.rs:272-276: the index of the host and the new value of the counter. `none` is the panic of
`index % 0`. -/
def getAddr (hosts num : Nat) : Option (Nat × Nat) :=
  if hosts = 0 then none else some (num % hosts, incr num)

/-- What polling the future of `Client::open` (/repo/src/lib.rs:260-301) comes to. `refused` is the failure of the options
source, before an address is asked for (line 261). -/
inductive Outcome where
  | ready
  | pending
  | failed
  | refused
deriving DecidableEq, Repr

/-- `poll_unpin` of the future, /repo/src/pool/mod.rs:225: the first time it asks for an address
(/repo/src/lib.rs:273-276); then its result decides between the three branches of lines 226-237. -/
def pollOpening (cfg : Cfg) (s : St) (task : Nat) (f : Opening) (o : Outcome) : St × Pc :=
  if f.asked = false ∧ o = .refused then (s, .done (.failed task))
  else
    match (if f.asked then some (s, f) else
        (getAddr cfg.hosts s.connectionsNum).map fun (a, n) =>
          ({ s with connectionsNum := n, addrs := s.addrs ++ [a] }, { f with asked := true })) with
    | none => (s, .done .panicked)
    | some (s, f) =>
      match o with
      | .ready => (s, .opened task ⟨⟨f.id, true⟩, .detached⟩)
      | .pending => (s, .notYet task { f with waker := some task })
      | _ => (s, .done (.failed task))

/-- One step of a call: one access to the shared state. Lines as in `Pc`. -/
def stepPc (cfg : Cfg) (s : St) (o : Outcome) : Pc → St × Pc
  | .poll t =>
    match s.new with
    | some f => ({ s with new := none }, .polling t f)
    | none => (s, .take t)
  | .polling t f => pollOpening cfg s t f o
  | .opened t h =>
    if s.idle.length < cfg.max then ({ s with idle := s.idle ++ [h] }, .take t)
    else (s, .giveBack h true)
  | .notYet t f =>
    match s.new with
    | none => ({ s with new := some f }, .take t)
    | some _ => (s, .take t)
  | .take t =>
    match s.idle with
    | h :: idle => ({ s with idle := idle }, .taken t ⟨{ h.conn with inside := false }, .attached⟩)
    | [] => (s, .count t)
  | .taken t h => ({ s with ongoing := incr s.ongoing, out := s.out ++ [⟨some h.conn, h.binding⟩] }, .done (.handed t))
  | .count t => (s, .countNew t s.new.toList.length)
  | .countNew t n => (s, .countOngoing t n s.ongoing)
  | .countOngoing t n g =>
    if usize ≤ n + s.idle.length + g then (s, .done .panicked)
    else if n + s.idle.length + g < cfg.max then (s, .create t)
    else (s, .wait t)
  | .create t =>
    match s.new with
    | none => ({ s with new := some ⟨s.nextId, false, none⟩, nextId := s.nextId + 1 }, .poll t)
    | some _ => (s, .wait t)
  | .wait t => ({ s with tasks := s.tasks ++ [t] }, .done (.pending t))
  | .giveBack h p =>
    if s.idle.length < cfg.min ∧ h.binding = .attached then (s, .store ⟨{ h.conn with inside := true }, .none⟩ p)
    else (s, .dec (some ⟨{ h.conn with inside := true }, .none⟩) p)
  | .store h p =>
    if s.idle.length < cfg.max then ({ s with idle := s.idle ++ [h] }, .dec none p)
    else (s, .dec none p)
  | .dec h p => ({ s with ongoing := decr s.ongoing }, .wakeAll h p)
  | .wakeAll h p =>
    match s.tasks with
    | t :: tasks => ({ s with tasks := tasks, woken := s.woken ++ [t] }, .wakeAll h p)
    | [] => (s, .done (if p then .overflowed else .finished))
  | .release => ({ s with ongoing := decr s.ongoing }, .releaseWake)
  | .releaseWake =>
    match s.tasks with
    | t :: tasks => ({ s with tasks := tasks, woken := s.woken ++ [t] }, .releaseWake)
    | [] => (s, .done .finished)
  | .done e => (s, .done e)

/-- The transport is dropped: `Drop for TransportStatus`, /repo/src/io/transport.rs:128-140. The socket is closed first (it is
the first field, lines 37-59). The pool is taken to exist still (line 136). -/
def dropConn (c : PConn) : List Pc := if c.inside then [] else [.release]

/-- `Drop for ClientHandle`, /repo/src/pool/mod.rs:279-295: without a connection nothing happens; without a pool the transport
is dropped; otherwise `return_conn`. -/
def dropHandle (h : UHandle) : List Pc :=
  match h.conn, h.binding with
  | none, _ => []
  | some c, .none => dropConn c
  | some c, b => [.giveBack ⟨c, b⟩ false]

/-- What can happen. -/
inductive Ev where
  /-- A task polls a `GetHandle` (/repo/src/pool/futures/get_handle.rs:27-29). -/
  | poll (task : Nat)
  /-- The `i`-th call goes on; the outcome is used when it polls a future. -/
  | run (i : Nat) (o : Outcome)
  /-- The user drops a handle. -/
  | drop (j : Nat)
  /-- An operation on a handle fails, or is dropped, and its transport with it. -/
  | lose (j : Nat)
  /-- An operation changes the binding of the handle (`attach`, `detach`, or the panic of either: /repo/src/pool/mod.rs:84-96). -/
  | rebind (j : Nat) (b : Binding)
  /-- The socket of the connection being opened makes progress: the task that polled it last is woken. -/
  | io

/-- One event; `none` when it cannot happen. -/
def step (cfg : Cfg) (s : St) : Ev → Option St
  | .poll t => some { s with threads := s.threads ++ [.poll t] }
  | .run i o =>
    match s.threads[i]? with
    | none => none
    | some (.done _) => none
    | some pc =>
      let (s', pc') := stepPc cfg s o pc
      some { s' with threads := s.threads.set i pc' }
  | .drop j =>
    match s.out[j]? with
    | none => none
    | some h => some { s with out := s.out.set j ⟨none, .none⟩, threads := s.threads ++ dropHandle h }
  | .lose j =>
    match s.out[j]? with
    | some ⟨some c, b⟩ => some { s with out := s.out.set j ⟨none, b⟩, threads := s.threads ++ dropConn c }
    | _ => none
  | .rebind j b =>
    match s.out[j]? with
    | some h => if b = .none ∨ h.binding ≠ .none then some { s with out := s.out.set j { h with binding := b } } else none
    | none => none
  | .io =>
    match s.new with
    | some ⟨_, _, some t⟩ => some { s with woken := s.woken ++ [t] }
    | _ => none

end CH.Pool
