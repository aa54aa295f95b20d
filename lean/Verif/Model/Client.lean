import Verif.Model.Transport
import Verif.Model.Insert

/-!
Model of the client operations: /repo/src/lib.rs, /repo/src/types/query_result/, /repo/src/retry_guard.rs, and the part of
/repo/src/io/transport.rs written as `async` loops over packet streams (`clear`, `read_block`).

The operations only see the results of awaiting packet streams. A connection is therefore represented by what it will give
when packets are awaited (that this is the decoding of the received bytes, whatever the schedule, is C70): the packets
already on their way, and the server, an arbitrary function from the commands received so far to what it sends because of the
last of them. An operation for which nothing more comes waits; if the operation's future
is dropped there (timeout, cancellation), the state left behind is the one shown.
-/

namespace CH

/-- What awaiting a packet can give besides waiting: a packet, an error (socket failure or undecodable message), the end of the
connection. -/
inductive Inc where
  | packet (p : Packet)
  | error (e : Err)
  | closed

/-- A connection (`ClickhouseTransport`, /repo/src/io/transport.rs:37-59) as the operations see it. `sent` is the log of the
commands issued. -/
structure Conn where
  /-- on its way already -/
  incoming : List Inc
  /-- what the server sends upon the last of the commands it has received on this connection -/
  server : List Cmd → List Inc
  inconsistent : Bool
  sent : List Cmd

/-- Errors of the operations, /repo/src/errors/mod.rs. -/
inductive OpErr where
  /-- `Error::Server` -/
  | server (e : ServerError)
  /-- `Error::Io` -/
  | io
  /-- `DriverError::UnexpectedPacket` -/
  | unexpectedPacket
  /-- `ConnectionError::Broken` -/
  | broken
  /-- the timeout of `ping` or of connecting -/
  | timeout
  /-- `ErrorKind::UnexpectedEof` -/
  | eof
  /-- "Attempt to read from broken transport" -/
  | readBroken
  /-- connecting failed -/
  | connect
  /-- any other error of a computation -/
  | other (e : Err)

/-- Result of an operation; `waits` means it is still waiting when nothing more comes (the server is silent). -/
inductive OpRes (α : Type) where
  | ok (a : α)
  | err (e : OpErr)
  | panic
  | waits

/-! ### Packet streams, awaited -/

/-- `PacketStream` (/repo/src/io/transport.rs:73-77) over a `Conn`; `finished` is the state `Done`. -/
structure CStream where
  conn : Option Conn
  finished : Bool
  readBlock : Bool

/-- `call`, /repo/src/io/transport.rs:401-408. -/
def Conn.call (c : Conn) (cmd : Cmd) : CStream :=
  ⟨some { c with incoming := c.incoming ++ c.server (c.sent ++ [cmd]), sent := c.sent ++ [cmd] }, false, false⟩

/-- Result of `stream.next().await`. -/
inductive CItem where
  | item (p : Packet) (conn : Option Conn)
  | error (e : Err)
  | ended
  | waits

/-- `stream.next().await`: `PacketStream::poll_next` (/repo/src/io/transport.rs:330-397) until it is ready. -/
def CStream.next (s : CStream) : CItem × CStream :=
  match s.conn with
  | none => (.ended, s)
  | some c =>
    if s.finished then (.item .eof (some c), { s with conn := none })
    else
      match c.incoming with
      | [] => (.waits, s)
      | .packet p :: rest =>
        let c := { c with incoming := rest }
        if p.takesConn then (.item p (some c), { s with conn := none })
        else (.item p none, { s with conn := some c, finished := s.readBlock && p.isBlock })
      | .error e :: rest => (.error e, { s with conn := some { c with incoming := rest } })
      | .closed :: rest => (.ended, { s with conn := some { c with incoming := rest } })

/-- How many more items a stream can give. -/
def CStream.fuel (s : CStream) : Nat :=
  match s.conn with
  | none => 0
  | some c => c.incoming.length + 1

theorem CStream.next_item {s s' : CStream} {p : Packet} {c : Option Conn} (h : s.next = (.item p c, s')) : s'.fuel < s.fuel := by
  unfold CStream.next at h
  unfold CStream.fuel
  split at h
  · simp at h
  · next c0 hc =>
    split at h
    · simp only [Prod.mk.injEq] at h; obtain ⟨_, rfl⟩ := h; simp
    · split at h
      · simp at h
      · next hi =>
        simp only at h
        split at h
        all_goals
          simp only [Prod.mk.injEq] at h
          obtain ⟨_, rfl⟩ := h
          simp [hi]
      · simp at h
      · simp at h

theorem CStream.next_error {s s' : CStream} {e : Err} (h : s.next = (.error e, s')) : s'.fuel < s.fuel := by
  unfold CStream.next at h
  unfold CStream.fuel
  split at h
  · simp at h
  · next c0 hc =>
    split at h
    · simp at h
    · split at h
      · simp at h
      · simp only at h; split at h <;> simp at h
      · next hi =>
        simp only [Prod.mk.injEq] at h
        obtain ⟨_, rfl⟩ := h
        simp [hi]
      · simp at h

/-- How a loop over a packet stream ended. -/
inductive LoopEnd (σ : Type) where
  /-- the stream ended; the loop variables -/
  | fell (s : σ)
  /-- `return Err(..)` -/
  | failed (e : OpErr)
  | waits

/-- `while let Some(packet) = stream.next().await { match packet {..} }`: `f` is the body, giving new values of the loop
variables or an error to return. -/
def CStream.loop (f : σ → Except Err (Packet × Option Conn) → σ ⊕ OpErr) (v : σ) (s : CStream) : LoopEnd σ :=
  match _h : s.next with
  | (.ended, _) => .fell v
  | (.waits, _) => .waits
  | (.item p c, s') =>
    match f v (.ok (p, c)) with
    | .inl v => CStream.loop f v s'
    | .inr e => .failed e
  | (.error e, s') =>
    match f v (.error e) with
    | .inl v => CStream.loop f v s'
    | .inr e => .failed e
termination_by s.fuel
decreasing_by
  · exact CStream.next_item _h
  · exact CStream.next_error _h

/-! ### Operations on a connection -/

/-- Body of the loop of `clear`, /repo/src/io/transport.rs:111-119. What stands for the connection in this and the other bodies of loops
is a parameter: `Conn` here, a connection with its socket in `Model/Socket`. -/
def clearBody {κ : Type} (v : Option κ) : Except Err (Packet × Option κ) → Option κ ⊕ OpErr
  | .ok (.pong, c) => .inl c
  | .ok (.eof, c) => .inl c
  | .ok (.exception e, _) => .inr (.server e)
  | .error _ => .inr .io
  | .ok _ => .inl v

/-- `clear`, /repo/src/io/transport.rs:102-125. -/
def Conn.clear (c : Conn) : OpRes Conn :=
  if !c.inconsistent then .ok c
  else
    match (c.call .cancel).loop clearBody none with
    | .fell (some c) => .ok { c with inconsistent := false }
    | .fell none => .panic
    | .failed e => .err e
    | .waits => .waits

/-- Body of the loop of `read_block`, /repo/src/io/transport.rs:309-316. -/
def readBlockBody {κ : Type} (v : Option κ × Option Block) : Except Err (Packet × Option κ) → (Option κ × Option Block) ⊕ OpErr
  | .ok (.eof, c) => .inl (c, v.2)
  | .ok (.block b, _) => .inl (v.1, some b)
  | .ok (.exception e, _) => .inr (.server e)
  | .ok (.tableColumns _ _, _) => .inl v
  | .error _ => .inr .io
  | .ok _ => .inr .unexpectedPacket

/-- `read_block`, /repo/src/io/transport.rs:303-320. -/
def CStream.readOneBlock (s : CStream) : OpRes (Conn × Option Block) :=
  match CStream.loop readBlockBody (none, none) { s with readBlock := true } with
  | .fell (some c, b) => .ok (c, b)
  | .fell (none, _) => .panic
  | .failed e => .err e
  | .waits => .waits

/-- Body of the loop of `execute_`, /repo/src/lib.rs:414-422. -/
def executeBody {κ : Type} (v : Option κ) : Except Err (Packet × Option κ) → Option κ ⊕ OpErr
  | .ok (.eof, c) => .inl c
  | .ok (.block _, _) => .inl v
  | .ok (.profileInfo _, _) => .inl v
  | .ok (.progress _, _) => .inl v
  | .ok (.exception e, _) => .inr (.server e)
  | .error _ => .inr .io
  | .ok _ => .inr .unexpectedPacket

/-- The inner future of `execute_`, /repo/src/lib.rs:406-426. -/
def Conn.execute (c : Conn) (q : Query) (ctx : Context) : OpRes Conn :=
  match c.clear with
  | .err e => .err e
  | .panic => .panic
  | .waits => .waits
  | .ok c =>
    match (c.call (.sendQuery q ctx)).loop executeBody none with
    | .fell (some c) => .ok c
    | .fell none => .panic
    | .failed e => .err e
    | .waits => .waits

/-- `send_insert_query_`, /repo/src/lib.rs:494-503. -/
def Conn.sendInsertQuery (c : Conn) (ctx : Context) (q : Query) : OpRes (Conn × Block) :=
  match (c.call (.sendQuery q ctx)).readOneBlock with
  | .ok (c, some b) => .ok (c, b)
  | .ok (_, none) => .panic
  | .err e => .err e
  | .panic => .panic
  | .waits => .waits

/-- `insert_block_`, /repo/src/lib.rs:505-516. -/
def Conn.insertBlock (c : Conn) (ctx : Context) (b : Block) : OpRes Conn :=
  match (c.call (.union (.sendData b ctx) (.sendData Block.new ctx))).readOneBlock with
  | .ok (c, _) => .ok c
  | .err e => .err e
  | .panic => .panic
  | .waits => .waits

/-- `insert_tail_`, /repo/src/lib.rs:480-492. The chunks still to be sent are given as a list (`ChunkIter.rest`). -/
def Conn.insertTail (c : Conn) (ctx : Context) (q : Query) : List Block → OpRes Conn
  | [] => .ok c
  | b :: bs =>
    match c.sendInsertQuery ctx q with
    | .ok (c, _) =>
      match c.insertBlock ctx b with
      | .ok c => Conn.insertTail c ctx q bs
      | .err e => .err e
      | .panic => .panic
      | .waits => .waits
    | .err e => .err e
    | .panic => .panic
    | .waits => .waits

/-- All chunks of a block (`chunks(n)` collected), /repo/src/types/block/chunk_iterator.rs:14-37. `fuel` bounds the number of
chunks; the number of rows plus one is enough unless the size is zero. -/
def chunkList : Nat → ChunkIter → Out (List Block)
  | 0, _ => .ok []
  | fuel + 1, it => do
    let o ← it.next
    match o with
    | none => pure []
    | some (b, it) => do
      let bs ← chunkList fuel it
      pure (b :: bs)

/-- `INSERT_BLOCK_SIZE`, /repo/src/types/block/mod.rs:37. -/
def insertBlockSize : Nat := 1048576

/-- The chunks an INSERT sends, /repo/src/lib.rs:466-471. -/
def insertChunks (b : Block) : Out (List Block) := do
  let n ← b.rowCount
  chunkList (n + 1) (b.chunks insertBlockSize)

/-- The inner future of `insert_`, /repo/src/lib.rs:459-472. `cast` is `Block::cast_to`
(/repo/src/types/block/mod.rs:305-327), modelled separately. -/
def Conn.insert (cast : Block → Block → Out Block) (c : Conn) (q : Query) (ctx : Context) (b : Block) : OpRes Conn :=
  match c.clear with
  | .err e => .err e
  | .panic => .panic
  | .waits => .waits
  | .ok c =>
    match c.sendInsertQuery ctx q with
    | .err e => .err e
    | .panic => .panic
    | .waits => .waits
    | .ok (c, dst) =>
      match cast b dst with
      | .err e => .err (.other e)
      | .panic => .panic
      | .ok b =>
        match insertChunks b with
        | .ok (ch :: chs) =>
          match c.insertBlock ctx ch with
          | .ok c => c.insertTail ctx q chs
          | .err e => .err e
          | .panic => .panic
          | .waits => .waits
        | .ok [] => .panic
        | .err _ => .panic
        | .panic => .panic

/-! ### Handles -/

/-- `PoolBinding`, /repo/src/pool/mod.rs:50-54. -/
inductive Binding where
  | none
  | attached
  | detached
deriving DecidableEq, Repr

/-- `ClientHandle`, /repo/src/lib.rs:243-247. -/
structure Handle where
  inner : Option Conn
  context : Context
  binding : Binding

/-- `attach`, /repo/src/pool/mod.rs:84-89: `none` is the panic (`unreachable!()`). -/
def Binding.attach : Binding → Option Binding
  | .detached => some .attached
  | _ => Option.none

/-- `detach`, /repo/src/pool/mod.rs:91-96. -/
def Binding.detach : Binding → Option Binding
  | .attached => some .detached
  | _ => Option.none

/-- Body of the loop of `hello`, /repo/src/lib.rs:314-323. -/
def helloBody (v : Option (Conn × ServerInfo)) : Except Err (Packet × Option Conn) → Option (Conn × ServerInfo) ⊕ OpErr
  | .ok (.hello i, some c) => .inl (some (c, i))
  | .ok (.hello _, none) => .inl v
  | .ok (.exception e, _) => .inr (.server e)
  | .error _ => .inr .io
  | .ok _ => .inr .unexpectedPacket

/-- `hello`, /repo/src/lib.rs:305-329. A greeting always carries the connection. -/
def Handle.hello (h : Handle) : OpRes Unit × Handle :=
  match h.inner with
  | none => (.panic, h)
  | some c =>
    match (c.call (.hello h.context)).loop helloBody none with
    | .fell (some (c, i)) => (.ok (), { h with inner := some c, context := { h.context with revision := i.revision } })
    | .fell none => (.panic, { h with inner := none })
    | .failed e => (.err e, { h with inner := none })
    | .waits => (.waits, { h with inner := none })

/-- Body of the loop of `ping`, /repo/src/lib.rs:344-352. -/
def pingBody {κ : Type} (_ : Option κ) : Except Err (Packet × Option κ) → Option κ ⊕ OpErr
  | .ok (.pong, c) => .inl c
  | .ok (.exception e, _) => .inr (.server e)
  | .error _ => .inr .io
  | .ok _ => .inr .unexpectedPacket

/-- `ping`, /repo/src/lib.rs:331-366. A silent server makes it end with its timeout. -/
def Handle.ping (h : Handle) : OpRes Unit × Handle :=
  match h.inner with
  | none => (.err .broken, h)
  | some c =>
    let h := { h with inner := none }
    match c.clear with
    | .err e => (.err e, h)
    | .panic => (.panic, h)
    | .waits => (.err .timeout, h)
    | .ok c =>
      match (c.call .ping).loop pingBody none with
      | .fell (some c) => (.ok (), { h with inner := some c })
      | .fell none => (.err .broken, h)
      | .failed e => (.err e, h)
      | .waits => (.err .timeout, h)

/-- What reconnecting will give, in order: a fresh connection that has exchanged greetings, or a failure. A script that has run
out makes the operation wait. -/
abbrev World := List (Option Conn)

/-- The loop of `retry_guard`, /repo/src/retry_guard.rs:14-52, with its variables. Every round but the last uses up one
reconnection (`reconnect`, lines 58-66): for a handle of a pool the new handle comes from `get_handle` and is attached
(/repo/src/pool/mod.rs:244-253); without a pool its binding is `None`. The old handle is dropped (the pool's accounting is
modelled separately). The new handle has the same options; its context is
taken to be that of the old one, `retryLoopC` (Model/Reopen) gives it the context of its own server, see C93. -/
def retryLoop (pooled : Bool) (maxAttempt : Nat) (attempt : Nat) (skip : Bool) (h : Handle) (w : World) :
    OpRes Unit × Handle × World :=
  match (if skip then (OpRes.err OpErr.connect, h) else h.ping) with
  | (.ok (), h) => (.ok (), h, w)
  | (.panic, h) => (.panic, h, w)
  | (.waits, h) => (.waits, h, w)
  | (.err e, h) =>
    if !skip && maxAttempt ≤ attempt then (.err e, h, w)
    else
      match w with
      | [] => (.waits, h, [])
      | none :: w =>
        if maxAttempt ≤ attempt then (.err .connect, h, w) else retryLoop pooled maxAttempt (attempt + 1) true h w
      | some c :: w =>
        retryLoop pooled maxAttempt attempt false { h with inner := some c, binding := if pooled then .attached else .none } w
termination_by w.length

/-- `retry_guard`, /repo/src/retry_guard.rs:7-52. -/
def retryGuard (pooled : Bool) (maxAttempt : Nat) (h : Handle) (w : World) : OpRes Unit × Handle × World :=
  retryLoop pooled maxAttempt 0 false h w

/-- `check_connection`, /repo/src/lib.rs:575-593. -/
def Handle.checkConnection (h : Handle) (w : World) : OpRes Unit × Handle × World :=
  match h.binding.detach with
  | none => (.panic, { h with binding := .none }, w)
  | some b =>
    match retryGuard true h.context.options.sendRetries { h with binding := b } w with
    | (.ok (), h, w) => (.ok (), { h with binding := if h.binding = .detached then .attached else h.binding }, w)
    | r => r

/-- `wrap_future`, /repo/src/lib.rs:530-542. -/
def Handle.precheck (h : Handle) (w : World) : OpRes Unit × Handle × World :=
  if h.context.options.pingBeforeQuery then h.checkConnection w else (.ok (), h, w)

/-- `execute`, /repo/src/lib.rs:381-433. -/
def Handle.execute (h : Handle) (q : Query) (w : World) : OpRes Unit × Handle × World :=
  match h.precheck w with
  | (.ok (), h, w) =>
    match h.inner with
    | none => (.err .broken, h, w)
    | some c =>
      match c.execute q h.context with
      | .ok c => (.ok (), { h with inner := some c }, w)
      | .err e => (.err e, { h with inner := none }, w)
      | .panic => (.panic, { h with inner := none }, w)
      | .waits => (.waits, { h with inner := none }, w)
  | r => r

/-- `insert`, /repo/src/lib.rs:436-478. -/
def Handle.insert (numeric : Char → Bool) (cast : Block → Block → Out Block) (h : Handle) (table : Query) (b : Block) (w : World) :
    OpRes Unit × Handle × World :=
  match makeQuery numeric table b with
  | .err e => (.err (.other e), h, w)
  | .panic => (.panic, h, w)
  | .ok q =>
    match h.precheck w with
    | (.ok (), h, w) =>
      match h.inner with
      | none => (.err .broken, h, w)
      | some c =>
        match c.insert cast q h.context b with
        | .ok c => (.ok (), { h with inner := some c }, w)
        | .err e => (.err e, { h with inner := none }, w)
        | .panic => (.panic, { h with inner := none }, w)
        | .waits => (.waits, { h with inner := none }, w)
    | r => r

/-! ### Query streams -/

/-- `BlockStreamState`, /repo/src/types/query_result/stream_blocks.rs:27-34. -/
inductive BState where
  | reading
  | finished
  | error
deriving DecidableEq, Repr

/-- `BlockStream`, /repo/src/types/query_result/stream_blocks.rs:18-24; the borrowed handle is passed along. -/
structure BStream where
  inner : CStream
  state : BState
  blockIndex : Nat
  skipFirst : Bool

/-- `BlockStream::new`, /repo/src/types/query_result/stream_blocks.rs:58-70. -/
def BStream.new (inner : CStream) (skipFirst : Bool) : BStream := ⟨inner, .reading, 0, skipFirst⟩

/-- `stream_blocks_`, /repo/src/types/query_result/mod.rs:83-97 with `wrap_stream`, /repo/src/lib.rs:544-572. On failure the
user gets a stream of one error. -/
def Handle.openStream (h : Handle) (q : Query) (skipFirst : Bool) (w : World) : OpRes BStream × Handle × World :=
  match h.precheck w with
  | (.ok (), h, w) =>
    match h.binding.detach with
    | none => (.panic, { h with binding := .none }, w)
    | some b =>
      match h.inner with
      | none => (.err .broken, { h with binding := b }, w)
      | some c => (.ok (BStream.new (c.call (.sendQuery q h.context)) skipFirst), { h with inner := none, binding := b }, w)
  | (.err e, h, w) => (.err e, h, w)
  | (.panic, h, w) => (.panic, h, w)
  | (.waits, h, w) => (.waits, h, w)

/-- What awaiting the next block gives. -/
inductive BItem where
  | block (b : Block)
  | err (e : OpErr)
  | ended
  | panic
  | waits

/-- `Block::is_empty`, /repo/src/types/block/mod.rs:248-250. -/
def Block.isEmpty (b : Block) : Bool := b.columns.isEmpty

/-- `BlockStream::poll_next` until ready, /repo/src/types/query_result/stream_blocks.rs:76-122, from state `Reading`. -/
def BStream.read (s : BStream) (h : Handle) : BItem × BStream × Handle :=
  match _h : s.inner.next with
  | (.waits, i) => (.waits, { s with inner := i }, h)
  | (.ended, i) => (.err .eof, { s with inner := i, state := .error }, h)
  | (.error _, i) => (.err .io, { s with inner := i }, h)
  | (.item .eof conn, i) =>
    let h := { h with inner := conn }
    if h.binding = .attached then (.ended, { s with inner := i, state := .finished }, h)
    else
      match h.binding.attach with
      | some b => (.ended, { s with inner := i, state := .finished }, { h with binding := b })
      | none => (.panic, { s with inner := i }, { h with binding := .none })
  | (.item (.profileInfo _) _, i) => BStream.read { s with inner := i } h
  | (.item (.progress _) _, i) => BStream.read { s with inner := i } h
  | (.item (.exception e) _, i) => (.err (.server e), { s with inner := i, state := .finished }, h)
  | (.item (.block b) _, i) =>
    if (s.blockIndex + 1 > 1 || !s.skipFirst) && !b.isEmpty then
      (.block b, { s with inner := i, blockIndex := s.blockIndex + 1 }, h)
    else BStream.read { s with inner := i, blockIndex := s.blockIndex + 1 } h
  | (.item _ _, i) => (.err .unexpectedPacket, { s with inner := i }, h)
termination_by s.inner.fuel
decreasing_by
  all_goals exact CStream.next_item _h

/-- Awaiting the next block, /repo/src/types/query_result/stream_blocks.rs:76-122. -/
def BStream.next (s : BStream) (h : Handle) : BItem × BStream × Handle :=
  match s.state with
  | .reading => s.read h
  | .finished => (.ended, s, h)
  | .error => (.err .readBroken, s, h)

/-- `Drop for BlockStream`, /repo/src/types/query_result/stream_blocks.rs:36-55; `none` is a panic. -/
def BStream.drop (s : BStream) (h : Handle) : Option Handle :=
  match s.state with
  | .reading =>
    match (if h.binding = .attached then some .attached else h.binding.attach) with
    | none => none
    | some b =>
      match s.inner.conn with
      | some c => some { h with binding := b, inner := some { c with inconsistent := true } }
      | none => some { h with binding := b }
  | _ => some h

end CH
