import Verif.Spec.Refine

/-!
The operations of `Model/Client` again, over a connection with its socket (`Transport`, `PStream`) in place of the connection that
gives decoded messages (`Conn`, `CStream`): /repo/src/lib.rs, /repo/src/retry_guard.rs, /repo/src/io/transport.rs and
/repo/src/types/query_result/stream_blocks.rs. What an operation gives is a relation, because it polls its stream until it is ready
(`AwaitsS`), which need not happen. A panic inside the parser, a panic while encoding and an operation that never
comes to an end have no result here, and so a `ping` has no timeout.
-/

namespace CH
open CH.Spec

/-- The writing side of a socket: what it will do upon further writes, and the bytes it has taken so far
(`poll_write` in `wr_flush`, /repo/src/io/transport.rs:213-237). -/
structure Writer where
  evs : List WriteEv
  out : Bytes

/-- A connection (/repo/src/io/transport.rs:37-59) with all that its socket will do. -/
structure Sock where
  t : Transport
  revs : List ReadEv
  writer : Writer

/-- `stream.next().await` (e.g. /repo/src/lib.rs:411), polling the stream (/repo/src/io/transport.rs:330-397) until it is ready. -/
inductive AwaitsS (env : Env) : PStream → List ReadEv → Writer → PPoll → PStream → List ReadEv → Writer → Prop where
  | ready {s s' revs left w wleft r out} (h : s.pollNext env revs w.evs = (r, out, s', left, wleft)) (hr : r ≠ .pending) :
      AwaitsS env s revs w r s' left ⟨wleft, w.out ++ out⟩
  | again {s s' s1 revs left revs1 w wleft wevs1 r out} (h : s.pollNext env revs w.evs = (.pending, out, s1, revs1, wevs1))
      (t : AwaitsS env s1 revs1 ⟨wevs1, w.out ++ out⟩ r s' left wleft) : AwaitsS env s revs w r s' left wleft

/-- `while let Some(packet) = stream.next().await { match packet {..} }` with the body `f`, as `CStream.loop`. A failure of the
socket and a message that cannot be decoded are both an error to the body (/repo/src/io/transport.rs:354-374). -/
inductive LoopS {σ : Type} (env : Env) (f : σ → Except Err (Packet × Option Sock) → σ ⊕ OpErr) :
    σ → PStream → List ReadEv → Writer → LoopEnd σ → Prop where
  | ended {v s revs wevs s' left wleft} (h : AwaitsS env s revs wevs .ended s' left wleft) : LoopS env f v s revs wevs (.fell v)
  | item {v v' s revs wevs s' left wleft p t r} (h : AwaitsS env s revs wevs (.item p t) s' left wleft)
      (hf : f v (.ok (p, t.map (Sock.mk · left wleft))) = .inl v') (hl : LoopS env f v' s' left wleft r) : LoopS env f v s revs wevs r
  | itemStop {v s revs wevs s' left wleft p t e} (h : AwaitsS env s revs wevs (.item p t) s' left wleft)
      (hf : f v (.ok (p, t.map (Sock.mk · left wleft))) = .inr e) : LoopS env f v s revs wevs (.failed e)
  | bad {v v' s revs wevs s' left wleft e r} (h : AwaitsS env s revs wevs (.bad e) s' left wleft) (hf : f v (.error e) = .inl v')
      (hl : LoopS env f v' s' left wleft r) : LoopS env f v s revs wevs r
  | badStop {v s revs wevs s' left wleft e e'} (h : AwaitsS env s revs wevs (.bad e) s' left wleft) (hf : f v (.error e) = .inr e') :
      LoopS env f v s revs wevs (.failed e')
  | broken {v v' s revs wevs s' left wleft r} (e : Err) (h : AwaitsS env s revs wevs .broken s' left wleft) (hf : f v (.error e) = .inl v')
      (hl : LoopS env f v' s' left wleft r) : LoopS env f v s revs wevs r
  | brokenStop {v s revs wevs s' left wleft e'} (e : Err) (h : AwaitsS env s revs wevs .broken s' left wleft)
      (hf : f v (.error e) = .inr e') : LoopS env f v s revs wevs (.failed e')

/-- A step of an `async` function after another: `P` holds of the results of the first, `Q a` of those of the second, given the value
`a` of the first. Errors are passed on (`?`), a panic ends the whole. -/
inductive Then {α β : Type} (P : OpRes α → Prop) (Q : α → OpRes β → Prop) : OpRes β → Prop where
  | ok {a r} (h : P (.ok a)) (hq : Q a r) : Then P Q r
  | err {e} (h : P (.err e)) : Then P Q (.err e)
  | panic (h : P .panic) : Then P Q .panic

/-- What follows a loop: `h.unwrap()` of the connection, as in /repo/src/lib.rs:425. -/
inductive Unwrap {κ : Type} (P : LoopEnd (Option κ) → Prop) : OpRes κ → Prop where
  | some {k} (h : P (.fell (some k))) : Unwrap P (.ok k)
  | none (h : P (.fell none)) : Unwrap P .panic
  | failed {e} (h : P (.failed e)) : Unwrap P (.err e)

/-! ### Operations on a connection -/

/-- `clear`, /repo/src/io/transport.rs:102-125. -/
def ClearS (env : Env) (k : Sock) (r : OpRes Sock) : Prop :=
  if k.t.inconsistent then
    Then (Unwrap (LoopS env clearBody none (k.t.call .cancel) k.revs k.writer))
      (fun k r => r = .ok { k with t := { k.t with inconsistent := false } }) r
  else r = .ok k

/-- `call` and `read_block`, /repo/src/io/transport.rs:303-320, 401-408. -/
inductive ReadOneS (env : Env) (k : Sock) (cmd : Cmd) : OpRes (Sock × Option Block) → Prop where
  | done {k' b} (h : LoopS env readBlockBody (none, none) { k.t.call cmd with readBlock := true } k.revs k.writer (.fell (some k', b))) :
      ReadOneS env k cmd (.ok (k', b))
  | lost {b} (h : LoopS env readBlockBody (none, none) { k.t.call cmd with readBlock := true } k.revs k.writer (.fell (none, b))) :
      ReadOneS env k cmd .panic
  | failed {e} (h : LoopS env readBlockBody (none, none) { k.t.call cmd with readBlock := true } k.revs k.writer (.failed e)) :
      ReadOneS env k cmd (.err e)

/-- The inner future of `execute_`, /repo/src/lib.rs:406-426. -/
def ExecuteS (env : Env) (k : Sock) (q : Query) (ctx : Context) : OpRes Sock → Prop :=
  Then (ClearS env k) fun k => Unwrap (LoopS env executeBody none (k.t.call (.sendQuery q ctx)) k.revs k.writer)

/-- `send_insert_query_`, /repo/src/lib.rs:494-503. -/
def SendInsertS (env : Env) (k : Sock) (ctx : Context) (q : Query) : OpRes (Sock × Block) → Prop :=
  Then (ReadOneS env k (.sendQuery q ctx)) fun x r =>
    r = match x with
      | (k, some b) => .ok (k, b)
      | (_, none) => .panic

/-- `insert_block_`, /repo/src/lib.rs:505-516. -/
def InsertBlockS (env : Env) (k : Sock) (ctx : Context) (b : Block) : OpRes Sock → Prop :=
  Then (ReadOneS env k (.union (.sendData b ctx) (.sendData Block.new ctx))) fun x r => r = .ok x.1

/-- `insert_tail_`, /repo/src/lib.rs:480-492, with the chunks as a list. -/
def InsertTailS (env : Env) (ctx : Context) (q : Query) : List Block → Sock → OpRes Sock → Prop
  | [], k => fun r => r = .ok k
  | b :: bs, k => Then (SendInsertS env k ctx q) fun x => Then (InsertBlockS env x.1 ctx b) (InsertTailS env ctx q bs)

/-- The inner future of `insert_`, /repo/src/lib.rs:459-472. -/
def InsertS (env : Env) (cast : Block → Block → Out Block) (k : Sock) (q : Query) (ctx : Context) (b : Block) : OpRes Sock → Prop :=
  Then (ClearS env k) fun k => Then (SendInsertS env k ctx q) fun x r =>
    match cast b x.2 with
    | .err e => r = .err (.other e)
    | .panic => r = .panic
    | .ok b =>
      match insertChunks b with
      | .ok (ch :: chs) => Then (InsertBlockS env x.1 ctx ch) (InsertTailS env ctx q chs) r
      | _ => r = .panic

/-! ### Handles -/

/-- `ClientHandle`, /repo/src/lib.rs:243-247. -/
structure HandleS where
  inner : Option Sock
  context : Context
  binding : Binding

/-- What an operation leaves in the handle it took the connection from: the connection, if it gave it back
(e.g. /repo/src/lib.rs:427-430). -/
inductive PutBack (h : HandleS) (P : OpRes Sock → Prop) : OpRes Unit → HandleS → Prop where
  | ok {k} (hp : P (.ok k)) : PutBack h P (.ok ()) { h with inner := some k }
  | err {e} (hp : P (.err e)) : PutBack h P (.err e) { h with inner := none }
  | panic (hp : P .panic) : PutBack h P .panic { h with inner := none }

/-- The end of `ping`, /repo/src/lib.rs:353-365: without the connection it is broken. -/
inductive PingEnd {κ : Type} (P : LoopEnd (Option κ) → Prop) : OpRes κ → Prop where
  | some {k} (h : P (.fell (some k))) : PingEnd P (.ok k)
  | none (h : P (.fell none)) : PingEnd P (.err .broken)
  | failed {e} (h : P (.failed e)) : PingEnd P (.err e)

/-- `ping`, /repo/src/lib.rs:331-366. -/
def PingS (env : Env) (h : HandleS) (r : OpRes Unit) (h' : HandleS) : Prop :=
  match h.inner with
  | none => r = .err .broken ∧ h' = h
  | some k =>
    PutBack h (Then (ClearS env k) fun k => PingEnd (LoopS env pingBody none (k.t.call .ping) k.revs k.writer)) r h'

/-- What reconnecting will give, as `World`. -/
abbrev WorldS := List (Option Sock)

/-- One attempt of `retry_guard`, /repo/src/retry_guard.rs:14-24: a ping, unless reconnecting has just failed. -/
def AttemptS (env : Env) (skip : Bool) (h : HandleS) (r : OpRes Unit) (h' : HandleS) : Prop :=
  if skip then r = .err .connect ∧ h' = h else PingS env h r h'

/-- The loop of `retry_guard`, /repo/src/retry_guard.rs:14-52, as `retryLoop`. -/
inductive RetryS (env : Env) (pooled : Bool) (max : Nat) : Nat → Bool → HandleS → WorldS → OpRes Unit → HandleS → WorldS → Prop where
  | ok {a skip h w h'} (ha : AttemptS env skip h (.ok ()) h') : RetryS env pooled max a skip h w (.ok ()) h' w
  | panic {a skip h w h'} (ha : AttemptS env skip h .panic h') : RetryS env pooled max a skip h w .panic h' w
  | last {a h w h' e} (ha : AttemptS env false h (.err e) h') (hm : max ≤ a) : RetryS env pooled max a false h w (.err e) h' w
  | refused {a skip h w h' e} (ha : AttemptS env skip h (.err e) h') (hs : skip = true ∨ a < max) (hm : max ≤ a) :
      RetryS env pooled max a skip h (none :: w) (.err .connect) h' w
  | again {a skip h w h' e r h'' w''} (ha : AttemptS env skip h (.err e) h') (hm : a < max)
      (t : RetryS env pooled max (a + 1) true h' w r h'' w'') : RetryS env pooled max a skip h (none :: w) r h'' w''
  | reconnected {a skip h w h' e k r h'' w''} (ha : AttemptS env skip h (.err e) h') (hs : skip = true ∨ a < max)
      (t : RetryS env pooled max a false ⟨some k, h'.context, if pooled then .attached else .none⟩ w r h'' w'') :
      RetryS env pooled max a skip h (some k :: w) r h'' w''

/-- `wrap_future` and `check_connection`, /repo/src/lib.rs:530-542, 575-593. -/
inductive PrecheckS (env : Env) (h : HandleS) (w : WorldS) : OpRes Unit → HandleS → WorldS → Prop where
  | off (hp : h.context.options.pingBeforeQuery = false) : PrecheckS env h w (.ok ()) h w
  | unbound (hp : h.context.options.pingBeforeQuery = true) (hb : h.binding.detach = none) :
      PrecheckS env h w .panic { h with binding := .none } w
  | ok {b h' w'} (hp : h.context.options.pingBeforeQuery = true) (hb : h.binding.detach = some b)
      (hr : RetryS env true h.context.options.sendRetries 0 false { h with binding := b } w (.ok ()) h' w') :
      PrecheckS env h w (.ok ()) { h' with binding := if h'.binding = .detached then .attached else h'.binding } w'
  | failed {b r h' w'} (hp : h.context.options.pingBeforeQuery = true) (hb : h.binding.detach = some b) (hn : r ≠ .ok ())
      (hr : RetryS env true h.context.options.sendRetries 0 false { h with binding := b } w r h' w') : PrecheckS env h w r h' w'

/-- An operation with its check beforehand and a handle that must have a connection (`broken` otherwise). -/
inductive Checked (env : Env) (P : Sock → Context → OpRes Sock → Prop) (h : HandleS) (w : WorldS) : OpRes Unit → HandleS → WorldS → Prop where
  | failed {r h' w'} (hp : PrecheckS env h w r h' w') (hn : r ≠ .ok ()) : Checked env P h w r h' w'
  | gone {h' w'} (hp : PrecheckS env h w (.ok ()) h' w') (hi : h'.inner = none) : Checked env P h w (.err .broken) h' w'
  | done {h1 w' k r h'} (hp : PrecheckS env h w (.ok ()) h1 w') (hi : h1.inner = some k) (hd : PutBack h1 (P k h1.context) r h') :
      Checked env P h w r h' w'

/-- `execute`, /repo/src/lib.rs:381-433. -/
def HandleS.execute (env : Env) (h : HandleS) (q : Query) (w : WorldS) : OpRes Unit → HandleS → WorldS → Prop :=
  Checked env (fun k ctx => ExecuteS env k q ctx) h w

/-- `insert`, /repo/src/lib.rs:436-478. -/
def HandleS.insert (env : Env) (numeric : Char → Bool) (cast : Block → Block → Out Block) (h : HandleS) (table : Query) (b : Block)
    (w : WorldS) (r : OpRes Unit) (h' : HandleS) (w' : WorldS) : Prop :=
  match makeQuery numeric table b with
  | .err e => r = .err (.other e) ∧ h' = h ∧ w' = w
  | .panic => r = .panic ∧ h' = h ∧ w' = w
  | .ok q => Checked env (fun k ctx => InsertS env cast k q ctx b) h w r h' w'

/-! ### Query streams -/

/-- `BlockStream`, /repo/src/types/query_result/stream_blocks.rs:18-24, with what the socket will do. -/
structure BStreamS where
  inner : PStream
  revs : List ReadEv
  writer : Writer
  state : BState
  blockIndex : Nat
  skipFirst : Bool

/-- `stream_blocks_`, /repo/src/types/query_result/mod.rs:83-97 with `wrap_stream`, /repo/src/lib.rs:544-572. -/
inductive OpenS (env : Env) (h : HandleS) (q : Query) (skip : Bool) (w : WorldS) : OpRes BStreamS → HandleS → WorldS → Prop where
  | failed {e h' w'} (hp : PrecheckS env h w (.err e) h' w') : OpenS env h q skip w (.err e) h' w'
  | panic {h' w'} (hp : PrecheckS env h w .panic h' w') : OpenS env h q skip w .panic h' w'
  | unbound {h' w'} (hp : PrecheckS env h w (.ok ()) h' w') (hb : h'.binding.detach = none) :
      OpenS env h q skip w .panic { h' with binding := .none } w'
  | gone {h' w' b} (hp : PrecheckS env h w (.ok ()) h' w') (hb : h'.binding.detach = some b) (hi : h'.inner = none) :
      OpenS env h q skip w (.err .broken) { h' with binding := b } w'
  | opened {h' w' b k} (hp : PrecheckS env h w (.ok ()) h' w') (hb : h'.binding.detach = some b) (hi : h'.inner = some k) :
      OpenS env h q skip w (.ok ⟨k.t.call (.sendQuery q h'.context), k.revs, k.writer, .reading, 0, skip⟩)
        { h' with inner := none, binding := b } w'

/-- `BlockStream::poll_next` until ready, from state `Reading`, /repo/src/types/query_result/stream_blocks.rs:76-122. -/
inductive ReadS (env : Env) : BStreamS → HandleS → BItem → BStreamS → HandleS → Prop where
  | ended {s h i l wl} (ha : AwaitsS env s.inner s.revs s.writer .ended i l wl) :
      ReadS env s h (.err .eof) { s with inner := i, revs := l, writer := wl, state := .error } h
  | bad {s h i l wl e} (ha : AwaitsS env s.inner s.revs s.writer (.bad e) i l wl) :
      ReadS env s h (.err .io) { s with inner := i, revs := l, writer := wl } h
  | broken {s h i l wl} (ha : AwaitsS env s.inner s.revs s.writer .broken i l wl) :
      ReadS env s h (.err .io) { s with inner := i, revs := l, writer := wl } h
  | eof {s h i l wl t} (ha : AwaitsS env s.inner s.revs s.writer (.item .eof t) i l wl) (hb : h.binding = .attached) :
      ReadS env s h .ended { s with inner := i, revs := l, writer := wl, state := .finished } { h with inner := t.map (Sock.mk · l wl) }
  | eofAttach {s h i l wl t b} (ha : AwaitsS env s.inner s.revs s.writer (.item .eof t) i l wl) (hb : h.binding ≠ .attached)
      (hat : h.binding.attach = some b) :
      ReadS env s h .ended { s with inner := i, revs := l, writer := wl, state := .finished } ⟨t.map (Sock.mk · l wl), h.context, b⟩
  | eofPanic {s h i l wl t} (ha : AwaitsS env s.inner s.revs s.writer (.item .eof t) i l wl) (hb : h.binding ≠ .attached)
      (hat : h.binding.attach = none) :
      ReadS env s h .panic { s with inner := i, revs := l, writer := wl } ⟨t.map (Sock.mk · l wl), h.context, .none⟩
  | profile {s h i l wl t x it s' h'} (ha : AwaitsS env s.inner s.revs s.writer (.item (.profileInfo x) t) i l wl)
      (hr : ReadS env { s with inner := i, revs := l, writer := wl } h it s' h') : ReadS env s h it s' h'
  | progress {s h i l wl t x it s' h'} (ha : AwaitsS env s.inner s.revs s.writer (.item (.progress x) t) i l wl)
      (hr : ReadS env { s with inner := i, revs := l, writer := wl } h it s' h') : ReadS env s h it s' h'
  | exception {s h i l wl t e} (ha : AwaitsS env s.inner s.revs s.writer (.item (.exception e) t) i l wl) :
      ReadS env s h (.err (.server e)) { s with inner := i, revs := l, writer := wl, state := .finished } h
  | block {s h i l wl t b} (ha : AwaitsS env s.inner s.revs s.writer (.item (.block b) t) i l wl)
      (hk : ((s.blockIndex + 1 > 1 || !s.skipFirst) && !b.isEmpty) = true) :
      ReadS env s h (.block b) { s with inner := i, revs := l, writer := wl, blockIndex := s.blockIndex + 1 } h
  | skipped {s h i l wl t b it s' h'} (ha : AwaitsS env s.inner s.revs s.writer (.item (.block b) t) i l wl)
      (hk : ((s.blockIndex + 1 > 1 || !s.skipFirst) && !b.isEmpty) = false)
      (hr : ReadS env { s with inner := i, revs := l, writer := wl, blockIndex := s.blockIndex + 1 } h it s' h') : ReadS env s h it s' h'
  | unexpected {s h i l wl t p} (ha : AwaitsS env s.inner s.revs s.writer (.item p t) i l wl) (h1 : p ≠ .eof) (h2 : ∀ x, p ≠ .profileInfo x)
      (h3 : ∀ x, p ≠ .progress x) (h4 : ∀ e, p ≠ .exception e) (h5 : ∀ b, p ≠ .block b) :
      ReadS env s h (.err .unexpectedPacket) { s with inner := i, revs := l, writer := wl } h

/-- Awaiting the next block, /repo/src/types/query_result/stream_blocks.rs:76-122. -/
def NextS (env : Env) (s : BStreamS) (h : HandleS) (it : BItem) (s' : BStreamS) (h' : HandleS) : Prop :=
  match s.state with
  | .reading => ReadS env s h it s' h'
  | .finished => it = .ended ∧ s' = s ∧ h' = h
  | .error => it = .err .readBroken ∧ s' = s ∧ h' = h

/-- `Drop for BlockStream`, /repo/src/types/query_result/stream_blocks.rs:36-55; `none` is a panic. -/
def BStreamS.drop (s : BStreamS) (h : HandleS) : Option HandleS :=
  match s.state with
  | .reading =>
    match (if h.binding = .attached then some .attached else h.binding.attach) with
    | none => none
    | some b =>
      match s.inner.inner with
      | some t => some { h with binding := b, inner := some ⟨{ t with inconsistent := true }, s.revs, s.writer⟩ }
      | none => some { h with binding := b }
  | _ => some h

end CH
