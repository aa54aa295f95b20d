import Verif.Spec.Socket

/-!
Operations that do not come to their end: the future of an operation is dropped while it waits for its socket, by the user or by one of
the timeouts (`with_timeout`, /repo/src/lib.rs:624-642). The relations of `Model/Socket` say what operations come to that end; those
here say where they may be when they are dropped, and what is left then. A future is only dropped between polls, and so while it
waits. In the results `.waits` is an operation that was abandoned; nothing of time is modelled, so a timeout may end any
wait. That an operation in progress was taken out of its handle (`get_inner`, /repo/src/lib.rs:605-609) is why the connection is gone
when the future is dropped.
-/

namespace CH
open CH.Spec

/-- Polling a stream (/repo/src/io/transport.rs:330-397) once or more without it being ready. -/
inductive Stalls (env : Env) : PStream → List ReadEv → Writer → PStream → List ReadEv → Writer → Prop where
  | once {s s' revs left w wleft out} (h : s.pollNext env revs w.evs = (.pending, out, s', left, wleft)) :
      Stalls env s revs w s' left ⟨wleft, w.out ++ out⟩
  | more {s s1 s' revs revs1 left w wevs1 wl out} (h : s.pollNext env revs w.evs = (.pending, out, s1, revs1, wevs1))
      (t : Stalls env s1 revs1 ⟨wevs1, w.out ++ out⟩ s' left wl) : Stalls env s revs w s' left wl

/-- A `while let Some(packet) = stream.next().await` with the body `f` (e.g. /repo/src/lib.rs:411-423) that is waiting; the last
argument are the bytes that the socket has taken by then. -/
inductive LoopCut {σ : Type} (env : Env) (f : σ → Except Err (Packet × Option Sock) → σ ⊕ OpErr) :
    σ → PStream → List ReadEv → Writer → Bytes → Prop where
  | here {v s revs w s' left w'} (h : Stalls env s revs w s' left w') : LoopCut env f v s revs w w'.out
  | item {v v' s revs w s' left w' p t o} (h : AwaitsS env s revs w (.item p t) s' left w')
      (hf : f v (.ok (p, t.map (Sock.mk · left w'))) = .inl v') (hl : LoopCut env f v' s' left w' o) : LoopCut env f v s revs w o
  | bad {v v' s revs w s' left w' e o} (h : AwaitsS env s revs w (.bad e) s' left w') (hf : f v (.error e) = .inl v')
      (hl : LoopCut env f v' s' left w' o) : LoopCut env f v s revs w o
  | broken {v v' s revs w s' left w' o} (e : Err) (h : AwaitsS env s revs w .broken s' left w') (hf : f v (.error e) = .inl v')
      (hl : LoopCut env f v' s' left w' o) : LoopCut env f v s revs w o

/-- One step of an `async` function after another (`Then`), waiting in the first or in the second. -/
inductive ThenCut {α : Type} (P : OpRes α → Prop) (C : Bytes → Prop) (D : α → Bytes → Prop) : Bytes → Prop where
  | first {o} (h : C o) : ThenCut P C D o
  | second {a o} (h : P (.ok a)) (hd : D a o) : ThenCut P C D o

/-- `clear` waiting, /repo/src/io/transport.rs:102-125. -/
def ClearCut (env : Env) (k : Sock) (o : Bytes) : Prop :=
  k.t.inconsistent = true ∧ LoopCut env clearBody none (k.t.call .cancel) k.revs k.writer o

/-- `read_block` waiting, /repo/src/io/transport.rs:303-320, 401-408. -/
def ReadOneCut (env : Env) (k : Sock) (cmd : Cmd) : Bytes → Prop :=
  LoopCut env readBlockBody (none, none) { k.t.call cmd with readBlock := true } k.revs k.writer

/-- The inner future of `execute_` waiting, /repo/src/lib.rs:406-426. -/
def ExecuteCut (env : Env) (k : Sock) (q : Query) (ctx : Context) : Bytes → Prop :=
  ThenCut (ClearS env k) (ClearCut env k) fun k => LoopCut env executeBody none (k.t.call (.sendQuery q ctx)) k.revs k.writer

/-- `insert_block_` waiting, /repo/src/lib.rs:505-516. -/
def InsertBlockCut (env : Env) (k : Sock) (ctx : Context) (b : Block) : Bytes → Prop :=
  ReadOneCut env k (.union (.sendData b ctx) (.sendData Block.new ctx))

/-- `insert_tail_` waiting, /repo/src/lib.rs:480-492, with the chunks as a list. -/
def InsertTailCut (env : Env) (ctx : Context) (q : Query) : List Block → Sock → Bytes → Prop
  | [], _ => fun _ => False
  | b :: bs, k => ThenCut (SendInsertS env k ctx q) (ReadOneCut env k (.sendQuery q ctx)) fun x =>
      ThenCut (InsertBlockS env x.1 ctx b) (InsertBlockCut env x.1 ctx b) (InsertTailCut env ctx q bs)

/-- The inner future of `insert_` waiting, /repo/src/lib.rs:459-472. -/
def InsertCut (env : Env) (cast : Block → Block → Out Block) (k : Sock) (q : Query) (ctx : Context) (b : Block) : Bytes → Prop :=
  ThenCut (ClearS env k) (ClearCut env k) fun k =>
    ThenCut (SendInsertS env k ctx q) (ReadOneCut env k (.sendQuery q ctx)) fun x o =>
      ∃ b' ch chs, cast b x.2 = .ok b' ∧ insertChunks b' = .ok (ch :: chs) ∧
        ThenCut (InsertBlockS env x.1 ctx ch) (InsertBlockCut env x.1 ctx ch) (InsertTailCut env ctx q chs) o

/-- The inner future of `ping` waiting, /repo/src/lib.rs:335-364. -/
def PingCut (env : Env) (k : Sock) : Bytes → Prop :=
  ThenCut (ClearS env k) (ClearCut env k) fun k => LoopCut env pingBody none (k.t.call .ping) k.revs k.writer

/-! ### Handles -/

/-- `ping` (/repo/src/lib.rs:331-366) with its timeout, which drops the connection with the inner future. -/
inductive PingT (env : Env) (h : HandleS) : OpRes Unit → HandleS → Prop where
  | done {r h'} (hp : PingS env h r h') : PingT env h r h'
  | timeout {k o} (hi : h.inner = some k) (hc : PingCut env k o) : PingT env h (.err .timeout) { h with inner := none }
  | abandoned {k o} (hi : h.inner = some k) (hc : PingCut env k o) : PingT env h .waits { h with inner := none }

/-- `AttemptS` (/repo/src/retry_guard.rs:14-24) with the timeout of the ping. -/
def AttemptT (env : Env) (skip : Bool) (h : HandleS) (r : OpRes Unit) (h' : HandleS) : Prop :=
  if skip then r = .err .connect ∧ h' = h else PingT env h r h'

/-- The loop of `retry_guard`, /repo/src/retry_guard.rs:14-52, with pings that time out; it may be abandoned during a ping, while it is
reconnecting and while it sleeps. -/
inductive RetryT (env : Env) (pooled : Bool) (max : Nat) : Nat → Bool → HandleS → WorldS → OpRes Unit → HandleS → WorldS → Prop where
  | ok {a skip h w h'} (ha : AttemptT env skip h (.ok ()) h') : RetryT env pooled max a skip h w (.ok ()) h' w
  | panic {a skip h w h'} (ha : AttemptT env skip h .panic h') : RetryT env pooled max a skip h w .panic h' w
  | last {a h w h' e} (ha : AttemptT env false h (.err e) h') (hm : max ≤ a) : RetryT env pooled max a false h w (.err e) h' w
  | refused {a skip h w h' e} (ha : AttemptT env skip h (.err e) h') (hs : skip = true ∨ a < max) (hm : max ≤ a) :
      RetryT env pooled max a skip h (none :: w) (.err .connect) h' w
  | again {a skip h w h' e r h'' w''} (ha : AttemptT env skip h (.err e) h') (hm : a < max)
      (t : RetryT env pooled max (a + 1) true h' w r h'' w'') : RetryT env pooled max a skip h (none :: w) r h'' w''
  | reconnected {a skip h w h' e k r h'' w''} (ha : AttemptT env skip h (.err e) h') (hs : skip = true ∨ a < max)
      (t : RetryT env pooled max a false ⟨some k, h'.context, if pooled then .attached else .none⟩ w r h'' w'') :
      RetryT env pooled max a skip h (some k :: w) r h'' w''
  | pinging {a skip h w h'} (ha : AttemptT env skip h .waits h') : RetryT env pooled max a skip h w .waits h' w
  | opening {a skip h w h' e} (ha : AttemptT env skip h (.err e) h') (hs : skip = true ∨ a < max) :
      RetryT env pooled max a skip h w .waits h' w
  | sleeping {a skip h w h' e} (ha : AttemptT env skip h (.err e) h') (hm : a < max) :
      RetryT env pooled max a skip h (none :: w) .waits h' w

/-- `wrap_future` and `check_connection`, /repo/src/lib.rs:530-542, 575-593: when they are abandoned, `attach` (line 589) is not
reached. -/
inductive PrecheckT (env : Env) (h : HandleS) (w : WorldS) : OpRes Unit → HandleS → WorldS → Prop where
  | off (hp : h.context.options.pingBeforeQuery = false) : PrecheckT env h w (.ok ()) h w
  | unbound (hp : h.context.options.pingBeforeQuery = true) (hb : h.binding.detach = none) :
      PrecheckT env h w .panic { h with binding := .none } w
  | ok {b h' w'} (hp : h.context.options.pingBeforeQuery = true) (hb : h.binding.detach = some b)
      (hr : RetryT env true h.context.options.sendRetries 0 false { h with binding := b } w (.ok ()) h' w') :
      PrecheckT env h w (.ok ()) { h' with binding := if h'.binding = .detached then .attached else h'.binding } w'
  | failed {b r h' w'} (hp : h.context.options.pingBeforeQuery = true) (hb : h.binding.detach = some b) (hn : r ≠ .ok ())
      (hr : RetryT env true h.context.options.sendRetries 0 false { h with binding := b } w r h' w') : PrecheckT env h w r h' w'

/-- An operation with its check beforehand, as `Checked`; its timeout (/repo/src/lib.rs:400-433, 455-477) is over both, and it may end or be
abandoned in both. `C` are the waits of the operation. -/
inductive CheckedT (env : Env) (P : Sock → Context → OpRes Sock → Prop) (C : Sock → Context → Bytes → Prop) (h : HandleS) (w : WorldS) :
    OpRes Unit → HandleS → WorldS → Prop where
  | failed {r h' w'} (hp : PrecheckT env h w r h' w') (hn : r ≠ .ok ()) : CheckedT env P C h w r h' w'
  | checkTimeout {h' w'} (hp : PrecheckT env h w .waits h' w') : CheckedT env P C h w (.err .timeout) h' w'
  | gone {h' w'} (hp : PrecheckT env h w (.ok ()) h' w') (hi : h'.inner = none) : CheckedT env P C h w (.err .broken) h' w'
  | done {h1 w' k r h'} (hp : PrecheckT env h w (.ok ()) h1 w') (hi : h1.inner = some k) (hd : PutBack h1 (P k h1.context) r h') :
      CheckedT env P C h w r h' w'
  | timeout {h1 w' k o} (hp : PrecheckT env h w (.ok ()) h1 w') (hi : h1.inner = some k) (hc : C k h1.context o) :
      CheckedT env P C h w (.err .timeout) { h1 with inner := none } w'
  | abandoned {h1 w' k o} (hp : PrecheckT env h w (.ok ()) h1 w') (hi : h1.inner = some k) (hc : C k h1.context o) :
      CheckedT env P C h w .waits { h1 with inner := none } w'

/-- `execute`, /repo/src/lib.rs:381-433. -/
def HandleS.executeT (env : Env) (h : HandleS) (q : Query) (w : WorldS) : OpRes Unit → HandleS → WorldS → Prop :=
  CheckedT env (fun k ctx => ExecuteS env k q ctx) (fun k ctx => ExecuteCut env k q ctx) h w

/-- `insert`, /repo/src/lib.rs:436-478. -/
def HandleS.insertT (env : Env) (numeric : Char → Bool) (cast : Block → Block → Out Block) (h : HandleS) (table : Query) (b : Block)
    (w : WorldS) (r : OpRes Unit) (h' : HandleS) (w' : WorldS) : Prop :=
  match makeQuery numeric table b with
  | .err e => r = .err (.other e) ∧ h' = h ∧ w' = w
  | .panic => r = .panic ∧ h' = h ∧ w' = w
  | .ok q => CheckedT env (fun k ctx => InsertS env cast k q ctx b) (fun k ctx => InsertCut env cast k q ctx b) h w r h' w'

/-! ### Query streams -/

/-- `stream_blocks_`, /repo/src/types/query_result/mod.rs:83-97 with `wrap_stream`, /repo/src/lib.rs:544-572, as `OpenS`; the check may be
abandoned. -/
inductive OpenT (env : Env) (h : HandleS) (q : Query) (skip : Bool) (w : WorldS) : OpRes BStreamS → HandleS → WorldS → Prop where
  | failed {e h' w'} (hp : PrecheckT env h w (.err e) h' w') : OpenT env h q skip w (.err e) h' w'
  | panic {h' w'} (hp : PrecheckT env h w .panic h' w') : OpenT env h q skip w .panic h' w'
  | abandoned {h' w'} (hp : PrecheckT env h w .waits h' w') : OpenT env h q skip w .waits h' w'
  | unbound {h' w'} (hp : PrecheckT env h w (.ok ()) h' w') (hb : h'.binding.detach = none) :
      OpenT env h q skip w .panic { h' with binding := .none } w'
  | gone {h' w' b} (hp : PrecheckT env h w (.ok ()) h' w') (hb : h'.binding.detach = some b) (hi : h'.inner = none) :
      OpenT env h q skip w (.err .broken) { h' with binding := b } w'
  | opened {h' w' b k} (hp : PrecheckT env h w (.ok ()) h' w') (hb : h'.binding.detach = some b) (hi : h'.inner = some k) :
      OpenT env h q skip w (.ok ⟨k.t.call (.sendQuery q h'.context), k.revs, k.writer, .reading, 0, skip⟩)
        { h' with inner := none, binding := b } w'

/-- `BlockStream::poll_next` waiting, from state `Reading`, /repo/src/types/query_result/stream_blocks.rs:76-122, with the stream as it is
then. -/
inductive ReadWaits (env : Env) : BStreamS → BStreamS → Prop where
  | here {s i l wl} (h : Stalls env s.inner s.revs s.writer i l wl) : ReadWaits env s { s with inner := i, revs := l, writer := wl }
  | profile {s i l wl t x s'} (ha : AwaitsS env s.inner s.revs s.writer (.item (.profileInfo x) t) i l wl)
      (hr : ReadWaits env { s with inner := i, revs := l, writer := wl } s') : ReadWaits env s s'
  | progress {s i l wl t x s'} (ha : AwaitsS env s.inner s.revs s.writer (.item (.progress x) t) i l wl)
      (hr : ReadWaits env { s with inner := i, revs := l, writer := wl } s') : ReadWaits env s s'
  | skipped {s i l wl t b s'} (ha : AwaitsS env s.inner s.revs s.writer (.item (.block b) t) i l wl)
      (hk : ((s.blockIndex + 1 > 1 || !s.skipFirst) && !b.isEmpty) = false)
      (hr : ReadWaits env { s with inner := i, revs := l, writer := wl, blockIndex := s.blockIndex + 1 } s') : ReadWaits env s s'

/-- `next` of a stream of blocks, given up while it waits. -/
def NextWaits (env : Env) (s s' : BStreamS) : Prop := s.state = .reading ∧ ReadWaits env s s'

end CH
