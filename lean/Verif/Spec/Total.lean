import Verif.Model.Cancel
import Verif.Spec.Cancel

/-!
When an operation over a socket has no result, for C87: it waits for ever, because its socket does or because there is no further
connection to be had, or reading a message or writing one panics. `Model/Socket` says what results there are; the relations here say
where an operation is when there is none.
-/

namespace CH.Spec
open CH

/-- Why an operation has no result. -/
inductive Cause where
  /-- it waits for ever -/
  | waits
  /-- reading a message or writing one panics -/
  | panics

/-- Exactly one result or cause of there being none. -/
def Fate {α : Type} (P : α → Prop) (N : Cause → Prop) : Prop :=
  (∃ a, P a ∧ (∀ b, P b → b = a) ∧ ∀ c, ¬N c) ∨ ∃ c, N c ∧ (∀ d, N d → d = c) ∧ ∀ a, ¬P a

/-- The stream is not ready, if it is polled up to `n` times. -/
def StillPending (env : Env) : Nat → PStream → List ReadEv → List WriteEv → Prop
  | 0, _, _, _ => True
  | n + 1, s, revs, wevs => ∃ out s' left wleft, s.pollNext env revs wevs = (.pending, out, s', left, wleft) ∧ StillPending env n s' left wleft

/-- Awaiting the stream gives nothing: it is never ready, however often it is polled, or it panics. -/
def Silent (env : Env) (c : Cause) (s : PStream) (revs : List ReadEv) (w : Writer) : Prop :=
  match c with
  | .waits => ∀ n, StillPending env n s revs w.evs
  | .panics => ∃ s' left w', AwaitsS env s revs w .panic s' left w'

/-- A loop over the messages of a stream gets to a silent stream. -/
inductive LoopSilent {σ : Type} (env : Env) (c : Cause) (f : σ → Except Err (Packet × Option Sock) → σ ⊕ OpErr) :
    σ → PStream → List ReadEv → Writer → Prop where
  | here {v s revs w} (h : Silent env c s revs w) : LoopSilent env c f v s revs w
  | item {v v' s revs w s' left w' p t} (h : AwaitsS env s revs w (.item p t) s' left w')
      (hf : f v (.ok (p, t.map (Sock.mk · left w'))) = .inl v') (hl : LoopSilent env c f v' s' left w') : LoopSilent env c f v s revs w

/-- The first of two steps has no result, or the second, after the first. -/
inductive ThenSilent {α : Type} (P : OpRes α → Prop) (N : Prop) (M : α → Prop) : Prop where
  | first (h : N)
  | second {a} (h : P (.ok a)) (hd : M a)

/-- `ClearS` has no result. -/
def ClearSilent (env : Env) (c : Cause) (k : Sock) : Prop :=
  k.t.inconsistent = true ∧ LoopSilent env c clearBody none (k.t.call .cancel) k.revs k.writer

/-- `ReadOneS` has no result. -/
def ReadOneSilent (env : Env) (c : Cause) (k : Sock) (cmd : Cmd) : Prop :=
  LoopSilent env c readBlockBody (none, none) { k.t.call cmd with readBlock := true } k.revs k.writer

/-- `ExecuteS` has no result. -/
def ExecuteSilent (env : Env) (c : Cause) (k : Sock) (q : Query) (ctx : Context) : Prop :=
  ThenSilent (ClearS env k) (ClearSilent env c k) fun k => LoopSilent env c executeBody none (k.t.call (.sendQuery q ctx)) k.revs k.writer

/-- `InsertBlockS` has no result. -/
def InsertBlockSilent (env : Env) (c : Cause) (k : Sock) (ctx : Context) (b : Block) : Prop :=
  ReadOneSilent env c k (.union (.sendData b ctx) (.sendData Block.new ctx))

/-- `InsertTailS` has no result. -/
def InsertTailSilent (env : Env) (c : Cause) (ctx : Context) (q : Query) : List Block → Sock → Prop
  | [], _ => False
  | b :: bs, k => ThenSilent (SendInsertS env k ctx q) (ReadOneSilent env c k (.sendQuery q ctx)) fun x =>
      ThenSilent (InsertBlockS env x.1 ctx b) (InsertBlockSilent env c x.1 ctx b) (InsertTailSilent env c ctx q bs)

/-- `InsertS` has no result. -/
def InsertSilent (env : Env) (c : Cause) (cast : Block → Block → Out Block) (k : Sock) (q : Query) (ctx : Context) (b : Block) : Prop :=
  ThenSilent (ClearS env k) (ClearSilent env c k) fun k =>
    ThenSilent (SendInsertS env k ctx q) (ReadOneSilent env c k (.sendQuery q ctx)) fun x =>
      ∃ b' ch chs, cast b x.2 = .ok b' ∧ insertChunks b' = .ok (ch :: chs) ∧
        ThenSilent (InsertBlockS env x.1 ctx ch) (InsertBlockSilent env c x.1 ctx ch) (InsertTailSilent env c ctx q chs)

/-- `PingS` has no result. -/
def PingSilent (env : Env) (c : Cause) (h : HandleS) : Prop :=
  ∃ k, h.inner = some k ∧
    ThenSilent (ClearS env k) (ClearSilent env c k) fun k => LoopSilent env c pingBody none (k.t.call .ping) k.revs k.writer

/-- Checking a connection, and reconnecting, comes to a ping without a result or to a connection that is not opened. -/
inductive RetrySilent (env : Env) (c : Cause) (pooled : Bool) (max : Nat) : Nat → Bool → HandleS → WorldS → Prop where
  | pinging {a h w} (hp : PingSilent env c h) : RetrySilent env c pooled max a false h w
  | opening {a skip h h' e} (hc : c = .waits) (ha : AttemptS env skip h (.err e) h') (hs : skip = true ∨ a < max) :
      RetrySilent env c pooled max a skip h []
  | again {a skip h w h' e} (ha : AttemptS env skip h (.err e) h') (hm : a < max)
      (t : RetrySilent env c pooled max (a + 1) true h' w) : RetrySilent env c pooled max a skip h (none :: w)
  | reconnected {a skip h w h' e k} (ha : AttemptS env skip h (.err e) h') (hs : skip = true ∨ a < max)
      (t : RetrySilent env c pooled max a false ⟨some k, h'.context, if pooled then .attached else .none⟩ w) :
      RetrySilent env c pooled max a skip h (some k :: w)

/-- `PrecheckS` has no result. -/
def PrecheckSilent (env : Env) (c : Cause) (h : HandleS) (w : WorldS) : Prop :=
  h.context.options.pingBeforeQuery = true ∧ ∃ b, h.binding.detach = some b ∧
    RetrySilent env c true h.context.options.sendRetries 0 false { h with binding := b } w

/-- An operation with its check beforehand. -/
inductive CheckedSilent (env : Env) (c : Cause) (N : Sock → Context → Prop) (h : HandleS) (w : WorldS) : Prop where
  | check (hp : PrecheckSilent env c h w)
  | operation {h' w' k} (hp : PrecheckS env h w (.ok ()) h' w') (hi : h'.inner = some k) (hn : N k h'.context)

/-- Awaiting the next block gets to a silent stream. -/
inductive ReadSilent (env : Env) (c : Cause) : BStreamS → Prop where
  | here {s} (h : Silent env c s.inner s.revs s.writer) : ReadSilent env c s
  | profile {s i l wl t x} (ha : AwaitsS env s.inner s.revs s.writer (.item (.profileInfo x) t) i l wl)
      (hr : ReadSilent env c { s with inner := i, revs := l, writer := wl }) : ReadSilent env c s
  | progress {s i l wl t x} (ha : AwaitsS env s.inner s.revs s.writer (.item (.progress x) t) i l wl)
      (hr : ReadSilent env c { s with inner := i, revs := l, writer := wl }) : ReadSilent env c s
  | skipped {s i l wl t b} (ha : AwaitsS env s.inner s.revs s.writer (.item (.block b) t) i l wl)
      (hk : ((s.blockIndex + 1 > 1 || !s.skipFirst) && !b.isEmpty) = false)
      (hr : ReadSilent env c { s with inner := i, revs := l, writer := wl, blockIndex := s.blockIndex + 1 }) : ReadSilent env c s

/-- A user awaiting `n` items gets to a stream that gives no further one. -/
inductive RunSilent (env : Env) (c : Cause) : Nat → BStreamS → HandleS → Prop where
  | here {n s h} (hs : s.state = .reading) (hr : ReadSilent env c s) : RunSilent env c (n + 1) s h
  | next {n s h i s1 h1} (hn : NextS env s h i s1 h1) (hr : RunSilent env c n s1 h1) : RunSilent env c (n + 1) s h

/-- What a user has after asking something of a handle: a reply and the handle, or a panic. -/
inductive AskEnd where
  | reply (r : Reply) (h : HandleS)
  | panic

/-- `AskS` with the panics. -/
inductive AskEnds (env : Env) (numeric : Char → Bool) (cast : Block → Block → Out Block) (h : HandleS) (w : WorldS) : Wish → AskEnd → Prop where
  | reply {a r h'} (hr : AskS env numeric cast h w a r h') : AskEnds env numeric cast h w a (.reply r h')
  | ping {h'} (hp : PingS env h .panic h') : AskEnds env numeric cast h w .ping .panic
  | execute {q h' w'} (hx : h.execute env q w .panic h' w') : AskEnds env numeric cast h w (.execute q) .panic
  | insert {t b h' w'} (hx : h.insert env numeric cast t b w .panic h' w') : AskEnds env numeric cast h w (.insert t b) .panic
  | opening {q skip n h' w'} (ho : OpenS env h q skip w .panic h' w') : AskEnds env numeric cast h w (.select q skip n) .panic
  | dropping {q skip n s h1 w1 is s' h2} (ho : OpenS env h q skip w (.ok s) h1 w1) (hr : RunS env n s h1 is s' h2)
      (hd : s'.drop h2 = none) : AskEnds env numeric cast h w (.select q skip n) .panic

/-- Asking something comes to no end. -/
inductive AskSilent (env : Env) (c : Cause) (numeric : Char → Bool) (cast : Block → Block → Out Block) (h : HandleS) (w : WorldS) : Wish → Prop where
  | ping (hp : PingSilent env c h) : AskSilent env c numeric cast h w .ping
  | execute {q} (hx : CheckedSilent env c (fun k ctx => ExecuteSilent env c k q ctx) h w) : AskSilent env c numeric cast h w (.execute q)
  | insert {t b q} (hq : makeQuery numeric t b = .ok q)
      (hx : CheckedSilent env c (fun k ctx => InsertSilent env c cast k q ctx b) h w) : AskSilent env c numeric cast h w (.insert t b)
  | opening {q skip n} (ho : PrecheckSilent env c h w) : AskSilent env c numeric cast h w (.select q skip n)
  | reading {q skip n s h1 w1} (ho : OpenS env h q skip w (.ok s) h1 w1) (hr : RunSilent env c n s h1) :
      AskSilent env c numeric cast h w (.select q skip n)

end CH.Spec
