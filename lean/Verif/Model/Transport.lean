import Verif.Model.Parser
import Verif.Model.Cmd

/-!
Model of the line transport: /repo/src/io/transport.rs and /repo/src/io/read_to_end.rs.

The socket is a script: the list of the results its `poll_read` (resp. `poll_write`) calls will give, in order. A script that
has run out answers "not ready" for ever. Every behaviour of a socket over finitely many calls is such a script, so a theorem
for all scripts is a theorem for all sockets and all timings.
-/

namespace CH

/-- A result of `AsyncRead::poll_read` on the socket (/repo/src/io/stream.rs:79-111). -/
inductive ReadEv where
  /-- `Poll::Ready(Ok(n))` with the `n` bytes read; no bytes is the end of the stream -/
  | ready (b : Bytes)
  /-- `Poll::Pending` -/
  | pending
  /-- `Poll::Ready(Err(_))` -/
  | fail
deriving DecidableEq, Repr

/-- A result of `AsyncWrite::poll_write` on the socket (/repo/src/io/stream.rs:113-124). -/
inductive WriteEv where
  /-- `Poll::Ready(Ok(n))`: the socket took `n` bytes (never more than it was offered) -/
  | wrote (n : Nat)
  /-- `Poll::Pending` -/
  | pending
  /-- `Poll::Ready(Err(_))` -/
  | fail
deriving DecidableEq, Repr

/-- `ClickhouseTransport`, /repo/src/io/transport.rs:37-59. `wr` is the part of the write buffer behind the cursor, i.e.
what is still to be written. The pool status is part of the pool model. -/
structure Transport where
  done : Bool
  rd : Bytes
  bufIsIncomplete : Bool
  wr : Bytes
  cmds : List Cmd
  info : TransportInfo
  inconsistent : Bool

/-- `ClickhouseTransport::new`, /repo/src/io/transport.rs:80-96. -/
def Transport.new (compress : Bool) : Transport :=
  { done := false, rd := [], bufIsIncomplete := false, wr := [], cmds := [],
    info := { timezone := none, revision := 0, compress := compress }, inconsistent := false }

/-! ### Reading -/

/-- Result of `read_to_end`. -/
inductive Fill where
  | ready (n : Nat)
  | fail
  | pending
deriving DecidableEq, Repr

/-- The loop of `read_to_end`, /repo/src/io/read_to_end.rs:24-58: read until the end of the stream, an error or "not ready";
`start` is the length of the buffer at the beginning. The guard keeps what was read in every case. The buffer offered to
the socket is never empty (`reserve(32)`), so `Ok(0)` means the end of the stream. -/
def readToEnd (start : Nat) : List ReadEv → Bytes → Fill × Bytes × List ReadEv
  | [], rd => (.pending, rd, [])
  | .pending :: evs, rd => (.pending, rd, evs)
  | .fail :: evs, rd => (.fail, rd, evs)
  | .ready b :: evs, rd => if b = [] then (.ready (rd.length - start), rd, evs) else readToEnd start evs (rd ++ b)

theorem readToEnd_length (start : Nat) (evs : List ReadEv) (rd : Bytes) (n : Nat) (rd' : Bytes) (evs' : List ReadEv)
    (h : readToEnd start evs rd = (.ready n, rd', evs')) : evs'.length < evs.length := by
  fun_induction readToEnd start evs rd with
  | case1 => simp at h
  | case2 => simp at h
  | case3 => simp at h
  | case4 => simp only [Prod.mk.injEq] at h; simp [h.2.2]
  | case5 b evs rd hb ih => have := ih h; simp only [List.length_cons]; omega

/-- How filling the buffer ended. -/
inductive FillEnd where
  /-- the socket has nothing more for now -/
  | waiting
  /-- the end of the stream: `done` is set -/
  | closed
  /-- the socket failed -/
  | broken
deriving DecidableEq, Repr

/-- `while !done { match read_to_end(..) {..} }`, /repo/src/io/transport.rs:277-287, entered with `done` unset. -/
def fillLoop (evs : List ReadEv) (rd : Bytes) : FillEnd × Bytes × List ReadEv :=
  match _h : readToEnd rd.length evs rd with
  | (.ready 0, rd', evs') => (.closed, rd', evs')
  | (.ready (_ + 1), rd', evs') => fillLoop evs' rd'
  | (.fail, rd', evs') => (.broken, rd', evs')
  | (.pending, rd', evs') => (.waiting, rd', evs')
termination_by evs.length
decreasing_by exact readToEnd_length _ _ _ _ _ _ _h

/-- Result of polling the transport, `Poll<Option<io::Result<Packet<()>>>>`. Errors of the parser and of the socket are the same
type in the code; they are told apart here. -/
inductive TPoll where
  | pending
  | item (p : Packet)
  | bad (e : Err)
  | broken
  | closed
  | panic

/-- The packet's effect on the connection's parameters, /repo/src/io/transport.rs:167-170. -/
def TransportInfo.learn (i : TransportInfo) : Packet → TransportInfo
  | .hello s => { i with timezone := some s.timezone, revision := s.revision }
  | _ => i

/-- `try_parse_msg`, /repo/src/io/transport.rs:157-197. -/
def Transport.tryParse (env : Env) (t : Transport) : TPoll × Transport :=
  match parsePacket env t.info t.rd with
  | .ok p rest => (.item p, { t with rd := rest, info := t.info.learn p })
  | .more => (.pending, t)
  | .err e rest => (.bad e, { t with rd := rest })
  | .panic => (.panic, t)

/-- `poll_next` from "Fill the buffer!" on, /repo/src/io/transport.rs:276-298. -/
def Transport.fillAndParse (env : Env) (t : Transport) (evs : List ReadEv) : TPoll × Transport × List ReadEv :=
  if t.done then (.closed, t, evs)
  else
    match fillLoop evs t.rd with
    | (.broken, rd, evs) => (.broken, { t with rd := rd }, evs)
    | (.closed, rd, evs) => (.closed, { t with rd := rd, done := true }, evs)
    | (.waiting, rd, evs) =>
      match Transport.tryParse env { t with rd := rd } with
      | (.pending, t) => (.pending, { t with bufIsIncomplete := true }, evs)
      | (r, t) => (r, { t with bufIsIncomplete := false }, evs)

/-- `Stream::poll_next` of the transport, /repo/src/io/transport.rs:265-299. -/
def Transport.pollNext (env : Env) (t : Transport) (evs : List ReadEv) : TPoll × Transport × List ReadEv :=
  if !t.bufIsIncomplete && !t.rd.isEmpty then
    match t.tryParse env with
    | (.pending, t) => t.fillAndParse env evs
    | (r, t) => (r, t, evs)
  else t.fillAndParse env evs

/-! ### Sending -/

/-- Result of `send`. -/
inductive SPoll where
  | sent
  | pending
  | fail
  | panic
deriving DecidableEq, Repr

/-- `send` with `wr_flush`, /repo/src/io/transport.rs:213-258. One round of the loop takes the next command when the buffer
has been written, and calls `poll_write` once. The second component of the result is what the socket took; that the socket
never takes more than it is offered is the contract of `poll_write`. -/
def Transport.send (z : Codec) (t : Transport) : List WriteEv → SPoll × Bytes × Transport × List WriteEv
  | evs =>
    if t.wr = [] then
      match t.cmds with
      | [] => (.sent, [], t, evs)
      | c :: cs =>
        match c.encode z with
        | .ok b => flush { t with wr := b, cmds := cs } evs
        | .err _ => (.fail, [], { t with cmds := cs }, evs)
        | .panic => (.panic, [], { t with cmds := cs }, evs)
    else flush t evs
where
  /-- `if !self.wr_flush(cx)? { return Poll::Pending }` and the next round of the loop. -/
  flush (t : Transport) : List WriteEv → SPoll × Bytes × Transport × List WriteEv
    | [] => (.pending, [], t, [])
    | .pending :: evs => (.pending, [], t, evs)
    | .fail :: evs => (.fail, [], t, evs)
    | .wrote n :: evs =>
      let out := t.wr.take n
      let t := { t with wr := t.wr.drop n }
      if t.wr = [] then
        match t.cmds with
        | [] => (.sent, out, t, evs)
        | c :: cs =>
          match c.encode z with
          | .ok b =>
            let r := flush { t with wr := b, cmds := cs } evs
            (r.1, out ++ r.2.1, r.2.2)
          | .err _ => (.fail, out, { t with cmds := cs }, evs)
          | .panic => (.panic, out, { t with cmds := cs }, evs)
      else
        let r := flush t evs
        (r.1, out ++ r.2.1, r.2.2)

/-! ### Packet streams -/

/-- `PacketStreamState`, /repo/src/io/transport.rs:61-66; the boxed packet of `Yield` has always been taken when a poll
returns. -/
inductive PState where
  | ask
  | receive
  | yield
  | done
deriving DecidableEq, Repr

/-- `PacketStream`, /repo/src/io/transport.rs:73-77. -/
structure PStream where
  inner : Option Transport
  state : PState
  readBlock : Bool

/-- `call`, /repo/src/io/transport.rs:401-408. -/
def Transport.call (t : Transport) (c : Cmd) : PStream :=
  ⟨some { t with cmds := t.cmds ++ [c] }, .ask, false⟩

/-- Result of polling a packet stream; `item p conn` is a packet with the connection bound to it, if any. -/
inductive PPoll where
  | pending
  | item (p : Packet) (conn : Option Transport)
  | bad (e : Err)
  | broken
  | ended
  | panic

/-- Packets to which the connection is bound: `Packet::bind`, /repo/src/types/mod.rs:172-185. -/
def Packet.takesConn : Packet → Bool
  | .hello _ => true
  | .pong => true
  | .eof => true
  | _ => false

/-- `is_block`, /repo/src/io/transport.rs (end of file). -/
def Packet.isBlock : Packet → Bool
  | .block _ => true
  | _ => false

/-- The rounds of `PacketStream::poll_next` from state `Done`, /repo/src/io/transport.rs:376-381. -/
def PStream.finish (s : PStream) : PPoll × PStream :=
  match s.inner with
  | some t => (.item .eof (some t), { s with inner := none, state := .done })
  | none => (.ended, { s with state := .done })

/-- The rounds of `PacketStream::poll_next` from state `Receive` (or `Yield`, which turns into it),
/repo/src/io/transport.rs:350-396. -/
def PStream.receive (env : Env) (s : PStream) (evs : List ReadEv) : PPoll × PStream × List ReadEv :=
  match s.inner with
  | none =>
    let r := PStream.finish { s with state := .done }
    (r.1, r.2, evs)
  | some t =>
    match t.pollNext env evs with
    | (.item p, t, evs) =>
      if p.takesConn then (.item p (some t), { s with inner := none, state := .yield }, evs)
      else if s.readBlock && p.isBlock then (.item p none, { s with inner := some t, state := .done }, evs)
      else (.item p none, { s with inner := some t, state := .yield }, evs)
    | (.bad e, t, evs) => (.bad e, { s with inner := some t, state := .receive }, evs)
    | (.broken, t, evs) => (.broken, { s with inner := some t, state := .receive }, evs)
    | (.closed, t, evs) => (.ended, { s with inner := some t, state := .receive }, evs)
    | (.pending, t, evs) => (.pending, { s with inner := some t, state := .receive }, evs)
    | (.panic, t, evs) => (.panic, { s with inner := some t, state := .receive }, evs)

/-- `PacketStream::poll_next`, /repo/src/io/transport.rs:330-397. A socket error is never "would block" (`Stream` maps that to
`Poll::Pending`), so the two tests for it (339, 356) do not fire. The result also tells what the socket took. -/
def PStream.pollNext (env : Env) (s : PStream) (revs : List ReadEv) (wevs : List WriteEv) :
    PPoll × Bytes × PStream × List ReadEv × List WriteEv :=
  match s.state with
  | .ask =>
    match s.inner with
    | none =>
      let r := PStream.finish { s with state := .done }
      (r.1, [], r.2, revs, wevs)
    | some t =>
      match t.send env.codec wevs with
      | (.sent, out, t, wevs) =>
        let r := PStream.receive env { s with inner := some t, state := .receive } revs
        (r.1, out, r.2.1, r.2.2, wevs)
      | (.pending, out, t, wevs) => (.pending, out, { s with inner := some t }, revs, wevs)
      | (.fail, out, t, wevs) => (.broken, out, { s with inner := some t }, revs, wevs)
      | (.panic, out, t, wevs) => (.panic, out, { s with inner := some t }, revs, wevs)
  | .receive | .yield =>
    let r := PStream.receive env s revs
    (r.1, [], r.2.1, r.2.2, wevs)
  | .done =>
    let r := s.finish
    (r.1, [], r.2, revs, wevs)

end CH
