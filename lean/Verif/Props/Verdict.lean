import Verif.Spec.Verdict
import Verif.Lemmas.Client

/-!
C71: how an operation ends is decided by the first decisive message that comes, and a server's error reaches the caller.
-/

namespace CH.Props
open CH CH.Spec

/-- A connection in step whose server sends the given messages next, for the examples. -/
def answering (l : List Inc) : Conn := ⟨[], fun _ => l, false, []⟩

/-- C71. Every sequence of messages has a verdict, whatever messages an operation passes over or waits for. -/
theorem C71_total (skips ends : Packet → Prop) (ms : List Inc) : ∃ v, Judged skips ends ms v := by
  induction ms with
  | nil => exact ⟨_, .silent⟩
  | cons x l ih =>
    cases x with
    | error e => exact ⟨_, .failed⟩
    | closed => exact ⟨_, .lost⟩
    | packet p =>
      by_cases h1 : skips p
      · obtain ⟨v, h⟩ := ih; exact ⟨v, .skip h1 h⟩
      · by_cases h2 : ends p
        · exact ⟨_, .finished h2⟩
        · by_cases h3 : ∃ e, p = .exception e
          · obtain ⟨e, rfl⟩ := h3; exact ⟨_, .refused⟩
          · exact ⟨_, .misplaced h1 h2 (fun e he => h3 ⟨e, he⟩)⟩

example : Judged ExecuteSkips IsEnd [.packet (.block Block.new), .packet .eof, .closed] (.finished .eof [.closed]) :=
  .skip .block (.finished .eof)

/-- How the loop of `execute` ends. -/
theorem executeLoop {ms : List Inc} {v : Verdict} (h : Judged ExecuteSkips IsEnd ms v) : ∀ c : Conn, c.incoming = ms →
    CStream.loop executeBody none ⟨some c, false, false⟩ = match (generalizing := false) v with
      | .finished _ rest => .fell (some { c with incoming := rest })
      | .refused e => .failed (.server e)
      | .failed => .failed .io
      | .misplaced => .failed .unexpectedPacket
      | .lost => .fell none
      | .silent => .waits := by
  induction h with
  | silent => intro c hc; rw [loop_waits (next_nil hc)]
  | skip hs _ ih =>
    intro c hc
    cases hs <;> (rw [loop_item (next_packet hc rfl)]; simp only [executeBody, Bool.false_and]; exact ih { c with incoming := _ } rfl)
  | finished he => intro c hc; cases he; rw [loop_item (next_taken hc rfl)]; exact loop_ended next_none
  | refused => intro c hc; rw [loop_item (next_packet hc rfl)]; rfl
  | failed => intro c hc; rw [loop_error (next_err hc)]; rfl
  | @misplaced p l h1 h2 h3 =>
    intro c hc
    cases p with
    | block b => exact absurd .block h1
    | profileInfo b => exact absurd .profile h1
    | progress b => exact absurd .progress h1
    | eof => exact absurd .eof h2
    | exception e => exact absurd rfl (h3 e)
    | tableColumns a b => rw [loop_item (next_packet hc rfl)]; rfl
    | _ => rw [loop_item (next_taken hc rfl)]; rfl
  | lost => intro c hc; rw [loop_ended (next_closed hc)]

/-- C71. `execute` on a connection with nothing to clear ends as the first decisive message says: with the connection and what
follows the end of the answer; with the server's error; with an I/O error for a socket failure or undecodable message; with
"unexpected packet"; it waits while nothing decisive comes; and it panics when the connection ends (the last is C47's
disagreement). -/
theorem C71_execute (c : Conn) (q : Query) (ctx : Context) (v : Verdict) (hi : c.inconsistent = false)
    (h : Judged ExecuteSkips IsEnd (c.incoming ++ c.server (c.sent ++ [.sendQuery q ctx])) v) :
    c.execute q ctx = match (generalizing := false) v with
      | .finished _ rest => .ok { c with incoming := rest, sent := c.sent ++ [.sendQuery q ctx] }
      | .refused e => .err (.server e)
      | .failed => .err .io
      | .misplaced => .err .unexpectedPacket
      | .lost => .panic
      | .silent => .waits := by
  have hc : c.clear = .ok c := by simp [Conn.clear, hi]
  have := executeLoop h ⟨c.incoming ++ c.server (c.sent ++ [.sendQuery q ctx]), c.server, c.inconsistent,
    c.sent ++ [.sendQuery q ctx]⟩ rfl
  unfold Conn.execute
  rw [hc]
  simp only [Conn.call, this]
  cases v <;> rfl

example (q : Query) (ctx : Context) :
    (answering [.packet (.progress ⟨1, 2, 3, 0, 0⟩), .packet (.block Block.new), .packet .eof, .packet .pong]).execute q ctx =
      .ok { answering [.packet (.progress ⟨1, 2, 3, 0, 0⟩), .packet (.block Block.new), .packet .eof, .packet .pong] with
        incoming := [.packet .pong], sent := [.sendQuery q ctx] } :=
  C71_execute _ q ctx (.finished .eof [.packet .pong]) rfl (.skip .progress (.skip .block (.finished .eof)))

example (q : Query) (ctx : Context) (e : ServerError) :
    (answering [.packet (.block Block.new), .packet (.exception e)]).execute q ctx = .err (.server e) :=
  C71_execute _ q ctx (.refused e) rfl (.skip .block .refused)

/-- How the loop of `ping` ends. -/
theorem pingLoop {ms : List Inc} {v : Verdict} (h : Judged NoSkips IsPong ms v) (c : Conn) (hc : c.incoming = ms) :
    CStream.loop pingBody none ⟨some c, false, false⟩ = match (generalizing := false) v with
      | .finished _ rest => .fell (some { c with incoming := rest })
      | .refused e => .failed (.server e)
      | .failed => .failed .io
      | .misplaced => .failed .unexpectedPacket
      | .lost => .fell none
      | .silent => .waits := by
  cases h with
  | silent => rw [loop_waits (next_nil hc)]
  | skip hs _ => exact False.elim hs
  | finished he => cases he; rw [loop_item (next_taken hc rfl)]; exact loop_ended next_none
  | refused => rw [loop_item (next_packet hc rfl)]; rfl
  | failed => rw [loop_error (next_err hc)]; rfl
  | @misplaced p l h1 h2 h3 =>
    cases p with
    | pong => exact absurd .pong h2
    | exception e => exact absurd rfl (h3 e)
    | hello i => rw [loop_item (next_taken hc rfl)]; rfl
    | eof => rw [loop_item (next_taken hc rfl)]; rfl
    | _ => rw [loop_item (next_packet hc rfl)]; rfl
  | lost => rw [loop_ended (next_closed hc)]

/-- C71. `ping` on a connection with nothing to clear ends as the first message says; only a pong makes it succeed, and only then
the handle keeps its connection. -/
theorem C71_ping (c : Conn) (ctx : Context) (b : Binding) (v : Verdict) (hi : c.inconsistent = false)
    (h : Judged NoSkips IsPong (c.incoming ++ c.server (c.sent ++ [.ping])) v) :
    (Handle.mk (some c) ctx b).ping = match (generalizing := false) v with
      | .finished _ rest => (.ok (), ⟨some { c with incoming := rest, sent := c.sent ++ [.ping] }, ctx, b⟩)
      | .refused e => (.err (.server e), ⟨none, ctx, b⟩)
      | .failed => (.err .io, ⟨none, ctx, b⟩)
      | .misplaced => (.err .unexpectedPacket, ⟨none, ctx, b⟩)
      | .lost => (.err .broken, ⟨none, ctx, b⟩)
      | .silent => (.err .timeout, ⟨none, ctx, b⟩) := by
  have hc : c.clear = .ok c := by simp [Conn.clear, hi]
  have := pingLoop h { c with incoming := c.incoming ++ c.server (c.sent ++ [.ping]), sent := c.sent ++ [.ping] } rfl
  unfold Handle.ping
  simp only [hc, Conn.call, this]
  cases v <;> rfl

example (ctx : Context) : (Handle.mk (some (answering [.packet (.block Block.new), .packet .pong])) ctx .attached).ping =
    (.err .unexpectedPacket, ⟨none, ctx, .attached⟩) :=
  C71_ping _ ctx .attached .misplaced rfl (.misplaced (fun h => h) (fun h => by cases h) (by simp))

/-- How the loop of `hello` ends. -/
theorem helloLoop {ms : List Inc} {v : Verdict} (h : Judged NoSkips IsGreeting ms v) (c : Conn) (hc : c.incoming = ms) :
    CStream.loop helloBody none ⟨some c, false, false⟩ = match (generalizing := false) v with
      | .finished (.hello i) rest => .fell (some ({ c with incoming := rest }, i))
      | .finished _ _ => .fell none
      | .refused e => .failed (.server e)
      | .failed => .failed .io
      | .misplaced => .failed .unexpectedPacket
      | .lost => .fell none
      | .silent => .waits := by
  cases h with
  | silent => rw [loop_waits (next_nil hc)]
  | skip hs _ => exact False.elim hs
  | finished he => cases he; rw [loop_item (next_taken hc rfl)]; exact loop_ended next_none
  | refused => rw [loop_item (next_packet hc rfl)]; rfl
  | failed => rw [loop_error (next_err hc)]; rfl
  | @misplaced p l h1 h2 h3 =>
    cases p with
    | hello i => exact absurd .hello h2
    | exception e => exact absurd rfl (h3 e)
    | pong => rw [loop_item (next_taken hc rfl)]; rfl
    | eof => rw [loop_item (next_taken hc rfl)]; rfl
    | _ => rw [loop_item (next_packet hc rfl)]; rfl
  | lost => rw [loop_ended (next_closed hc)]

/-- C71. The greeting exchange ends as the first message says: a greeting gives the handle its connection and the server's
revision; everything else is an error, or a panic if the connection ends. -/
theorem C71_hello (c : Conn) (ctx : Context) (b : Binding) (v : Verdict)
    (h : Judged NoSkips IsGreeting (c.incoming ++ c.server (c.sent ++ [.hello ctx])) v) :
    (Handle.mk (some c) ctx b).hello = match (generalizing := false) v with
      | .finished (.hello i) rest =>
        (.ok (), ⟨some { c with incoming := rest, sent := c.sent ++ [.hello ctx] }, { ctx with revision := i.revision }, b⟩)
      | .finished _ _ => (.panic, ⟨none, ctx, b⟩)
      | .refused e => (.err (.server e), ⟨none, ctx, b⟩)
      | .failed => (.err .io, ⟨none, ctx, b⟩)
      | .misplaced => (.err .unexpectedPacket, ⟨none, ctx, b⟩)
      | .lost => (.panic, ⟨none, ctx, b⟩)
      | .silent => (.waits, ⟨none, ctx, b⟩) := by
  have := helloLoop h { c with incoming := c.incoming ++ c.server (c.sent ++ [.hello ctx]), sent := c.sent ++ [.hello ctx] } rfl
  unfold Handle.hello
  simp only [Conn.call, this]
  cases v with
  | finished p rest => cases p <;> rfl
  | _ => rfl

example (ctx : Context) (i : ServerInfo) : (Handle.mk (some (answering [.packet (.hello i)])) ctx .detached).hello =
    (.ok (), ⟨some { answering [.packet (.hello i)] with incoming := [], sent := [.hello ctx] },
      { ctx with revision := i.revision }, .detached⟩) :=
  C71_hello _ ctx .detached (.finished (.hello i) []) (.finished .hello)

/-- How `read_block` ends. -/
theorem readBlockLoop {ms : List Inc} {v : Verdict} (h : Judged InsertSkips InsertEnds ms v) : ∀ c : Conn, c.incoming = ms →
    CStream.readOneBlock ⟨some c, false, false⟩ = match (generalizing := false) v with
      | .finished (.block b) rest => .ok ({ c with incoming := rest }, some b)
      | .finished _ rest => .ok ({ c with incoming := rest }, none)
      | .refused e => .err (.server e)
      | .failed => .err .io
      | .misplaced => .err .unexpectedPacket
      | .lost => .panic
      | .silent => .waits := by
  induction h with
  | silent => intro c hc; simp only [CStream.readOneBlock, loop_waits (next_nil hc)]
  | skip hs _ ih =>
    intro c hc
    cases hs
    simp only [CStream.readOneBlock]
    rw [loop_item (next_packet hc rfl)]
    exact ih { c with incoming := _ } rfl
  | finished he =>
    intro c hc
    cases he
    · simp only [CStream.readOneBlock]
      rw [loop_item (next_packet hc rfl)]
      simp only [readBlockBody, Packet.isBlock, Bool.and_true]
      rw [loop_item next_finished]
      simp only [readBlockBody]
      rw [loop_ended next_none]
    · simp only [CStream.readOneBlock]
      rw [loop_item (next_taken hc rfl)]
      simp only [readBlockBody]
      rw [loop_ended next_none]
  | refused => intro c hc; simp only [CStream.readOneBlock]; rw [loop_item (next_packet hc rfl)]; rfl
  | failed => intro c hc; simp only [CStream.readOneBlock]; rw [loop_error (next_err hc)]; rfl
  | @misplaced p l h1 h2 h3 =>
    intro c hc
    simp only [CStream.readOneBlock]
    cases p with
    | block b => exact absurd .block h2
    | eof => exact absurd .eof h2
    | exception e => exact absurd rfl (h3 e)
    | tableColumns a b => exact absurd .columns h1
    | hello i => rw [loop_item (next_taken hc rfl)]; rfl
    | pong => rw [loop_item (next_taken hc rfl)]; rfl
    | _ => rw [loop_item (next_packet hc rfl)]; rfl
  | lost => intro c hc; simp only [CStream.readOneBlock]; rw [loop_ended (next_closed hc)]

/-- C71. The statement that begins an INSERT: only a block (the header) makes it succeed; an end of the answer without one panics. -/
theorem C71_insert_query (c : Conn) (q : Query) (ctx : Context) (v : Verdict)
    (h : Judged InsertSkips InsertEnds (c.incoming ++ c.server (c.sent ++ [.sendQuery q ctx])) v) :
    c.sendInsertQuery ctx q = match (generalizing := false) v with
      | .finished (.block b) rest => .ok ({ c with incoming := rest, sent := c.sent ++ [.sendQuery q ctx] }, b)
      | .finished _ _ => .panic
      | .refused e => .err (.server e)
      | .failed => .err .io
      | .misplaced => .err .unexpectedPacket
      | .lost => .panic
      | .silent => .waits := by
  have := readBlockLoop h ⟨c.incoming ++ c.server (c.sent ++ [.sendQuery q ctx]), c.server, c.inconsistent,
    c.sent ++ [.sendQuery q ctx]⟩ rfl
  unfold Conn.sendInsertQuery
  simp only [Conn.call, this]
  cases v with
  | finished p rest => cases p <;> rfl
  | _ => rfl

example (q : Query) (ctx : Context) (b : Block) :
    (answering [.packet (.tableColumns "" "t"), .packet (.block b)]).sendInsertQuery ctx q =
      .ok ({ answering [.packet (.tableColumns "" "t"), .packet (.block b)] with incoming := [], sent := [.sendQuery q ctx] }, b) :=
  C71_insert_query _ q ctx (.finished (.block b) []) (.skip .columns (.finished .block))

/-- C71. Sending a block of an INSERT: it succeeds when the answer ends (or another block comes); a server's error reaches the
caller. -/
theorem C71_insert_block (c : Conn) (b : Block) (ctx : Context) (v : Verdict)
    (h : Judged InsertSkips InsertEnds
      (c.incoming ++ c.server (c.sent ++ [.union (.sendData b ctx) (.sendData Block.new ctx)])) v) :
    c.insertBlock ctx b = match (generalizing := false) v with
      | .finished _ rest =>
        .ok { c with incoming := rest, sent := c.sent ++ [.union (.sendData b ctx) (.sendData Block.new ctx)] }
      | .refused e => .err (.server e)
      | .failed => .err .io
      | .misplaced => .err .unexpectedPacket
      | .lost => .panic
      | .silent => .waits := by
  have := readBlockLoop h ⟨c.incoming ++ c.server (c.sent ++ [.union (.sendData b ctx) (.sendData Block.new ctx)]), c.server, c.inconsistent,
    c.sent ++ [.union (.sendData b ctx) (.sendData Block.new ctx)]⟩ rfl
  unfold Conn.insertBlock
  simp only [Conn.call, this]
  cases v with
  | finished p rest => cases p <;> rfl
  | _ => rfl

example (ctx : Context) (b : Block) (e : Err) : (answering [.error e]).insertBlock ctx b = .err .io :=
  C71_insert_block _ b ctx .failed .failed

/-- How the loop of `clear` ends. -/
theorem clearLoop {ms : List Inc} {v : Verdict} (h : Judged LeftOver EndsLeftOver ms v) : ∀ c : Conn, c.incoming = ms →
    CStream.loop clearBody none ⟨some c, false, false⟩ = match (generalizing := false) v with
      | .finished _ rest => .fell (some { c with incoming := rest })
      | .refused e => .failed (.server e)
      | .failed => .failed .io
      | .misplaced => .fell none
      | .lost => .fell none
      | .silent => .waits := by
  induction h with
  | silent => intro c hc; rw [loop_waits (next_nil hc)]
  | skip hs _ ih =>
    intro c hc
    cases hs <;> (rw [loop_item (next_packet hc rfl)]; simp only [clearBody, Bool.false_and]; exact ih { c with incoming := _ } rfl)
  | finished he => intro c hc; cases he <;> (rw [loop_item (next_taken hc rfl)]; exact loop_ended next_none)
  | refused => intro c hc; rw [loop_item (next_packet hc rfl)]; rfl
  | failed => intro c hc; rw [loop_error (next_err hc)]; rfl
  | @misplaced p l h1 h2 h3 =>
    intro c hc
    cases p with
    | block b => exact absurd .block h1
    | profileInfo b => exact absurd .profile h1
    | progress b => exact absurd .progress h1
    | tableColumns a b => exact absurd .columns h1
    | eof => exact absurd .eof h2
    | pong => exact absurd .pong h2
    | exception e => exact absurd rfl (h3 e)
    | hello i => rw [loop_item (next_taken hc rfl)]; exact loop_ended next_none
  | lost => intro c hc; rw [loop_ended (next_closed hc)]

/-- C71. Clearing an abandoned answer: everything up to its end (or a pong) is thrown away and the connection counts as
consistent again. An error reported in the abandoned answer becomes the error of the new operation; a greeting or the end of the
connection panics. -/
theorem C71_clear (c : Conn) (v : Verdict) (hi : c.inconsistent = true)
    (h : Judged LeftOver EndsLeftOver (c.incoming ++ c.server (c.sent ++ [.cancel])) v) :
    c.clear = match (generalizing := false) v with
      | .finished _ rest => .ok { c with incoming := rest, inconsistent := false, sent := c.sent ++ [.cancel] }
      | .refused e => .err (.server e)
      | .failed => .err .io
      | .misplaced => .panic
      | .lost => .panic
      | .silent => .waits := by
  have := clearLoop h ⟨c.incoming ++ c.server (c.sent ++ [.cancel]), c.server, c.inconsistent, c.sent ++ [.cancel]⟩ rfl
  unfold Conn.clear
  rw [if_neg (by simp [hi])]
  simp only [Conn.call, this]
  cases v <;> rfl

example (b : Block) : ({ answering [.packet .pong] with incoming := [.packet (.block b), .packet .eof], inconsistent := true }).clear =
    .ok { answering [.packet .pong] with incoming := [.packet .pong], sent := [.cancel] } :=
  C71_clear _ (.finished .eof [.packet .pong]) rfl (.skip .block (.finished .eof))

/-- C71. A ping on a connection with an abandoned answer: what is left of the answer decides unless it comes to its end; if it never
does, the ping times out; otherwise it is a ping on a connection without one. The connection is gone unless that ping succeeds. -/
theorem C71_ping_left_over (c : Conn) (ctx : Context) (b : Binding) (v : Verdict) (hi : c.inconsistent = true)
    (h : Judged LeftOver EndsLeftOver (c.incoming ++ c.server (c.sent ++ [.cancel])) v) :
    (Handle.mk (some c) ctx b).ping = match (generalizing := false) v with
      | .finished _ rest => (Handle.mk (some { c with incoming := rest, inconsistent := false, sent := c.sent ++ [.cancel] }) ctx b).ping
      | .refused e => (.err (.server e), ⟨none, ctx, b⟩)
      | .failed => (.err .io, ⟨none, ctx, b⟩)
      | .misplaced => (.panic, ⟨none, ctx, b⟩)
      | .lost => (.panic, ⟨none, ctx, b⟩)
      | .silent => (.err .timeout, ⟨none, ctx, b⟩) := by
  have hc := C71_clear c v hi h
  cases v with
  | finished p rest =>
    simp only at hc ⊢
    rw [Handle.ping, Handle.ping]
    simp only [hc]
    rfl
  | _ => simp only at hc ⊢; rw [Handle.ping]; simp only [hc]

/-- A ping while the server says nothing more about an abandoned query. -/
example : (Handle.mk (some ⟨[.packet (.block sampleBlock)], fun _ => [], true, []⟩) sampleCtx .attached).ping =
    (.err .timeout, ⟨none, sampleCtx, .attached⟩) :=
  C71_ping_left_over _ _ _ .silent rfl (.skip .block .silent)

/-! ### INSERT as a whole -/

/-- C71. An error the server reports for the INSERT statement or for its first block is the error of `insert`. -/
theorem C71_insert_error (cast : Block → Block → Out Block) (c c' : Conn) (q : Query) (ctx : Context) (b dst b' ch : Block)
    (chs : List Block) (e : ServerError) (hi : c.inconsistent = false) :
    (Judged InsertSkips InsertEnds (c.incoming ++ c.server (c.sent ++ [.sendQuery q ctx])) (.refused e) →
      c.insert cast q ctx b = .err (.server e)) ∧
    (c.sendInsertQuery ctx q = .ok (c', dst) → cast b dst = .ok b' → insertChunks b' = .ok (ch :: chs) →
      Judged InsertSkips InsertEnds
        (c'.incoming ++ c'.server (c'.sent ++ [.union (.sendData ch ctx) (.sendData Block.new ctx)])) (.refused e) →
      c.insert cast q ctx b = .err (.server e)) := by
  have hc : c.clear = .ok c := by simp [Conn.clear, hi]
  constructor
  · intro h
    have := C71_insert_query c q ctx _ h
    simp only at this
    simp only [Conn.insert, hc, this]
  · intro h1 h2 h3 h4
    have := C71_insert_block c' ch ctx _ h4
    simp only at this
    simp only [Conn.insert, hc, h1, h2, h3, this]

/-- A server that refuses everything. -/
example (e : ServerError) (q : Query) (ctx : Context) : Judged InsertSkips InsertEnds
    ([] ++ (fun _ => [.packet (.tableColumns "" ""), .packet (.exception e)] : List Cmd → List Inc) [.sendQuery q ctx]) (.refused e) :=
  .skip .columns .refused

/-- C71. For every later chunk: if the chunks before it went through, a server's error for the statement sent again before the
chunk, or for the chunk itself, is the error of the whole. -/
theorem C71_insert_tail_error (ctx : Context) (q : Query) (e : ServerError) (ch : Block) (after : List Block) :
    ∀ (before : List Block) (c c1 : Conn), c.insertTail ctx q before = .ok c1 →
      (Judged InsertSkips InsertEnds (c1.incoming ++ c1.server (c1.sent ++ [.sendQuery q ctx])) (.refused e) ∨
        ∃ c2 dst, c1.sendInsertQuery ctx q = .ok (c2, dst) ∧ Judged InsertSkips InsertEnds
          (c2.incoming ++ c2.server (c2.sent ++ [.union (.sendData ch ctx) (.sendData Block.new ctx)])) (.refused e)) →
      c.insertTail ctx q (before ++ ch :: after) = .err (.server e) := by
  intro before
  induction before with
  | nil =>
    intro c c1 h h'
    simp only [Conn.insertTail, OpRes.ok.injEq] at h
    subst h
    rcases h' with h' | ⟨c2, dst, h1, h2⟩
    · have := C71_insert_query c q ctx _ h'
      simp only at this
      simp only [List.nil_append, Conn.insertTail, this]
    · have := C71_insert_block c2 ch ctx _ h2
      simp only at this
      simp only [List.nil_append, Conn.insertTail, h1, this]
  | cons b bs ih =>
    intro c c1 h h'
    rw [Conn.insertTail] at h
    rw [List.cons_append, Conn.insertTail]
    cases hq : c.sendInsertQuery ctx q with
    | ok r =>
      obtain ⟨c2, dst⟩ := r
      simp only [hq] at h ⊢
      cases hb : c2.insertBlock ctx b with
      | ok c3 => simp only [hb] at h ⊢; exact ih c3 c1 h h'
      | _ => simp [hb] at h
    | _ => simp [hq] at h

example (q : Query) (ctx : Context) (b : Block) (e : ServerError) (bs : List Block) :
    (answering [.packet (.exception e)]).insertTail ctx q ([] ++ b :: bs) = .err (.server e) :=
  C71_insert_tail_error ctx q e b bs [] _ _ rfl (.inl .refused)

/-- C71 fails for an INSERT during which the server reports its progress (ClickHouse does, for long ones): the statement or the
block is taken for failed with "unexpected packet", though the server goes on with it. -/
theorem C71_insert_progress_violated (c : Conn) (q : Query) (ctx : Context) (b : Block) (p : Progress) (rest : List Inc) :
    (c.incoming ++ c.server (c.sent ++ [.sendQuery q ctx]) = .packet (.progress p) :: rest →
      c.sendInsertQuery ctx q = .err .unexpectedPacket) ∧
    (c.incoming ++ c.server (c.sent ++ [.union (.sendData b ctx) (.sendData Block.new ctx)]) = .packet (.progress p) :: rest →
      c.insertBlock ctx b = .err .unexpectedPacket) := by
  have hj : Judged InsertSkips InsertEnds (.packet (.progress p) :: rest) .misplaced :=
    .misplaced (fun h => by cases h) (fun h => by cases h) (by simp)
  exact ⟨fun h => C71_insert_query c q ctx .misplaced (by rw [h]; exact hj),
    fun h => C71_insert_block c b ctx .misplaced (by rw [h]; exact hj)⟩

example (p : Progress) (q : Query) (ctx : Context) : ∃ c : Conn, c.inconsistent = false ∧
    c.incoming ++ c.server (c.sent ++ [.sendQuery q ctx]) = [.packet (.progress p), .packet (.block Block.new)] :=
  ⟨⟨[], fun _ => [.packet (.progress p), .packet (.block Block.new)], false, []⟩, rfl, rfl⟩

end CH.Props
