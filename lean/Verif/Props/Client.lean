import Verif.Lemmas.Client
import Verif.Props.Block

/-! Property theorems about the client operations: C18, C45, C46, C47, C51, C52, C60. -/

namespace CH.Props

open Spec

/-! ### Samples used by the examples -/

/-- A handle's context with default options. -/
def sampleCtx : Context := ⟨54213, "localhost", Options.default⟩

/-- A server that answers pings, and queries with the given packets. -/
def sampleServer (answer : List Inc) : List Cmd → List Inc := fun l =>
  match l.getLast? with
  | some .ping => [.packet .pong]
  | some (.sendQuery _ _) => answer
  | _ => []

/-- A fresh connection to it. -/
def sampleConn (answer : List Inc) : Conn := ⟨[], sampleServer answer, false, [.hello sampleCtx]⟩

def sampleQuery : Query := ⟨"select 1", ""⟩

/-! ### C45 -/

/-- The middle of an answer, for the examples. -/
def exBody : List Inc := [.packet (.block Block.new), .packet (.progress ⟨1, 2, 3, 0, 0⟩), .packet (.block sampleBlock)]

theorem exBody_middle : ∀ x ∈ exBody, Middle x := by
  intro x hx
  simp only [exBody, List.mem_cons, List.not_mem_nil, or_false] at hx
  rcases hx with rfl | rfl | rfl <;> constructor

/-- A connection on which an answer has come, for the examples. -/
def exAnswered (last : Inc) : Conn := { sampleConn [] with incoming := exBody ++ last :: [.packet .pong] }

/-- C45. A complete answer (data, progress and profile packets, then end-of-stream): the stream gives exactly its result blocks,
in order, then the end, again and again; the handle has its connection back, ready for what follows the end, and is bound to its
pool again. -/
theorem C45_complete_answer (c : Conn) (h : Handle) (skip : Bool) (body rest : List Inc) (n : Nat)
    (hc : c.incoming = body ++ .packet .eof :: rest) (hb : ∀ x ∈ body, Middle x) (hh : h.binding = .detached) :
    ∃ s', run ((resultBlocks skip body).length + (n + 1)) (BStream.new ⟨some c, false, false⟩ skip) h =
      ((resultBlocks skip body).map .block ++ List.replicate (n + 1) .ended, s',
       ⟨some { c with incoming := rest }, h.context, .attached⟩) := by
  have h1 := run_body (h := h) (skip := skip) (idx := 0) hc hb n
  rw [wantedFrom_zero] at h1
  have h2 : ∀ k, (reading { c with incoming := .packet .eof :: rest } k skip).next h =
      (.ended, ⟨⟨none, false, false⟩, .finished, k, skip⟩, ⟨some { c with incoming := rest }, h.context, .attached⟩) := by
    intro k
    rw [next_reading, read_eof (next_taken rfl rfl), hh]
    rfl
  rw [run_next (h2 _), run_finished (s := ⟨⟨none, false, false⟩, .finished, _, skip⟩) rfl] at h1
  exact ⟨_, h1⟩

example : ∃ s', run 3 (BStream.new ⟨some (exAnswered (.packet .eof)), false, false⟩ true) ⟨none, sampleCtx, .detached⟩ =
    ([.block sampleBlock, .ended, .ended], s', ⟨some { sampleConn [] with incoming := [.packet .pong] }, sampleCtx, .attached⟩) :=
  C45_complete_answer (exAnswered (.packet .eof)) ⟨none, sampleCtx, .detached⟩ true exBody [.packet .pong] 1 rfl exBody_middle rfl

/-- C45. If the answer ends in a server exception, the stream gives the blocks before it and reports the exception. -/
theorem C45_exception (c : Conn) (h : Handle) (skip : Bool) (body rest : List Inc) (e : ServerError) (n : Nat)
    (hc : c.incoming = body ++ .packet (.exception e) :: rest) (hb : ∀ x ∈ body, Middle x) :
    ∃ s', run ((resultBlocks skip body).length + (n + 1)) (BStream.new ⟨some c, false, false⟩ skip) h =
      ((resultBlocks skip body).map .block ++ .err (.server e) :: List.replicate n .ended, s', h) := by
  have h1 := run_body (h := h) (skip := skip) (idx := 0) hc hb n
  rw [wantedFrom_zero] at h1
  have h2 : ∀ k, (reading { c with incoming := .packet (.exception e) :: rest } k skip).next h =
      (.err (.server e), ⟨⟨some { c with incoming := rest }, false, false⟩, .finished, k, skip⟩, h) := by
    intro k
    rw [next_reading, read_exception (next_packet rfl rfl)]
    rfl
  rw [run_next (h2 _), run_finished (s := ⟨⟨_, false, false⟩, .finished, _, skip⟩) rfl] at h1
  exact ⟨_, h1⟩

example (e : ServerError) : ∃ s', run 3 (BStream.new ⟨some (exAnswered (.packet (.exception e))), false, false⟩ false)
      ⟨none, sampleCtx, .detached⟩ =
    ([.block sampleBlock, .err (.server e), .ended], s', ⟨none, sampleCtx, .detached⟩) :=
  C45_exception (exAnswered (.packet (.exception e))) _ false exBody [.packet .pong] e 1 rfl exBody_middle

/-- C45. If the connection is lost before the answer is complete, the stream gives the blocks before that and reports an error;
it never ends normally. -/
theorem C45_lost (c : Conn) (h : Handle) (skip : Bool) (body rest : List Inc) (n : Nat)
    (hc : c.incoming = body ++ .closed :: rest) (hb : ∀ x ∈ body, Middle x) :
    ∃ s', run ((resultBlocks skip body).length + (n + 1)) (BStream.new ⟨some c, false, false⟩ skip) h =
      ((resultBlocks skip body).map .block ++ .err .eof :: List.replicate n (.err .readBroken), s', h) := by
  have h1 := run_body (h := h) (skip := skip) (idx := 0) hc hb n
  rw [wantedFrom_zero] at h1
  have h2 : ∀ k, (reading { c with incoming := .closed :: rest } k skip).next h =
      (.err .eof, ⟨⟨some { c with incoming := rest }, false, false⟩, .error, k, skip⟩, h) := by
    intro k
    rw [next_reading, read_ended (next_closed rfl)]
    rfl
  rw [run_next (h2 _), run_error (s := ⟨⟨_, false, false⟩, .error, _, skip⟩) rfl] at h1
  exact ⟨_, h1⟩

example : ∃ s', run 3 (BStream.new ⟨some (exAnswered .closed), false, false⟩ true) ⟨none, sampleCtx, .detached⟩ =
    ([.block sampleBlock, .err .eof, .err .readBroken], s', ⟨none, sampleCtx, .detached⟩) :=
  C45_lost _ _ true exBody [.packet .pong] 1 rfl exBody_middle

/-- C45. Whatever the server sends and however often the stream is polled, the blocks given so far are the first of the result
blocks among the packets sent: nothing is invented, repeated, reordered or left out. -/
theorem C45_in_order (c : Conn) (h : Handle) (skip : Bool) (n : Nat) :
    blocksGot (run n (BStream.new ⟨some c, false, false⟩ skip) h).1 <+: resultBlocks skip c.incoming := by
  have := run_prefix (c := c) (idx := 0) (skip := skip) (h := h) n
  rwa [wantedFrom_zero] at this

example : resultBlocks false (exAnswered (.packet .eof)).incoming = [sampleBlock] := rfl

theorem split_middle (l : List Inc) :
    ∃ body tail, l = body ++ tail ∧ (∀ x ∈ body, Middle x) ∧ ∀ x rest, tail = x :: rest → ¬ Middle x := by
  induction l with
  | nil => exact ⟨[], [], rfl, by simp, by simp⟩
  | cons x xs ih =>
    by_cases hx : Middle x
    · obtain ⟨body, tail, rfl, h1, h2⟩ := ih
      refine ⟨x :: body, tail, rfl, ?_, h2⟩
      intro y hy
      simp only [List.mem_cons] at hy
      rcases hy with rfl | hy
      · exact hx
      · exact h1 y hy
    · exact ⟨[], x :: xs, rfl, by simp, by intro y rest e; simp only [List.cons.injEq] at e; exact e.1 ▸ hx⟩

/-- The first `k` items do not depend on how many are awaited. -/
theorem run_take (k n : Nat) (s : BStream) (h : Handle) : (run (k + n) s h).1.take k = (run k s h).1 := by
  induction k generalizing s h with
  | zero => simp [run]
  | succ k ih =>
    rw [show k + 1 + n = (k + n) + 1 by omega]
    rw [run_next (i := (s.next h).1) (s' := (s.next h).2.1) (h' := (s.next h).2.2) rfl,
      run_next (i := (s.next h).1) (s' := (s.next h).2.1) (h' := (s.next h).2.2) rfl]
    simp [ih]

/-- What a stream says first when no data packet is next. -/
theorem next_not_middle {c : Conn} {idx : Nat} {skip : Bool} {h : Handle} (hm : ∀ x rest, c.incoming = x :: rest → ¬ Middle x) :
    (∀ b, ((reading c idx skip).next h).1 ≠ .block b) ∧
    (((reading c idx skip).next h).1 = .ended → ∃ rest, c.incoming = .packet .eof :: rest) := by
  rw [next_reading]
  cases hl : c.incoming with
  | nil => rw [read_waits (next_nil hl)]; simp
  | cons x rest =>
    have hx := hm x rest hl
    cases x with
    | closed => rw [read_ended (next_closed hl)]; simp
    | error e => rw [read_error (next_err hl)]; simp
    | packet p =>
      cases p with
      | eof =>
        refine ⟨?_, fun _ => ⟨rest, rfl⟩⟩
        rw [read_eof (next_taken hl rfl)]
        split
        · simp
        · split <;> simp
      | progress p => exact absurd (.progress p) hx
      | profileInfo p => exact absurd (.profileInfo p) hx
      | block p => exact absurd (.block p) hx
      | exception e => rw [read_exception (next_packet hl rfl)]; simp
      | hello i => rw [read_other (next_taken hl rfl) (by simp) (by simp) (by simp) (by simp) (by simp)]; simp
      | pong => rw [read_other (next_taken hl rfl) (by simp) (by simp) (by simp) (by simp) (by simp)]; simp
      | tableColumns a b => rw [read_other (next_packet hl rfl) (by simp) (by simp) (by simp) (by simp) (by simp)]; simp

/-- C45. A stream that gives the blocks `bs` and then ends normally has seen a complete answer, ended by end-of-stream, and `bs`
is all of its result. -/
theorem C45_ends_only_at_eof (c : Conn) (h : Handle) (skip : Bool) (bs : List Block)
    (hr : (run (bs.length + 1) (BStream.new ⟨some c, false, false⟩ skip) h).1 = bs.map .block ++ [.ended]) :
    ∃ body rest, c.incoming = body ++ .packet .eof :: rest ∧ (∀ x ∈ body, Middle x) ∧ bs = resultBlocks skip body := by
  obtain ⟨body, tail, hc, hb, ht⟩ := split_middle c.incoming
  have h1 := run_body (h := h) (skip := skip) (idx := 0) hc hb
  rw [wantedFrom_zero] at h1
  let W := resultBlocks skip body
  -- the items awaited so far, compared with a long run
  have h2 := h1 bs.length
  have h3 := run_take (bs.length + 1) W.length (reading c 0 skip) h
  rw [show bs.length + 1 + W.length = W.length + (bs.length + 1) by omega] at h3
  change (run (W.length + (bs.length + 1)) (reading c 0 skip) h).1.take _ = (run (bs.length + 1) (reading c 0 skip) h).1 at h3
  rw [show run (bs.length + 1) (reading c 0 skip) h = run (bs.length + 1) (BStream.new ⟨some c, false, false⟩ skip) h from rfl, hr,
    show run (W.length + (bs.length + 1)) (reading c 0 skip) h = _ from h2] at h3
  simp only at h3
  have hn := next_not_middle (c := { c with incoming := tail }) (idx := 0 + (blocksOf body).length) (skip := skip) (h := h) ht
  obtain ⟨it, s1, h4, hx⟩ : ∃ it s1 h4, (reading { c with incoming := tail } (0 + (blocksOf body).length) skip).next h = (it, s1, h4) :=
    ⟨_, _, _, rfl⟩
  rw [run_next hx] at h3
  rw [hx] at hn
  simp only at h3 hn
  generalize (run bs.length s1 h4).1 = more at h3
  -- positions decide
  have key : bs.length = W.length ∧ it = .ended ∧ bs = W := by
    have gen : ∀ (W bs : List Block) (more : List BItem), (W.map BItem.block ++ it :: more).take (bs.length + 1) =
        bs.map .block ++ [.ended] → it = .ended ∧ bs = W := by
      intro W
      induction W with
      | nil =>
        intro bs more e
        cases bs with
        | nil => simp at e; exact ⟨e, rfl⟩
        | cons b bs => simp at e; exact absurd e.1 (hn.1 b)
      | cons w W ih =>
        intro bs more e
        cases bs with
        | nil => simp at e
        | cons b bs =>
          simp only [List.map_cons, List.cons_append, List.length_cons, List.take_succ_cons, List.cons.injEq, BItem.block.injEq] at e
          have := ih bs more e.2
          exact ⟨this.1, by rw [e.1, this.2]⟩
    have := gen W bs more h3
    exact ⟨by rw [this.2], this⟩
  obtain ⟨rest, hrest⟩ := hn.2 key.2.1
  exact ⟨body, rest, by rw [hc, hrest], hb, key.2.2⟩

example : ∀ x ∈ [Inc.packet (.block Block.new), .packet (.progress ⟨1, 2, 3, 0, 0⟩), .packet (.block sampleBlock), .packet (.block Block.new)],
    Middle x := by
  intro x hx
  simp only [List.mem_cons, List.not_mem_nil, or_false] at hx
  rcases hx with rfl | rfl | rfl | rfl <;> constructor

example : resultBlocks true [Inc.packet (.block Block.new), .packet (.progress ⟨1, 2, 3, 0, 0⟩), .packet (.block sampleBlock),
    .packet (.block Block.new)] = [sampleBlock] := rfl

/-! ### C46 -/

/-- C46 (with the check before queries switched on, which is the default; see `C46_leak_violated` for the other case). In every
session with servers that keep to the protocol, whatever was done before on the handle: a query's stream gives only blocks
that the server sent in response to that query (`c.server c.sent`, where the last command sent is the query), each once and in order. -/
theorem C46_no_leak_partial (isInsert : Query → Prop) (numeric : Char → Bool) (cast : Block → Block → Out Block) (h h' : Handle)
    (q : Query) (skip : Bool) (w w' : World) (s : BStream) (hs : Session isInsert numeric cast h) (hw : FreshWorld isInsert w)
    (ho : h.openStream q skip w = (.ok s, h', w')) :
    ∃ c old, s.inner.conn = some c ∧ c.sent = old ++ [.sendQuery q h.context] ∧ c.incoming = c.server c.sent ∧
      ∀ n, blocksGot (run n s h').1 <+: resultBlocks skip (c.server c.sent) := by
  obtain ⟨ht, hp⟩ := session_tidy hs
  obtain ⟨_, _, h3⟩ := openStream_spec ht hw hp ho
  obtain ⟨c, rfl, _, h5, old, h6⟩ := h3 s rfl
  refine ⟨c, old, rfl, h6, h5, fun n => ?_⟩
  have := run_prefix (c := c) (idx := 0) (skip := skip) (h := h') n
  rw [wantedFrom_zero] at this
  rwa [← h5]

/-- The sample server keeps to the protocol when its answers do. -/
theorem sampleServer_orderly (answer : List Inc) (he : Ends answer) : Orderly (fun _ => False) (sampleServer answer) where
  ends := by
    intro cmds
    unfold sampleServer
    split
    · intro pre p post e f
      cases pre with
      | nil => simp at e; exact e.2
      | cons x pre => simp at e
    · exact he
    · exact ends_nil
  cancel := by intro cmds; simp [sampleServer]
  header := by intro _ _ _ _ _ _ h; exact h.elim
  data := by intro cmds a b x hx; simp [sampleServer] at hx

example : FreshConn (fun _ => False) (sampleConn [.packet (.block sampleBlock), .packet .eof]) := by
  refine ⟨rfl, rfl, sampleServer_orderly _ ?_⟩
  intro pre p post e f
  match pre, e with
  | [], e => simp at e; rw [← e.1] at f; cases f
  | [_], e => simp at e; exact e.2.2
  | _ :: _ :: pre, e => simp at e

example : sampleCtx.options.pingBeforeQuery = true := rfl

/-- C46 fails when the check before queries is switched off: after a stream is dropped before its end, the next query on the
handle gives the blocks of the old one (here: everything is sent in the answer to the first query, and the second query is
not answered at all). -/
theorem C46_leak_violated :
    ∃ (c : Conn) (ctx : Context) (q1 q2 : Query) (b : Block) (s : BStream) (h h' : Handle),
      FreshConn (fun _ => False) c ∧
      (Handle.mk (some c) ctx .attached).openStream q1 false [] = (.ok s, h, []) ∧ s.drop h = some h' ∧
      ∃ s2 h2, h'.openStream q2 false [] = (.ok s2, h2, []) ∧ (s2.next h2).1 = .block b ∧
        (∀ c2, s2.inner.conn = some c2 → c2.server c2.sent = []) := by
  let opts : Options := { Options.default with pingBeforeQuery := false }
  let ctx : Context := ⟨54213, "localhost", opts⟩
  let server : List Cmd → List Inc := fun l =>
    if l.length = 2 then (match l.getLast? with | some .cancel => [] | some (.sendQuery _ _) => [.packet (.block sampleBlock), .packet .eof] | _ => [])
    else []
  let c : Conn := ⟨[], server, false, [.hello ctx]⟩
  have hs : Orderly (fun _ => False) server := by
    refine ⟨?_, ?_, ?_, ?_⟩
    · intro cmds
      simp only [server]
      split
      · split
        · exact ends_nil
        · intro pre p post e f
          match pre, e with
          | [], e => simp at e; rw [← e.1] at f; cases f
          | [_], e => simp at e; exact e.2.2
          | _ :: _ :: pre, e => simp at e
        · exact ends_nil
      · exact ends_nil
    · intro cmds; simp only [server]; split <;> simp
    · intro _ _ _ _ _ _ h; exact h.elim
    · intro cmds a b x hx; simp only [server] at hx; split at hx <;> simp at hx
  refine ⟨c, ctx, sampleQuery, sampleQuery, sampleBlock, _, _, _, ⟨rfl, rfl, hs⟩, rfl, rfl, _, _, rfl, ?_, ?_⟩
  · change ((reading _ 0 false).read _).1 = _
    rw [reading_block (b := sampleBlock) (rest := [.packet .eof]) rfl]
    rfl
  · intro c2 hc2
    have : c2.sent.length = 3 ∧ c2.server = server := by
      simp only [Handle.precheck] at hc2
      cases hc2
      exact ⟨rfl, rfl⟩
    rw [this.2]
    simp [server, this.1]

/-! ### C60 -/

/-- C60. Dropping a stream that is being read gives the connection back to the handle, with what has not been read still on its
way and marked as needing resynchronisation; the handle is bound to its pool again. -/
theorem C60_dropped (c : Conn) (idx : Nat) (skip : Bool) (h : Handle) (hh : h.binding = .detached) :
    (BStream.mk ⟨some c, false, false⟩ .reading idx skip).drop h = some ⟨some { c with inconsistent := true }, h.context, .attached⟩ := by
  simp [BStream.drop, hh, Binding.attach]

example : (BStream.mk ⟨some (exAnswered .closed), false, false⟩ .reading 2 true).drop ⟨none, sampleCtx, .detached⟩ =
    some ⟨some { exAnswered .closed with inconsistent := true }, sampleCtx, .attached⟩ :=
  C60_dropped _ 2 true _ rfl

/-- C60. The first thing any later operation does on a marked connection is `clear`: it sends a cancel request and discards
everything up to the end of the old answer. -/
theorem C60_resync (c : Conn) (body rest : List Inc) (hi : c.inconsistent = true)
    (hc : c.incoming ++ c.server (c.sent ++ [.cancel]) = body ++ .packet .eof :: rest) (hb : ∀ x ∈ body, Leftover x) :
    c.clear = .ok ⟨rest, c.server, false, c.sent ++ [.cancel]⟩ := by
  unfold Conn.clear
  rw [hi]
  simp only [Bool.not_true, Bool.false_eq_true, if_false, Conn.call]
  rw [loop_skip (f := clearBody) hc, loop_item (next_taken rfl rfl)]
  · simp only [clearBody]
    rw [loop_ended next_none]
  · intro x hx
    obtain ⟨p, rfl, hp⟩ := hb x hx
    refine ⟨p, rfl, ?_, ?_⟩
    · cases ht : p.takesConn
      · rfl
      · exact absurd (taken_final ht) hp
    · intro v
      cases p with
      | exception e => exact absurd (.exception e) hp
      | eof => exact absurd .eof hp
      | pong => exact absurd .pong hp
      | _ => rfl

example : ({ exAnswered (.packet .eof) with inconsistent := true }).clear =
    .ok ⟨[.packet .pong], sampleServer [], false, [.hello sampleCtx, .cancel]⟩ :=
  C60_resync { exAnswered (.packet .eof) with inconsistent := true } exBody [.packet .pong] rfl rfl (by
    intro x hx
    simp only [exBody, List.mem_cons, List.not_mem_nil, or_false] at hx
    rcases hx with rfl | rfl | rfl <;> exact ⟨_, rfl, by intro h; cases h⟩)

/-- C60. If the old answer ended in an exception, the operation fails with it and the connection is given up, so nothing of the
old query can reach a later one. -/
theorem C60_old_exception (c : Conn) (body rest : List Inc) (e : ServerError) (hi : c.inconsistent = true)
    (hc : c.incoming ++ c.server (c.sent ++ [.cancel]) = body ++ .packet (.exception e) :: rest) (hb : ∀ x ∈ body, Leftover x) :
    c.clear = .err (.server e) := by
  unfold Conn.clear
  rw [hi]
  simp only [Bool.not_true, Bool.false_eq_true, if_false, Conn.call]
  rw [loop_skip (f := clearBody) hc, loop_item (next_packet rfl rfl)]
  · rfl
  · intro x hx
    obtain ⟨p, rfl, hp⟩ := hb x hx
    refine ⟨p, rfl, ?_, ?_⟩
    · cases ht : p.takesConn
      · rfl
      · exact absurd (taken_final ht) hp
    · intro v
      cases p with
      | exception e => exact absurd (.exception e) hp
      | eof => exact absurd .eof hp
      | pong => exact absurd .pong hp
      | _ => rfl

example (e : ServerError) : ({ exAnswered (.packet (.exception e)) with inconsistent := true }).clear = .err (.server e) :=
  C60_old_exception { exAnswered (.packet (.exception e)) with inconsistent := true } exBody [.packet .pong] e rfl rfl (by
    intro x hx
    simp only [exBody, List.mem_cons, List.not_mem_nil, or_false] at hx
    rcases hx with rfl | rfl | rfl <;> exact ⟨_, rfl, by intro h; cases h⟩)

/-- C60. Operations see a marked connection only through what `clear` makes of it: ping, execute and insert on `c` do what they do
on the resynchronised connection, and nothing at all if `clear` fails. -/
theorem C60_checked_first (c c' : Conn) (q : Query) (ctx : Context) (cast : Block → Block → Out Block) (b : Block) (bind : Binding)
    (hc : c.clear = .ok c') (hi : c'.inconsistent = false) :
    c.execute q ctx = c'.execute q ctx ∧ c.insert cast q ctx b = c'.insert cast q ctx b ∧
      (Handle.mk (some c) ctx bind).ping = (Handle.mk (some c') ctx bind).ping := by
  have h2 : c'.clear = .ok c' := by simp [Conn.clear, hi]
  refine ⟨?_, ?_, ?_⟩
  · unfold Conn.execute; rw [hc, h2]
  · unfold Conn.insert; rw [hc, h2]
  · unfold Handle.ping; simp only [hc, h2]

example : ∀ x ∈ [Inc.packet (.block sampleBlock), .packet (.progress ⟨1, 2, 3, 0, 0⟩), .packet (.tableColumns "t" "c")], Leftover x := by
  intro x hx
  simp only [List.mem_cons, List.not_mem_nil, or_false] at hx
  rcases hx with rfl | rfl | rfl <;> exact ⟨_, rfl, by intro h; cases h⟩

/-! ### C47 -/

/-- C47 for ping: on a connection in step with the server, a ping never panics, and if the connection is closed before the
answer it returns an error. -/
theorem C47_ping_partial (c : Conn) (ctx : Context) (b : Binding) (hi : c.inconsistent = false) :
    (Handle.mk (some c) ctx b).ping.1 ≠ .panic ∧
    ∀ pre rest, c.incoming ++ c.server (c.sent ++ [.ping]) = pre ++ .closed :: rest → .packet .pong ∉ pre →
      ∃ e, (Handle.mk (some c) ctx b).ping.1 = .err e := by
  have hcl : c.clear = .ok c := by simp [Conn.clear, hi]
  constructor
  · unfold Handle.ping
    simp only [hcl]
    split <;> simp
  · intro pre rest hc hp
    unfold Handle.ping
    simp only [hcl, Conn.call]
    cases pre with
    | nil => rw [loop_ended (next_closed hc)]; exact ⟨_, rfl⟩
    | cons x pre =>
      cases x with
      | closed => rw [loop_ended (next_closed hc)]; exact ⟨_, rfl⟩
      | error e => rw [loop_error (next_err hc)]; exact ⟨_, rfl⟩
      | packet p =>
        cases p with
        | pong => exact absurd (by simp) hp
        | hello i => rw [loop_item (next_taken hc rfl)]; exact ⟨_, rfl⟩
        | eof => rw [loop_item (next_taken hc rfl)]; exact ⟨_, rfl⟩
        | _ => rw [loop_item (next_packet hc rfl)]; exact ⟨_, rfl⟩

example : ∃ e, (Handle.mk (some (exAnswered .closed)) sampleCtx .attached).ping.1 = .err e :=
  (C47_ping_partial (exAnswered .closed) sampleCtx .attached rfl).2 exBody ([.packet .pong] ++ [.packet .pong]) rfl (by simp [exBody])

/-- C47 for queries: once the stream is open, a connection closed at any point of the answer is reported as an error
(`C45_lost`), and no sequence of packets whatever makes reading the stream panic. -/
theorem C47_query_partial (c : Conn) (h : Handle) (skip : Bool) (n : Nat) (hh : h.binding = .detached) :
    .panic ∉ (run n (BStream.new ⟨some c, false, false⟩ skip) h).1 := by
  have gen : ∀ n (s : BStream) (h : Handle), h.binding ≠ .none → .panic ∉ (run n s h).1 := by
    intro n
    induction n with
    | zero => intro s h _; simp [run]
    | succ n ih =>
      intro s h hb
      have key : (s.next h).1 ≠ .panic ∧ (s.next h).2.2.binding ≠ .none := by
        unfold BStream.next
        split
        · -- reading: strong induction on the remaining packets
          generalize hk : s.inner.fuel = k
          induction k using Nat.strongRecOn generalizing s with
          | _ k ihk =>
            subst hk
            generalize hx : s.inner.next = x
            obtain ⟨it, i⟩ := x
            cases it with
            | waits => rw [read_waits hx]; exact ⟨by simp, hb⟩
            | ended => rw [read_ended hx]; exact ⟨by simp, hb⟩
            | error e => rw [read_error hx]; exact ⟨by simp, hb⟩
            | item p cn =>
              have hlt := CStream.next_item hx
              cases p with
              | eof =>
                rw [read_eof hx]
                split
                · exact ⟨by simp, hb⟩
                · rename_i hna
                  split
                  · next b' hb' =>
                    refine ⟨by simp, ?_⟩
                    simp only
                    intro e
                    subst e
                    cases hbb : h.binding <;> rw [hbb] at hb' <;> simp [Binding.attach] at hb'
                  · next h2 =>
                    cases hbb : h.binding with
                    | none => exact absurd hbb hb
                    | attached => exact absurd hbb hna
                    | detached => rw [hbb] at h2; simp [Binding.attach] at h2
              | progress p => rw [read_progress hx]; exact ihk _ hlt _ (by assumption) rfl
              | profileInfo p => rw [read_profile hx]; exact ihk _ hlt _ (by assumption) rfl
              | exception e => rw [read_exception hx]; exact ⟨by simp, hb⟩
              | block b =>
                rw [read_block hx]
                split
                · exact ⟨by simp, hb⟩
                · exact ihk _ hlt _ (by assumption) rfl
              | hello i => rw [read_other hx (by simp) (by simp) (by simp) (by simp) (by simp)]; exact ⟨by simp, hb⟩
              | pong => rw [read_other hx (by simp) (by simp) (by simp) (by simp) (by simp)]; exact ⟨by simp, hb⟩
              | tableColumns a b => rw [read_other hx (by simp) (by simp) (by simp) (by simp) (by simp)]; exact ⟨by simp, hb⟩
        · exact ⟨by simp, hb⟩
        · exact ⟨by simp, hb⟩
      rw [run_next (i := (s.next h).1) (s' := (s.next h).2.1) (h' := (s.next h).2.2) rfl]
      simp only [List.mem_cons, not_or]
      exact ⟨fun e => key.1 e.symm, ih _ _ key.2⟩
  exact gen n _ h (by rw [hh]; simp)

example : .panic ∉ (run 9 (BStream.new ⟨some (exAnswered .closed), false, false⟩ false) ⟨none, sampleCtx, .detached⟩).1 :=
  C47_query_partial _ _ false 9 rfl

/-- C47 fails for the handshake: a connection closed instead of the greeting makes `hello` panic. -/
theorem C47_hello_violated (c : Conn) (ctx : Context) (b : Binding) (rest : List Inc)
    (hc : c.incoming ++ c.server (c.sent ++ [.hello ctx]) = .closed :: rest) : (Handle.mk (some c) ctx b).hello.1 = .panic := by
  unfold Handle.hello
  simp only [Conn.call]
  rw [loop_ended (next_closed hc)]

/-- C47 fails for `execute`: a connection closed at any point before the end of the answer makes it panic. -/
theorem C47_execute_violated (c : Conn) (q : Query) (ctx : Context) (body rest : List Inc) (hi : c.inconsistent = false)
    (hc : c.incoming ++ c.server (c.sent ++ [.sendQuery q ctx]) = body ++ .closed :: rest) (hb : ∀ x ∈ body, Middle x) :
    c.execute q ctx = .panic := by
  have hcl : c.clear = .ok c := by simp [Conn.clear, hi]
  unfold Conn.execute
  simp only [hcl, Conn.call]
  rw [loop_skip (f := executeBody) hc, loop_ended (next_closed rfl)]
  intro x hx
  cases hb x hx <;> exact ⟨_, rfl, rfl, fun _ => rfl⟩

/-- C47 fails for `insert`: a connection closed instead of the header makes it panic, and so does one closed instead of the
answer to a block of data. -/
theorem C47_insert_violated (cast : Block → Block → Out Block) (c : Conn) (q : Query) (ctx : Context) (b : Block)
    (rest : List Inc) :
    (c.inconsistent = false → c.incoming ++ c.server (c.sent ++ [.sendQuery q ctx]) = .closed :: rest →
      c.insert cast q ctx b = .panic) ∧
    (c.incoming ++ c.server (c.sent ++ [.union (.sendData b ctx) (.sendData Block.new ctx)]) = .closed :: rest →
      c.insertBlock ctx b = .panic) := by
  constructor
  · intro hi hc
    have hcl : c.clear = .ok c := by simp [Conn.clear, hi]
    unfold Conn.insert
    simp only [hcl, Conn.sendInsertQuery, Conn.call, CStream.readOneBlock]
    rw [loop_ended (next_closed hc)]
  · intro hc
    unfold Conn.insertBlock
    simp only [Conn.call, CStream.readOneBlock]
    rw [loop_ended (next_closed hc)]

/-- C47 fails for every operation on a connection that needs resynchronisation: if it is closed before the end of the old answer,
`clear` panics, and with it ping, execute and insert. -/
theorem C47_clear_violated (cast : Block → Block → Out Block) (c : Conn) (q : Query) (ctx : Context) (b : Block) (bind : Binding)
    (body rest : List Inc) (hi : c.inconsistent = true)
    (hc : c.incoming ++ c.server (c.sent ++ [.cancel]) = body ++ .closed :: rest) (hb : ∀ x ∈ body, Leftover x) :
    (Handle.mk (some c) ctx bind).ping.1 = .panic ∧ c.execute q ctx = .panic ∧ c.insert cast q ctx b = .panic := by
  have hcl : c.clear = .panic := by
    unfold Conn.clear
    rw [hi]
    simp only [Bool.not_true, Bool.false_eq_true, if_false, Conn.call]
    rw [loop_skip (f := clearBody) hc, loop_ended (next_closed rfl)]
    intro x hx
    obtain ⟨p, rfl, hp⟩ := hb x hx
    refine ⟨p, rfl, ?_, ?_⟩
    · cases ht : p.takesConn
      · rfl
      · exact absurd (taken_final ht) hp
    · intro v
      cases p with
      | exception e => exact absurd (.exception e) hp
      | eof => exact absurd .eof hp
      | pong => exact absurd .pong hp
      | _ => rfl
  refine ⟨?_, ?_, ?_⟩
  · unfold Handle.ping; simp [hcl]
  · unfold Conn.execute; simp [hcl]
  · unfold Conn.insert; simp [hcl]

example : (sampleConn [.packet (.block sampleBlock), .closed]).incoming ++
    (sampleConn [.packet (.block sampleBlock), .closed]).server ([.hello sampleCtx] ++ [.sendQuery sampleQuery sampleCtx]) =
    [.packet (.block sampleBlock)] ++ .closed :: [] := rfl

/-! ### C51 -/

/-- A connection on which pings fail. -/
def deadConn : Conn := ⟨[], fun _ => [.packet (.exception ⟨1, "", "", ""⟩)], false, []⟩

theorem deadConn_ping (ctx : Context) (b : Binding) :
    (Handle.mk (some deadConn) ctx b).ping = (.err (.server ⟨1, "", "", ""⟩), ⟨none, ctx, b⟩) := by
  have : deadConn.clear = .ok deadConn := rfl
  unfold Handle.ping
  simp only [this, Conn.call]
  rw [loop_item (next_packet (p := .exception ⟨1, "", "", ""⟩) (rest := []) rfl rfl)]
  rfl

/-- C51 fails: whatever the configured number of retries `m > 0`, there is no bound on the number of reconnections. If pings
keep failing on connections that can be opened, all of `n` reconnections are used, for every `n`. -/
theorem C51_unbounded_violated (m : Nat) (hm : 0 < m) (ctx : Context) (n : Nat) :
    ∃ h', retryGuard true m ⟨some deadConn, ctx, .detached⟩ (List.replicate n (some deadConn)) = (.waits, h', []) := by
  have gen : ∀ n b, ∃ h', retryLoop true m 0 false ⟨some deadConn, ctx, b⟩ (List.replicate n (some deadConn)) = (.waits, h', []) := by
    intro n
    induction n with
    | zero =>
      intro b
      rw [retryLoop_eq]
      simp only [Bool.false_eq_true, if_false, deadConn_ping]
      rw [if_neg (by simp <;> omega)]
      exact ⟨_, rfl⟩
    | succ n ih =>
      intro b
      obtain ⟨h', hi⟩ := ih .attached
      rw [retryLoop_eq]
      simp only [Bool.false_eq_true, if_false, deadConn_ping]
      rw [if_neg (by simp <;> omega)]
      exact ⟨h', hi⟩
  exact gen n _

/-- C51, what holds: however pings and reconnections turn out, at most `m + 1` reconnections that fail are attempted (one more
than the configured number), the outcomes are used in order, and after the last failure the error is reported. -/
theorem C51_failed_reconnections_partial (pooled : Bool) (m : Nat) (h : Handle) (w : World) :
    ∃ used, w = used ++ (retryGuard pooled m h w).2.2 ∧ (used.filter (·.isNone)).length ≤ m + 1 ∧
      ((used.filter (·.isNone)).length = m + 1 → ∃ e, (retryGuard pooled m h w).1 = .err e) := by
  have gen : ∀ (w : World) (a : Nat) (skip : Bool) (h : Handle), a ≤ m →
      ∃ used, w = used ++ (retryLoop pooled m a skip h w).2.2 ∧ (used.filter (·.isNone)).length + a ≤ m + 1 ∧
        ((used.filter (·.isNone)).length + a = m + 1 → ∃ e, (retryLoop pooled m a skip h w).1 = .err e) := by
    intro w
    induction w with
    | nil =>
      intro a skip h ha
      rw [retryLoop_eq]
      generalize (if skip then (OpRes.err OpErr.connect, h) else h.ping) = x
      obtain ⟨r, g⟩ := x
      refine ⟨[], ?_, by simp <;> omega, by simp <;> omega⟩
      cases r with
      | err e => simp only; split <;> rfl
      | _ => rfl
    | cons o w ih =>
      intro a skip h ha
      rw [retryLoop_eq]
      generalize (if skip then (OpRes.err OpErr.connect, h) else h.ping) = x
      obtain ⟨r, g⟩ := x
      cases r with
      | ok u => exact ⟨[], rfl, by simp <;> omega, by simp <;> omega⟩
      | panic => exact ⟨[], rfl, by simp <;> omega, by simp <;> omega⟩
      | waits => exact ⟨[], rfl, by simp <;> omega, by simp <;> omega⟩
      | err e =>
        simp only
        split
        · exact ⟨[], rfl, by simp <;> omega, by simp <;> omega⟩
        · cases o with
          | none =>
            simp only
            split
            · exact ⟨[none], rfl, by simp <;> omega, fun _ => ⟨_, rfl⟩⟩
            · obtain ⟨used, h1, h2, h3⟩ := ih (a + 1) true g (by omega)
              refine ⟨none :: used, by simp [← h1], by simp <;> omega, ?_⟩
              intro hc
              simp only [Option.isNone_none, List.filter_cons_of_pos, List.length_cons] at hc
              exact h3 (by omega)
          | some c =>
            simp only
            obtain ⟨used, h1, h2, h3⟩ := ih a false { g with inner := some c, binding := if pooled then .attached else .none } ha
            refine ⟨some c :: used, by simp [← h1], by simpa using h2, ?_⟩
            intro hc
            simp only [Option.isNone_some, Bool.false_eq_true, not_false_eq_true, List.filter_cons_of_neg] at hc
            exact h3 (by omega)
  obtain ⟨used, h1, h2, h3⟩ := gen w 0 false h (Nat.zero_le _)
  exact ⟨used, h1, by omega, fun e => h3 (by omega)⟩

/-- C51, what holds: if no reconnection succeeds, a check that fails gives up after exactly `m + 1` of them with the error (none
at all when no retries are configured). -/
theorem C51_gives_up_partial (pooled : Bool) (m : Nat) (h g : Handle) (e : OpErr) (w : World) (hp : h.ping = (.err e, g)) :
    retryGuard pooled m h (List.replicate (m + 1) none ++ w) =
      if m = 0 then (.err e, g, none :: w) else (.err .connect, g, w) := by
  have gen : ∀ k a, a + k = m → retryLoop pooled m a true g (List.replicate (k + 1) none ++ w) = (.err .connect, g, w) := by
    intro k
    induction k with
    | zero =>
      intro a ha
      rw [retryLoop_eq]
      simp only [if_true, Bool.not_true, Bool.false_and, Bool.false_eq_true, if_false, List.replicate, List.cons_append,
        List.nil_append]
      rw [if_pos (by omega)]
    | succ k ih =>
      intro a ha
      rw [retryLoop_eq]
      simp only [if_true, Bool.not_true, Bool.false_and, Bool.false_eq_true, if_false]
      rw [List.replicate_succ]
      simp only [List.cons_append]
      rw [if_neg (by omega)]
      exact ih (a + 1) (by omega)
  unfold retryGuard
  rw [retryLoop_eq]
  simp only [Bool.false_eq_true, if_false, hp]
  cases m with
  | zero => rfl
  | succ m =>
    rw [if_neg (show ¬ ((!false && decide (m + 1 ≤ 0)) = true) by simp), if_neg (show ¬ (m + 1 = 0) by omega), List.replicate_succ]
    simp only [List.cons_append]
    rw [if_neg (by omega)]
    exact gen m 1 (by omega)

example : (Handle.mk (some deadConn) sampleCtx .detached).ping = (.err (.server ⟨1, "", "", ""⟩), ⟨none, sampleCtx, .detached⟩) :=
  deadConn_ping _ _

/-! ### C52 -/

theorem detach_some {a b : Binding} (h : a.detach = some b) : b = .detached := by
  cases a <;> simp [Binding.detach] at h
  exact h.symm

theorem open_detaches {h h1 : Handle} {q : Query} {skip : Bool} {w w' : World} {s : BStream}
    (ho : h.openStream q skip w = (.ok s, h1, w')) :
    h1.binding = .detached ∧ h1.inner = none ∧ ∃ c, s = BStream.new ⟨some c, false, false⟩ skip := by
  unfold Handle.openStream at ho
  split at ho
  · split at ho
    · simp at ho
    · next b hb =>
      split at ho
      · simp at ho
      · next g w1 hg c hc =>
        simp only [Prod.mk.injEq, OpRes.ok.injEq] at ho
        obtain ⟨rfl, rfl, _⟩ := ho
        refine ⟨?_, rfl, _, rfl⟩
        exact detach_some hb
  · simp at ho
  · simp at ho
  · simp at ho

/-- A handle not bound to a pool panics in every query, and with the check on in every execute. -/
theorem unbound_panics {h : Handle} (hb : h.binding ≠ .attached) (q : Query) (skip : Bool) (w : World) :
    (h.openStream q skip w).1 = .panic ∧ (h.context.options.pingBeforeQuery = true → (h.execute q w).1 = .panic) := by
  have hd : h.binding.detach = none := by
    cases hbb : h.binding <;> first | rfl | exact absurd hbb hb
  have hk : h.checkConnection w = (.panic, { h with binding := .none }, w) := by
    unfold Handle.checkConnection
    rw [hd]
  constructor
  · unfold Handle.openStream Handle.precheck
    split
    · next hx =>
      split at hx
      · rw [hk] at hx; simp at hx
      · simp only [Prod.mk.injEq, true_and] at hx
        obtain ⟨rfl, rfl⟩ := hx
        rw [hd]
    · next hx =>
      split at hx
      · rw [hk] at hx; simp at hx
      · simp at hx
    · rfl
    · next hx =>
      split at hx
      · rw [hk] at hx; simp at hx
      · simp at hx
  · intro hp
    unfold Handle.execute Handle.precheck
    rw [if_pos hp, hk]

/-- C52 fails: after a query that ends in a server exception, and is then dropped, the next query on the handle panics (and with
the check before queries on, which is the default, so does the next execute). -/
theorem C52_after_exception_violated (h h1 : Handle) (q : Query) (skip : Bool) (w w' : World) (s : BStream) (c : Conn)
    (body rest : List Inc) (e : ServerError) (ho : h.openStream q skip w = (.ok s, h1, w')) (hs : s.inner.conn = some c)
    (hc : c.incoming = body ++ .packet (.exception e) :: rest) (hb : ∀ x ∈ body, Middle x) :
    ∃ s', run ((resultBlocks skip body).length + 1) s h1 =
        ((resultBlocks skip body).map .block ++ [.err (.server e)], s', h1) ∧ s'.drop h1 = some h1 ∧
      ∀ q2 skip2 w2, (h1.openStream q2 skip2 w2).1 = .panic ∧
        (h1.context.options.pingBeforeQuery = true → (h1.execute q2 w2).1 = .panic) := by
  obtain ⟨h2, h3, c', rfl⟩ := open_detaches ho
  simp only [BStream.new, Option.some.injEq] at hs
  subst hs
  have h4 := run_body (h := h1) (skip := skip) (idx := 0) hc hb 0
  rw [wantedFrom_zero] at h4
  have h5 : ∀ k, (reading { c' with incoming := .packet (.exception e) :: rest } k skip).next h1 =
      (.err (.server e), ⟨⟨some { c' with incoming := rest }, false, false⟩, .finished, k, skip⟩, h1) := by
    intro k
    rw [next_reading, read_exception (next_packet rfl rfl)]
    rfl
  rw [run_next (h5 _)] at h4
  exact ⟨_, h4, rfl, fun q2 skip2 w2 => unbound_panics (by rw [h2]; simp) q2 skip2 w2⟩

/-- Options with the check before queries switched off. -/
def uncheckedCtx : Context := ⟨54213, "localhost", { Options.default with pingBeforeQuery := false }⟩

example : ∃ s h1, (Handle.mk (some (sampleConn [.packet (.block sampleBlock), .packet (.exception ⟨1, "a", "b", "c"⟩)])) uncheckedCtx
      .attached).openStream sampleQuery true [] = (.ok s, h1, []) ∧
    ∃ c, s.inner.conn = some c ∧ c.incoming = [.packet (.block sampleBlock)] ++ .packet (.exception ⟨1, "a", "b", "c"⟩) :: [] :=
  ⟨_, _, rfl, _, rfl, rfl⟩

/-- C52 fails in the same way after a query whose connection is lost. -/
theorem C52_after_loss_violated (h h1 : Handle) (q : Query) (skip : Bool) (w w' : World) (s : BStream) (c : Conn)
    (body rest : List Inc) (ho : h.openStream q skip w = (.ok s, h1, w')) (hs : s.inner.conn = some c)
    (hc : c.incoming = body ++ .closed :: rest) (hb : ∀ x ∈ body, Middle x) :
    ∃ s', run ((resultBlocks skip body).length + 1) s h1 =
        ((resultBlocks skip body).map .block ++ [.err .eof], s', h1) ∧ s'.drop h1 = some h1 ∧
      ∀ q2 skip2 w2, (h1.openStream q2 skip2 w2).1 = .panic ∧
        (h1.context.options.pingBeforeQuery = true → (h1.execute q2 w2).1 = .panic) := by
  obtain ⟨h2, h3, c', rfl⟩ := open_detaches ho
  simp only [BStream.new, Option.some.injEq] at hs
  subst hs
  have h4 := run_body (h := h1) (skip := skip) (idx := 0) hc hb 0
  rw [wantedFrom_zero] at h4
  have h5 : ∀ k, (reading { c' with incoming := .closed :: rest } k skip).next h1 =
      (.err .eof, ⟨⟨some { c' with incoming := rest }, false, false⟩, .error, k, skip⟩, h1) := by
    intro k
    rw [next_reading, read_ended (next_closed rfl)]
    rfl
  rw [run_next (h5 _)] at h4
  exact ⟨_, h4, rfl, fun q2 skip2 w2 => unbound_panics (by rw [h2]; simp) q2 skip2 w2⟩

/-- C52 fails after a failed check: if the ping fails and reconnecting fails as often as is tried, the operation returns an error
and the next query or checked execute on the handle panics. -/
theorem C52_after_failed_check_violated (h g : Handle) (e : OpErr) (q : Query) (w : World) (hb : h.binding = .attached)
    (hp : h.context.options.pingBeforeQuery = true) (hr : 0 < h.context.options.sendRetries)
    (hping : ({ h with binding := .detached } : Handle).ping = (.err e, g)) :
    ∃ h1, h.execute q (List.replicate (h.context.options.sendRetries + 1) none ++ w) = (.err .connect, h1, w) ∧
      ∀ q2 skip2 w2, (h1.openStream q2 skip2 w2).1 = .panic ∧ (h1.execute q2 w2).1 = .panic := by
  have h1 := C51_gives_up_partial true h.context.options.sendRetries { h with binding := .detached } g e w hping
  rw [if_neg (by omega)] at h1
  have hg : g.binding = .detached ∧ g.context = h.context := by
    have := ping_context (h := { h with binding := .detached })
    rw [hping] at this
    exact ⟨this.2, this.1⟩
  refine ⟨g, ?_, fun q2 skip2 w2 => ?_⟩
  · unfold Handle.execute Handle.precheck Handle.checkConnection
    rw [if_pos hp, hb]
    simp only [Binding.detach]
    rw [h1]
  · have := unbound_panics (h := g) (by rw [hg.1]; simp) q2 skip2 w2
    exact ⟨this.1, this.2 (by rw [hg.2]; exact hp)⟩

/-- C52 fails for handles opened without a pool: every query panics, even the first. -/
theorem C52_without_pool_violated (c : Conn) (ctx : Context) (q : Query) (skip : Bool) (w : World) :
    ((Handle.mk (some c) ctx .none).openStream q skip w).1 = .panic := (unbound_panics (by simp) q skip w).1

theorem retryLoop_binding {m a : Nat} {skip : Bool} {h : Handle} {w : World} (hb : h.binding ≠ .none) :
    (retryLoop true m a skip h w).2.1.binding ≠ .none := by
  induction w generalizing a skip h with
  | nil =>
    rw [retryLoop_eq]
    have h2 : (if skip then (OpRes.err OpErr.connect, h) else h.ping).2.binding ≠ .none := by
      split
      · exact hb
      · rw [ping_context.2]; exact hb
    generalize (if skip then (OpRes.err OpErr.connect, h) else h.ping) = x at *
    obtain ⟨r, g⟩ := x
    cases r with
    | err e => simp only; split <;> exact h2
    | _ => exact h2
  | cons o w ih =>
    rw [retryLoop_eq]
    have h2 : (if skip then (OpRes.err OpErr.connect, h) else h.ping).2.binding ≠ .none := by
      split
      · exact hb
      · rw [ping_context.2]; exact hb
    generalize (if skip then (OpRes.err OpErr.connect, h) else h.ping) = x at *
    obtain ⟨r, g⟩ := x
    cases r with
    | err e =>
      simp only
      split
      · exact h2
      · cases o with
        | none =>
          simp only
          split
          · exact h2
          · exact ih h2
        | some c => exact ih (by simp)
    | _ => exact h2

theorem precheck_attached {h h' : Handle} {w w' : World} (hb : h.binding = .attached) (e : h.precheck w = (.ok (), h', w')) :
    h'.binding = .attached := by
  unfold Handle.precheck at e
  split at e
  · unfold Handle.checkConnection at e
    rw [hb] at e
    simp only [Binding.detach] at e
    have hbb := retryLoop_binding (m := h.context.options.sendRetries) (a := 0) (skip := false) (h := { h with binding := .detached })
      (w := w) (by simp)
    rw [show retryLoop true h.context.options.sendRetries 0 false { h with binding := .detached } w =
      retryGuard true h.context.options.sendRetries { h with binding := .detached } w from rfl] at hbb
    generalize retryGuard true h.context.options.sendRetries { h with binding := .detached } w = x at *
    obtain ⟨r, g, w1⟩ := x
    cases r with
    | ok u =>
      simp only [Prod.mk.injEq, true_and] at e
      obtain ⟨rfl, _⟩ := e
      simp only at hbb ⊢
      cases hg : g.binding with
      | none => exact absurd hg hbb
      | attached => rfl
      | detached => rfl
    | _ => simp at e
  · simp only [Prod.mk.injEq, true_and] at e
    rw [← e.1]
    exact hb

/-- C52, what holds: when the check before an execute or insert succeeds (or is off), the handle stays bound to its pool however
the operation itself ends — exception, loss, timeout; and a ping never changes the binding. -/
theorem C52_stays_bound_partial (numeric : Char → Bool) (cast : Block → Block → Out Block) (h h' : Handle) (q t : Query) (b : Block)
    (w w' : World) (hb : h.binding = .attached) (hp : h.precheck w = (.ok (), h', w')) :
    (h.execute q w).2.1.binding = .attached ∧ (h.insert numeric cast t b w).2.1.binding = .attached ∧ h.ping.2.binding = .attached := by
  have h1 := precheck_attached hb hp
  refine ⟨?_, ?_, ?_⟩
  · unfold Handle.execute
    rw [hp]
    simp only
    split
    · exact h1
    · split <;> exact h1
  · unfold Handle.insert
    split
    · exact hb
    · exact hb
    · rw [hp]
      simp only
      split
      · exact h1
      · split <;> exact h1
  · rw [ping_context.2]; exact hb

/-- C52, what holds: a bound handle whose connection is gone (as a failed execute, insert or ping leaves it). With the check off,
every operation returns an error. With the check on and at least one retry, if a new connection that answers pings can be
opened, the operation works on it. -/
theorem C52_recovers_partial (ctx : Context) (q : Query) (skip : Bool) (c c' : Conn) (w : World)
    (hping : (Handle.mk (some c) ctx .attached).ping = (.ok (), ⟨some c', ctx, .attached⟩)) :
    (ctx.options.pingBeforeQuery = false →
      (Handle.mk none ctx .attached).execute q w = (.err .broken, ⟨none, ctx, .attached⟩, w) ∧
      (Handle.mk none ctx .attached).openStream q skip w = (.err .broken, ⟨none, ctx, .detached⟩, w)) ∧
    (ctx.options.pingBeforeQuery = true → 0 < ctx.options.sendRetries →
      (Handle.mk none ctx .attached).openStream q skip (some c :: w) =
        (.ok (BStream.new (c'.call (.sendQuery q ctx)) skip), ⟨none, ctx, .detached⟩, w) ∧
      ((Handle.mk none ctx .attached).execute q (some c :: w)).1 =
        match c'.execute q ctx with | .ok _ => .ok () | .err e => .err e | .panic => .panic | .waits => .waits) := by
  constructor
  · intro hp
    have h1 : ∀ w, (Handle.mk none ctx .attached).precheck w = (.ok (), ⟨none, ctx, .attached⟩, w) := by
      intro w; unfold Handle.precheck; simp [hp]
    constructor
    · unfold Handle.execute; rw [h1]
    · unfold Handle.openStream; rw [h1]; rfl
  · intro hp hr
    have h1 : (Handle.mk none ctx .attached).precheck (some c :: w) = (.ok (), ⟨some c', ctx, .attached⟩, w) := by
      unfold Handle.precheck Handle.checkConnection retryGuard
      simp only [hp, if_true, Binding.detach]
      rw [retryLoop_eq]
      have hn : (Handle.mk none ctx .detached).ping = (.err .broken, ⟨none, ctx, .detached⟩) := rfl
      simp only [Bool.false_eq_true, if_false, hn]
      rw [if_neg (by simp; omega)]
      simp only [if_true]
      rw [retryLoop_eq]
      simp only [Bool.false_eq_true, if_false, hping]
      rfl
    constructor
    · unfold Handle.openStream; rw [h1]; rfl
    · unfold Handle.execute; rw [h1]; simp only; cases c'.execute q ctx <;> rfl

example : (Handle.mk (some (sampleConn [])) sampleCtx .attached).ping =
    (.ok (), ⟨some ⟨[], sampleServer [], false, [.hello sampleCtx, .ping]⟩, sampleCtx, .attached⟩) := by
  have : (sampleConn []).clear = .ok (sampleConn []) := rfl
  unfold Handle.ping
  simp only [this, Conn.call]
  rw [loop_item (next_taken (p := .pong) (rest := []) rfl rfl)]
  simp only [pingBody]
  rw [loop_ended next_none]
  rfl

/-! ### C18 -/

theorem chunkList_yields {it : ChunkIter} {bs : List Block} (h : Yields it bs) : ∀ fuel, bs.length < fuel → chunkList fuel it = .ok bs := by
  induction h with
  | done h =>
    intro fuel hf
    cases fuel with
    | zero => omega
    | succ fuel => rw [chunkList, h]; rfl
  | more h _ ih =>
    intro fuel hf
    cases fuel with
    | zero => omega
    | succ fuel =>
      rw [chunkList, h]
      simp only [List.length_cons] at hf
      simp only [obind_ok]
      rw [ih fuel (by omega)]
      rfl

theorem sent_readOneBlock {c c' : Conn} {b : Option Block} (h : CStream.readOneBlock ⟨some c, false, false⟩ = .ok (c', b)) :
    c'.sent = c.sent := by
  rcases readOneBlock_ok h with ⟨_, _, _, _, _, rfl⟩ | ⟨_, _, _, _, rfl, _⟩ <;> rfl

theorem sent_sendInsertQuery {c c' : Conn} {ctx : Context} {q : Query} {b : Block} (h : c.sendInsertQuery ctx q = .ok (c', b)) :
    c'.sent = c.sent ++ [.sendQuery q ctx] := by
  unfold Conn.sendInsertQuery at h
  split at h <;> simp only [OpRes.ok.injEq, reduceCtorEq, Prod.mk.injEq] at h
  next hr => rw [← h.1]; exact sent_readOneBlock hr

theorem sent_insertBlock {c c' : Conn} {ctx : Context} {b : Block} (h : c.insertBlock ctx b = .ok c') :
    c'.sent = c.sent ++ [.union (.sendData b ctx) (.sendData Block.new ctx)] := by
  unfold Conn.insertBlock at h
  split at h <;> simp only [OpRes.ok.injEq, reduceCtorEq] at h
  next hr => rw [← h]; exact sent_readOneBlock hr

theorem sent_insertTail {c c' : Conn} {ctx : Context} {q : Query} {bs : List Block} (h : c.insertTail ctx q bs = .ok c') :
    c'.sent.flatMap messages = c.sent.flatMap messages ++ insertMessages q ctx bs := by
  induction bs generalizing c with
  | nil => simp only [Conn.insertTail, OpRes.ok.injEq] at h; subst h; simp [insertMessages]
  | cons b bs ih =>
    unfold Conn.insertTail at h
    split at h
    · next c1 b1 h1 =>
      split at h
      · next c2 h2 =>
        rw [ih h, sent_insertBlock h2, sent_sendInsertQuery h1]
        simp [insertMessages, messages, List.flatMap_append]
      · simp at h
      · simp at h
      · simp at h
    · simp at h
    · simp at h
    · simp at h

theorem sent_clear {c c' : Conn} (h : c.clear = .ok c') :
    c'.sent = c.sent ++ (if c.inconsistent then [.cancel] else []) := by
  unfold Conn.clear at h
  split at h
  · next hi =>
    simp only [OpRes.ok.injEq] at h
    subst h
    simp only [Bool.not_eq_eq_eq_not, Bool.not_true] at hi
    simp [hi]
  · next hi =>
    split at h <;> simp only [OpRes.ok.injEq, reduceCtorEq] at h
    next c0 hl =>
    subst h
    rcases loop_fell (P := fun v => v = none) (fun v p v' hv h => clearBody_plain hv h)
      (fun v e v' hv h => by simp [clearBody] at h) rfl hl with h1 | ⟨pre, p, rest, u, hu, h2, h3, h4⟩ | ⟨_, _, _, _, _, _, h2, _⟩
    · simp at h1
    · subst hu
      have : c.inconsistent = true := by simpa using hi
      rw [this]
      cases p <;> simp [clearBody] at h4 <;> subst h4 <;> rfl
    · simp at h2

/-- C18. A successful INSERT has put on the wire (after a cancel request, if the connection needed resynchronisation): for each
chunk of the converted block the INSERT query, the chunk's data, and one empty block; nothing else. If the converted block has
rows, the chunks are not empty, have its columns and at most 1048576 rows each, and their rows in order are exactly its rows.
(`_partial`: an INSERT without rows sends the end of the data twice, `C18_empty_insert_violated`.) -/
theorem C18_insert_messages_partial (cast : Block → Block → Out Block) (c c' : Conn) (q : Query) (ctx : Context) (b : Block)
    (h : c.insert cast q ctx b = .ok c') :
    ∃ dst b' chunks, cast b dst = .ok b' ∧
      c'.sent.flatMap messages = c.sent.flatMap messages ++ (if c.inconsistent then [.cancel] else []) ++ insertMessages q ctx chunks ∧
      ∀ m, 0 < m → Rect b' m → b'.rowCount = .ok m →
        (∀ ch ∈ chunks, header ch = header b' ∧ ∃ r, ch.rowCount = .ok r ∧ 0 < r ∧ r ≤ 1048576) ∧ chunks.flatMap rowsOf = rowsOf b' := by
  unfold Conn.insert at h
  split at h
  · simp at h
  · simp at h
  · simp at h
  · next c1 h1 =>
    split at h
    · simp at h
    · simp at h
    · simp at h
    · next c2 dst h2 =>
      split at h
      · simp at h
      · simp at h
      · next b' hb' =>
        split at h
        · next ch chs hch =>
          split at h
          · next c3 h3 =>
            refine ⟨dst, b', ch :: chs, hb', ?_, ?_⟩
            · rw [sent_insertTail h, sent_insertBlock h3, sent_sendInsertQuery h2, sent_clear h1]
              split <;> simp [insertMessages, messages, List.flatMap_append]
            · intro m hm hr hrc
              obtain ⟨bs, hy, hb1, hb2, hb3⟩ := C16_chunks_partial b' m insertBlockSize (by decide) hm hr hrc
              have hlen : bs.length < m + 1 := by
                have : bs.length ≤ (bs.flatMap rowsOf).length := by
                  clear hb2 hb3 hy
                  induction bs with
                  | nil => simp
                  | cons x xs ih =>
                    obtain ⟨_, r, hr1, hr2, _⟩ := hb1 x (by simp)
                    have := ih fun y hy => hb1 y (by simp [hy])
                    have hx : 0 < (rowsOf x).length := by simp [rowsOf, hr1, hr2]
                    simp only [List.flatMap_cons, List.length_cons, List.length_append]
                    omega
                rw [hb3, rowsOf, hrc] at this
                simp at this
                omega
              have hlist := chunkList_yields ((hy bs).mpr rfl) (m + 1) hlen
              unfold insertChunks at hch
              rw [hrc] at hch
              simp only [obind_ok] at hch
              rw [hlist] at hch
              simp only [Out.ok.injEq] at hch
              subst hch
              exact ⟨hb1, hb3⟩
          · simp at h
          · simp at h
          · simp at h
        · simp at h
        · simp at h
        · simp at h

/-- C18 fails for an INSERT without rows: what is sent as the data is already an empty block, so the end of the data is sent
twice in a row. -/
theorem C18_empty_insert_violated (cast : Block → Block → Out Block) (c c' : Conn) (q : Query) (ctx : Context) (b : Block)
    (hi : c.inconsistent = false) (he : ∀ dst b', cast b dst = .ok b' → b'.rowCount = .ok 0) (h : c.insert cast q ctx b = .ok c') :
    c'.sent.flatMap messages = c.sent.flatMap messages ++
      [.sendQuery q ctx, .sendData Block.new ctx, .sendData Block.new ctx] := by
  unfold Conn.insert at h
  split at h
  · simp at h
  · simp at h
  · simp at h
  · next c1 h1 =>
    split at h
    · simp at h
    · simp at h
    · simp at h
    · next c2 dst h2 =>
      split at h
      · simp at h
      · simp at h
      · next b' hb' =>
        have h0 : insertChunks b' = .ok [Block.new] := by
          unfold insertChunks
          rw [he dst b' hb']
          simp only [obind_ok]
          unfold chunkList
          rw [Block.chunks, ChunkIter.next]
          simp only [he dst b' hb', obind_ok]
          simp only [and_self, if_true]
          rfl
        rw [h0] at h
        simp only at h
        split at h
        · next c3 h3 =>
          rw [sent_insertTail h, sent_insertBlock h3, sent_sendInsertQuery h2, sent_clear h1, hi]
          simp [insertMessages, messages, List.flatMap_append]
        · simp at h
        · simp at h
        · simp at h

/-- A server that takes an INSERT: the header for the query, end-of-stream for the data. -/
def insertServer : List Cmd → List Inc := fun l =>
  match l.getLast? with
  | some (.sendQuery _ _) => [.packet (.block sampleBlock)]
  | some (.union _ _) => [.packet .eof]
  | _ => []

example : ∃ c', (Conn.mk [] insertServer false [.hello sampleCtx]).insert (fun b _ => .ok b) sampleQuery sampleCtx sampleBlock = .ok c' := by
  unfold Conn.insert
  have h1 : (Conn.mk [] insertServer false [.hello sampleCtx]).clear = .ok ⟨[], insertServer, false, [.hello sampleCtx]⟩ := rfl
  have h2 : (Conn.mk [] insertServer false [.hello sampleCtx]).sendInsertQuery sampleCtx sampleQuery =
      .ok (⟨[], insertServer, false, [.hello sampleCtx, .sendQuery sampleQuery sampleCtx]⟩, sampleBlock) := by
    unfold Conn.sendInsertQuery CStream.readOneBlock Conn.call
    simp only
    rw [loop_item (next_packet (p := .block sampleBlock) (rest := []) rfl rfl)]
    simp only [readBlockBody]
    rw [show (true && Packet.isBlock (.block sampleBlock)) = true from rfl, loop_item next_finished]
    simp only [readBlockBody]
    rw [loop_ended next_none]
    rfl
  have h3 : insertChunks sampleBlock = .ok [⟨BlockInfo.default, sampleBlock.columns.map fun c => c.slice 0 3⟩] := rfl
  rw [h1]
  simp only [h2, h3]
  unfold Conn.insertBlock CStream.readOneBlock Conn.call
  simp only
  rw [loop_item (next_taken (p := .eof) (rest := []) rfl rfl)]
  simp only [readBlockBody]
  rw [loop_ended next_none]
  exact ⟨_, rfl⟩

end CH.Props
