import Verif.Spec.Written
import Verif.Lemmas.Answered
import Verif.Lemmas.Flush
import Verif.Lemmas.Cancel
import Verif.Props.Store

/-!
What a successful INSERT has sent, for C91.
-/

namespace CH.WrittenOut
open CH CH.Spec CH.Socket CH.Outage CH.Props

/-- The commands of an INSERT of these pieces. -/
def pieceCmds (q : Query) (ctx : Context) (chs : List Block) : List Cmd :=
  chs.flatMap fun ch => [.sendQuery q ctx, .union (.sendData ch ctx) (.sendData Block.new ctx)]

theorem clear_sent {c c1 : Conn} (h : c.clear = .ok c1) : c1.sent = c.sent ++ if c.inconsistent then [.cancel] else [] := by
  cases hi : c.inconsistent with
  | false =>
    have hc : c.clear = .ok c := by simp [Conn.clear, hi]
    rw [hc] at h
    cases h
    simp
  | true =>
    obtain ⟨v, hv⟩ := C71_total LeftOver EndsLeftOver (c.incoming ++ c.server (c.sent ++ [.cancel]))
    rw [C71_clear c v hi hv] at h
    cases v with
    | finished p rest => cases h; rfl
    | _ => cases h

theorem sendInsert_sent {c c1 : Conn} {q : Query} {ctx : Context} {d : Block} (h : c.sendInsertQuery ctx q = .ok (c1, d)) :
    c1.sent = c.sent ++ [.sendQuery q ctx] := by
  obtain ⟨v, hv⟩ := C71_total InsertSkips InsertEnds (c.incoming ++ c.server (c.sent ++ [.sendQuery q ctx]))
  rw [C71_insert_query c q ctx v hv] at h
  cases v with
  | finished p rest =>
    obtain ⟨ps, h1, h3, h4⟩ := judged_finished hv rfl
    cases h4 with
    | block => cases h; rfl
    | eof => cases h
  | _ => cases h

theorem insertBlock_sent {c c1 : Conn} {ctx : Context} {b : Block} (h : c.insertBlock ctx b = .ok c1) :
    c1.sent = c.sent ++ [.union (.sendData b ctx) (.sendData Block.new ctx)] := by
  obtain ⟨v, hv⟩ := C71_total InsertSkips InsertEnds (c.incoming ++ c.server (c.sent ++ [.union (.sendData b ctx) (.sendData Block.new ctx)]))
  rw [C71_insert_block c b ctx v hv] at h
  cases v with
  | finished p rest => cases h; rfl
  | _ => cases h

theorem insertTail_sent {ctx : Context} {q : Query} (bs : List Block) : ∀ {c c1 : Conn}, c.insertTail ctx q bs = .ok c1 →
    c1.sent = c.sent ++ pieceCmds q ctx bs := by
  induction bs with
  | nil => intro c c1 h; cases h; simp [pieceCmds]
  | cons b bs ih =>
    intro c c1 h
    rw [insertTail_eq] at h
    cases hs : c.sendInsertQuery ctx q with
    | ok x =>
      obtain ⟨c2, d⟩ := x
      rw [hs] at h
      simp only [andThen] at h
      cases hb : c2.insertBlock ctx b with
      | ok c3 =>
        rw [hb] at h
        rw [ih h, insertBlock_sent hb, sendInsert_sent hs]
        simp [pieceCmds]
      | _ => rw [hb] at h; cases h
    | _ => rw [hs] at h; cases h

theorem insert_both {cast : Block → Block → Out Block} {c c1 : Conn} {q : Query} {ctx : Context} {b : Block} (hm : Mute c)
    (h : c.insert cast q ctx b = .ok c1) :
    ∃ d b' chs ps, Heads c.inconsistent d ps ∧ cast b d = .ok b' ∧ insertChunks b' = .ok chs ∧ c.incoming = ps.map .packet ++ c1.incoming ∧
      c1.sent = c.sent ++ (if c.inconsistent then [.cancel] else []) ++ pieceCmds q ctx chs := by
  rw [insert_eq] at h
  cases hc : c.clear with
  | ok c2 =>
    obtain ⟨ls, g1, g2, g3, g4⟩ := clear_heard hm hc
    rw [hc] at h
    simp only [andThen] at h
    cases hs : c2.sendInsertQuery ctx q with
    | ok x =>
      obtain ⟨c3, d⟩ := x
      obtain ⟨cs, k1, k2, k3⟩ := sendInsert_heard g3 hs
      rw [hs] at h
      simp only at h
      cases hb : cast b d with
      | ok b' =>
        rw [hb] at h
        simp only at h
        cases hch : insertChunks b' with
        | ok chs =>
          rw [hch] at h
          cases chs with
          | nil => cases h
          | cons ch chs =>
            simp only at h
            cases hi : c3.insertBlock ctx ch with
            | ok c4 =>
              obtain ⟨cs', e, m1, m2, m3, m4⟩ := insertBlock_heard k3 hi
              rw [hi] at h
              simp only at h
              have hsent : c1.sent = c.sent ++ (if c.inconsistent then [.cancel] else []) ++ pieceCmds q ctx (ch :: chs) := by
                rw [insertTail_sent _ h, insertBlock_sent hi, sendInsert_sent hs, clear_sent hc]
                simp [pieceCmds]
              cases chs with
              | nil =>
                cases h
                exact ⟨d, b', [ch], _, ⟨ls, cs, cs' ++ [e], g1, k1, rfl⟩, hb, hch, by rw [g2, k2, m3]; simp, hsent⟩
              | cons ch' chs =>
                obtain ⟨d', qs, i1, i2⟩ := insertTail_heard _ m4 h (by simp)
                exact ⟨d, b', _, _, ⟨ls, cs, cs' ++ [e] ++ qs, g1, k1, rfl⟩, hb, hch, by rw [g2, k2, m3, i2]; simp, hsent⟩
            | _ => rw [hi] at h; cases h
        | _ => rw [hch] at h; cases h
      | _ => rw [hb] at h; cases h
    | _ => rw [hs] at h; cases h
  | _ => rw [hc] at h; cases h

/-- The header that comes first. -/
theorem heads_block {table d : Block} {rest : List Packet} {tail : List Inc} {ps : List Packet} (h : Heads false d ps)
    (e : Inc.packet (.block table) :: rest.map .packet = ps.map .packet ++ tail) : d = table := by
  obtain ⟨ls, cs, more, hl, hc, rfl⟩ := h
  cases hl
  cases cs with
  | nil =>
    simp only [List.nil_append, List.map_cons, List.cons_append] at e
    injection e with e1 e2
    injection e1 with e1
    injection e1 with e1
    exact e1.symm
  | cons p cs =>
    simp only [List.nil_append, List.map_cons, List.cons_append] at e
    injection e with e1 e2
    injection e1 with e1
    have := hc p List.mem_cons_self
    rw [← e1] at this
    cases this

/-- A block that can go into the table and fits into one piece. -/
theorem one_piece (z : Codec) {parse : IpKind → String → Option Bytes} (hparse : ∀ k s b, parse k s = some b → b.length = k.size)
    {known : Tz → Bool} {tz : Tz} {n : Nat} {b table b' : Block} {chs : List Block} (ctx : Context) (hr : b.rowCount = .ok n) (h0 : 0 < n)
    (hn : n ≤ 1048576) (hs : GoesInto parse known tz n b table) (hb : b.castTo parse table = .ok b') (hch : insertChunks b' = .ok chs) :
    ∃ data raw fs empty, chs = [data] ∧ BlockLaid tz BlockInfo.default n fs raw ∧ TableHolds parse tz b table n fs ∧
      BlockLaid tz BlockInfo.default 0 [] empty ∧ ((ctx.options.compression = true → Packs z raw ∧ Packs z empty) →
        ∃ bytes, (Cmd.union (.sendData data ctx) (.sendData Block.new ctx)).encode z = .ok bytes ∧
          RowsPackets z ctx.options.compression raw empty bytes) := by
  obtain ⟨data, raw, fs, w1, w2, w3, empty, w4, w5⟩ := C78_insert_partial z parse hparse known tz n h0 hn b table b' hr hs.width hs.columns hb
    ⟨[.packet (.block table), .packet .eof], fun _ => [], false, []⟩ ⟨"", ""⟩ ctx [.packet .eof] rfl (.finished .block)
  have hx := w3 .eof [] (.finished .eof)
  obtain ⟨d, b2, chs2, ps, k1, k2, k3, k4, k5⟩ := insert_both (fun _ => rfl) hx
  have hd : d = table := heads_block (rest := [.eof]) k1 k4
  subst hd
  rw [hb] at k2
  cases k2
  rw [hch] at k3
  cases k3
  simp only [List.nil_append] at k5
  have hone : chs = [data] := by
    match chs, k5 with
    | [], e => simp [pieceCmds] at e
    | [x], e => simp [pieceCmds] at e; rw [← e]
    | x :: y :: l, e => simp [pieceCmds] at e
  refine ⟨data, raw, fs, empty, hone, w1, w2, w4, fun hp => ?_⟩
  obtain ⟨x, y, e1, e2, e3⟩ := w5 hp
  exact ⟨_, e1, x, y, e2, e3, rfl⟩

theorem sated_written {env : Env} {k : Sock} {lg : List Cmd} (h : Issued env k lg) (hs : Flush.Sated k.t) : k.writer.out = cmdBytes env.codec lg := by
  have := h.written
  rw [hs.1, hs.2, List.append_nil, show cmdBytes env.codec [] = [] from rfl, List.append_nil] at this
  exact this

/-- An INSERT that succeeded on a connection. -/
theorem insert_done {env : Env} {cast : Block → Block → Out Block} {k k' : Sock} {lg : List Cmd} {ctx : Context} {q t : Query} {b : Block}
    (h : Issued env k lg) (he : DataEncodes env cast ctx (.insert t b)) (hr : InsertS env cast k q ctx b (.ok k')) :
    ∃ d b' chs ps, Heads k.t.inconsistent d ps ∧ Delivers env k ps ∧ cast b d = .ok b' ∧ insertChunks b' = .ok chs ∧
      k'.writer.out = cmdBytes env.codec (lg ++ cancelFirst k ++ pieceCmds q ctx chs) := by
  obtain ⟨lg', hi, hf⟩ := insert_sim h he hr
  obtain ⟨xs, hx, e⟩ := hf [] .stop
  obtain ⟨d, b', chs, ps, g1, g2, g3, g4, g5⟩ := insert_both (c := heardConn k lg xs) (fun _ => rfl) e
  have hx : Hears _ _ _ _ _ xs := hx
  rw [show xs = _ from g4] at hx
  refine ⟨d, b', chs, ps, g1, hears_packets hx, g2, g3, ?_⟩
  rw [show k'.writer.out = _ from sated_written hi (Flush.insert_sated hr _ rfl)]
  exact congrArg _ g5

theorem ping_sent {c c1 : Conn} (h : pingC c = .ok c1) : c1.sent = c.sent ++ (if c.inconsistent then [.cancel] else []) ++ [.ping] := by
  rw [pingC] at h
  cases hc : c.clear with
  | ok c2 =>
    rw [hc] at h
    simp only [andThen] at h
    obtain ⟨v, hv⟩ := C71_total NoSkips IsPong (c2.incoming ++ c2.server (c2.sent ++ [.ping]))
    have hl := pingLoop hv { c2 with incoming := c2.incoming ++ c2.server (c2.sent ++ [.ping]), sent := c2.sent ++ [.ping] } rfl
    rw [Conn.call, hl] at h
    cases v with
    | finished p rest =>
      obtain ⟨qs, h1, h2, h3⟩ := judged_finished hv rfl
      cases h3
      cases h
      simp only
      rw [clear_sent hc]
    | _ => cases h
  | _ => rw [hc] at h; cases h

/-- The same after a check of the connection. -/
theorem insert_done_checked {env : Env} {cast : Block → Block → Out Block} {k k1 k' : Sock} {lg : List Cmd} {ctx : Context} {q t : Query} {b : Block}
    (h : Issued env k lg) (hp : PingOn env k (.ok k1)) (he : DataEncodes env cast ctx (.insert t b))
    (hr : InsertS env cast k1 q ctx b (.ok k')) :
    ∃ d b' chs ls ps, Cleared k.t.inconsistent ls ∧ Heads false d ps ∧ Delivers env k (ls ++ [.pong] ++ ps) ∧ cast b d = .ok b' ∧
      insertChunks b' = .ok chs ∧ k'.writer.out = cmdBytes env.codec (lg ++ cancelFirst k ++ [.ping] ++ pieceCmds q ctx chs) := by
  have hs : SimC env k lg (fun c => andThen (pingC c) fun c => c.insert cast q ctx b) (.ok k') :=
    then_sim (Q := fun k r => InsertS env cast k q ctx b r) (fun _ hr => pingOn_sim h hr) (fun k lg' r hi hr => insert_sim hi he hr) (.ok hp hr)
  obtain ⟨lg', hi, hf⟩ := hs
  obtain ⟨xs, hx, e⟩ := hf [] .stop
  simp only at e
  cases hpc : pingC (heardConn k lg xs) with
  | ok c1 =>
    rw [hpc] at e
    obtain ⟨ls, g1, g2, g3, g4⟩ := ping_heard (c := heardConn k lg xs) (fun _ => rfl) hpc
    obtain ⟨d, b', chs, ps, k1, k2, k3, k4, k5⟩ := insert_both g3 e
    rw [k4, ← List.append_assoc, ← List.map_append] at g2
    have hx : Hears _ _ _ _ _ xs := hx
    rw [show xs = _ from g2] at hx
    rw [g4] at k1 k5
    refine ⟨d, b', chs, ls, ps, g1, k1, hears_packets hx, k2, k3, ?_⟩
    rw [show k'.writer.out = _ from sated_written hi (Flush.insert_sated hr _ rfl)]
    rw [ping_sent hpc] at k5
    have k6 : lg' = lg ++ cancelFirst k ++ [.ping] ++ [] ++ pieceCmds q ctx chs := k5
    rw [k6, List.append_nil]
  | _ => rw [hpc] at e; cases e

theorem cmdBytes_pieces {z : Codec} {q : Query} {ctx : Context} {stmt : Bytes} (hs : (Cmd.sendQuery q ctx).encode z = .ok stmt) :
    ∀ {chs : List Block} {rows : List Bytes}, rows.length = chs.length →
      (∀ (i : Nat) ch r, chs[i]? = some ch → rows[i]? = some r → (Cmd.union (.sendData ch ctx) (.sendData Block.new ctx)).encode z = .ok r) →
      cmdBytes z (pieceCmds q ctx chs) = rows.flatMap (stmt ++ ·)
  | [], [], _, _ => rfl
  | ch :: chs, r :: rows, hl, h => by
    have h0 := h 0 ch r rfl rfl
    have ih := cmdBytes_pieces hs (chs := chs) (rows := rows) (by simpa using hl) fun i ch r h1 h2 => h (i + 1) ch r h1 h2
    have e : pieceCmds q ctx (ch :: chs) = [.sendQuery q ctx] ++ ([.union (.sendData ch ctx) (.sendData Block.new ctx)] ++ pieceCmds q ctx chs) := rfl
    rw [e, cmdBytes_append, cmdBytes_append, ih, List.flatMap_cons, List.append_assoc]
    congr 1
    · simp [cmdBytes, hs]
    · congr 1
      simp [cmdBytes, h0]

/-- A block in its packet. -/
theorem sent_packet (z : Codec) (compress : Bool) (r : Bytes) (bl : Block) (hw : bl.write = .ok r) (hp : compress = true → Packs z r) :
    ∃ body, bl.sendData z compress = .ok ([2, 0] ++ body) ∧ Carried z compress r body := by
  cases compress with
  | true =>
    obtain ⟨p1, p2, p3⟩ := hp rfl
    exact C77_sent z true bl r hw p1 p2 p3
  | false =>
    refine ⟨r, ?_, rfl⟩
    have e : putUvarint 2 ++ putString "" = [2, 0] := by
      rw [uvarint_two, show putString "" = putUvarint 0 ++ [] from rfl, uvarint_zero]
      rfl
    rw [Block.sendData, Block.writeC, if_neg (by simp), hw]; simp only [obind_ok]; rw [e]; rfl

theorem pick_list {α β : Type} {P : Nat → α → β → Prop} (l : List α) (h : ∀ i a, l[i]? = some a → ∃ b, P i a b) :
    ∃ bs : List β, bs.length = l.length ∧ ∀ i a b, l[i]? = some a → bs[i]? = some b → P i a b := by
  induction l generalizing P with
  | nil => exact ⟨[], rfl, fun i a b h => by simp at h⟩
  | cons a l ih =>
    obtain ⟨b, hb⟩ := h 0 a rfl
    obtain ⟨bs, h1, h2⟩ := ih (P := fun i => P (i + 1)) fun i a hi => h (i + 1) a hi
    refine ⟨b :: bs, by simp [h1], fun i x y hx hy => ?_⟩
    cases i with
    | zero => cases hx; cases hy; exact hb
    | succ i => exact h2 i x y hx hy

end CH.WrittenOut
