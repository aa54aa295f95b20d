import Verif.Lemmas.Reopen
import Verif.Props.Cmd
import Verif.Props.Client

/-! C93: statements are written for the server they are sent to, also when the check before them has replaced the connection. -/

namespace CH.Props
open CH CH.Spec CH.Reopen

/-- C93. A query: whatever the check before it does, however often it reconnects and to servers of whatever revisions, the query is
given to the connection that the check leaves, with the context of that connection; so it is written for its server, as is all
that was sent there before. The handle keeps what that server said. -/
theorem C93_query (revisionOf : (List Cmd → List Inc) → Nat) (h h' : Handle) (q : Query) (skip : Bool) (w w' : WorldC) (s : BStream)
    (ht : ToldBy revisionOf h) (hw : ToldWorld revisionOf w) (he : h.openStreamC q skip w = (.ok s, h', w')) :
    ∃ c, s.inner.conn = some c ∧ c.sent.getLast? = some (.sendQuery q h'.context) ∧ h'.context.revision = revisionOf c.server ∧
      WrittenFor revisionOf c := by
  have hp := precheck_told ht hw
  rw [Handle.openStreamC] at he
  split at he
  · next h1 w1 e1 =>
    rw [e1] at hp
    split at he
    · cases he
    · split at he
      · cases he
      · next c hc =>
        cases he
        obtain ⟨t1, t2⟩ := hp.1 c hc
        refine ⟨_, rfl, by simp, t1, ?_⟩
        exact writtenFor_adds (ctx := h1.context) (c := c) (adds_call (cmd := .sendQuery q h1.context) (by simp [contextsIn]) ⟨rfl, rfl⟩) t2 t1
  all_goals cases he

/-- C93. Hence the server, reading by its own revision, makes of it the query it is. -/
theorem C93_query_read (env : Env) (kind : String → SettingKind) (tz : Tz) (revisionOf : (List Cmd → List Inc) → Nat) (h h' : Handle)
    (q : Query) (skip : Bool) (w w' : WorldC) (s : BStream)
    (ht : ToldBy revisionOf h) (hw : ToldWorld revisionOf w) (he : h.openStreamC q skip w = (.ok s, h', w'))
    (hq : QueryOK env kind tz q h'.context) :
    ∃ c cmd bytes, s.inner.conn = some c ∧ c.sent.getLast? = some cmd ∧ cmd.encode env.codec = .ok bytes ∧ ∀ rest, ∃ r,
      readMsg env kind (min (revisionOf c.server) 54429) tz h'.context.options.compression (bytes ++ rest) =
        .ok (.query (seenQuery q h'.context)) r := by
  obtain ⟨c, h1, h2, h3, -⟩ := C93_query revisionOf h h' q skip w w' s ht hw he
  obtain ⟨bytes, h4, h5⟩ := C38_query_partial env kind tz q h'.context hq
  refine ⟨c, _, bytes, h1, h2, h4, fun rest => ?_⟩
  obtain ⟨r, b, h6, -⟩ := h5 rest
  exact ⟨r, by rw [← h3]; exact h6⟩

/-- C93, `execute`: the statement is sent with what the handle knew before the check. If the check has left the revision as
it was, all is written for its server. (`_partial`: otherwise it is not, `C93_execute_violated`.) -/
theorem C93_execute_partial (revisionOf : (List Cmd → List Inc) → Nat) (h h' : Handle) (q : Query) (w w' : WorldC)
    (ht : ToldBy revisionOf h) (hw : ToldWorld revisionOf w) (he : h.executeC q w = (.ok (), h', w')) :
    ∃ c, h'.inner = some c ∧ .sendQuery q h.context ∈ c.sent ∧ h'.context.revision = revisionOf c.server ∧
      (h'.context.revision = h.context.revision → WrittenFor revisionOf c) := by
  have hp := precheck_told ht hw
  rw [Handle.executeC] at he
  split at he
  · next h1 w1 e1 =>
    rw [e1] at hp
    split at he
    · cases he
    · next c hc =>
      obtain ⟨t1, t2⟩ := hp.1 c hc
      split at he
      · next c1 hx =>
        cases he
        obtain ⟨a1, a2⟩ := execute_adds hx
        refine ⟨c1, rfl, a2, by rw [a1.1]; exact t1, fun hr => writtenFor_adds a1 t2 ?_⟩
        rw [← hr]; exact t1
      all_goals cases he
  · next hne =>
    rcases hx : h.precheckC w with ⟨r, g, u⟩
    rw [hx] at he
    cases he
    exact absurd hx (hne _ _)

/-- C93, `insert`: the same. -/
theorem C93_insert_partial (numeric : Char → Bool) (cast : Block → Block → Out Block) (revisionOf : (List Cmd → List Inc) → Nat)
    (h h' : Handle) (table q : Query) (b : Block) (w w' : WorldC) (ht : ToldBy revisionOf h) (hw : ToldWorld revisionOf w)
    (hq : makeQuery numeric table b = .ok q) (he : h.insertC numeric cast table b w = (.ok (), h', w')) :
    ∃ c, h'.inner = some c ∧ .sendQuery q h.context ∈ c.sent ∧ h'.context.revision = revisionOf c.server ∧
      (h'.context.revision = h.context.revision → WrittenFor revisionOf c) := by
  have hp := precheck_told ht hw
  rw [Handle.insertC, hq] at he
  simp only at he
  split at he
  · next h1 w1 e1 =>
    rw [e1] at hp
    split at he
    · cases he
    · next c hc =>
      obtain ⟨t1, t2⟩ := hp.1 c hc
      split at he
      · next c1 hx =>
        cases he
        obtain ⟨a1, a2⟩ := insert_adds hx
        refine ⟨c1, rfl, a2, by rw [a1.1]; exact t1, fun hr => writtenFor_adds a1 t2 ?_⟩
        rw [← hr]; exact t1
      all_goals cases he
  · next hne =>
    rcases hx : h.precheckC w with ⟨r, g, u⟩
    rw [hx] at he
    cases he
    exact absurd hx (hne _ _)

/-- The operations without contexts (`Model/Client`) are these with the contexts left out: an `execute` or INSERT has the same result,
gives the same commands to the same connections, and uses up the same reconnections, to whatever servers the check goes. So what is
proved of them in `Model/Client` (C44-C92) holds here. For queries see `C93_query_contexts`. -/
theorem C93_contexts (numeric : Char → Bool) (cast : Block → Block → Out Block) (h : Handle) (q : Query) (b : Block) (w : WorldC) :
    h.execute q (connsOf w) = ((h.executeC q w).1, { (h.executeC q w).2.1 with context := h.context }, connsOf (h.executeC q w).2.2) ∧
    h.insert numeric cast q b (connsOf w) = ((h.insertC numeric cast q b w).1,
      { (h.insertC numeric cast q b w).2.1 with context := h.context }, connsOf (h.insertC numeric cast q b w).2.2) := by
  constructor
  · rw [Handle.execute, Handle.executeC, precheck_within]
    rcases h.precheckC w with ⟨r, g, u⟩
    cases r with
    | ok x =>
      obtain ⟨inner, ctx, bi⟩ := g
      cases inner with
      | none => rfl
      | some c =>
        simp only [within]
        cases c.execute q h.context <;> rfl
    | _ => rfl
  · rw [Handle.insert, Handle.insertC]
    cases makeQuery numeric q b with
    | ok q =>
      simp only [precheck_within]
      rcases h.precheckC w with ⟨r, g, u⟩
      cases r with
      | ok x =>
        obtain ⟨inner, ctx, bi⟩ := g
        cases inner with
        | none => rfl
        | some c =>
          simp only [within]
          cases c.insert cast q h.context b <;> rfl
      | _ => rfl
    | _ => rfl

/-- The same for a query, if all the handles have the same context. -/
theorem C93_query_contexts (h : Handle) (q : Query) (skip : Bool) (w : WorldC) (hw : ∀ c x, some (c, x) ∈ w → x = h.context) :
    h.openStream q skip (connsOf w) = ((h.openStreamC q skip w).1, (h.openStreamC q skip w).2.1, connsOf (h.openStreamC q skip w).2.2) := by
  have hc := precheck_context hw
  rw [Handle.openStream, Handle.openStreamC, precheck_within]
  generalize h.precheckC w = p at hc ⊢
  obtain ⟨r, ⟨inner, ctx, bi⟩, u⟩ := p
  dsimp only at hc
  subst hc
  cases r with
  | ok x =>
    simp only [within]
    cases bi.detach with
    | none => rfl
    | some b => cases inner <;> rfl
  | _ => rfl

/-! ### A server is replaced by a newer one -/

/-- A newer server: it answers pings, and statements with the end of the answer. -/
def exNewer : List Cmd → List Inc := sampleServer [.packet .eof]

/-- An older server, which has gone away: nothing comes upon any command. -/
def exOlder : List Cmd → List Inc := fun _ => [.closed]

/-- Revisions of the two. -/
def exRevision (server : List Cmd → List Inc) : Nat :=
  match server [] with
  | [] => 54429
  | _ => 54400

/-- What the two said in their greetings. -/
def exOldCtx : Context := ⟨54400, "h", Options.default⟩
def exNewCtx : Context := ⟨54429, "h", Options.default⟩

/-- A handle connected to the older one. -/
def exOldHandle : Handle := ⟨some ⟨[], exOlder, false, [.hello exOldCtx]⟩, exOldCtx, .attached⟩

/-- What reconnecting gives: a connection to `server`. -/
def exNewWorld (server : List Cmd → List Inc) : WorldC := [some (⟨[], server, false, [.hello exNewCtx]⟩, exNewCtx)]

theorem exOld_told (server : List Cmd → List Inc) (hs : exRevision server = 54429) :
    ToldBy exRevision exOldHandle ∧ ToldWorld exRevision (exNewWorld server) := by
  constructor
  · intro c hc
    cases hc
    exact ⟨rfl, by simp [WrittenFor, contextsIn]⟩
  · intro c ctx hc
    simp only [exNewWorld, List.mem_singleton, Option.some.injEq, Prod.mk.injEq] at hc
    obtain ⟨rfl, rfl⟩ := hc
    exact ⟨hs.symm, by simp [WrittenFor, contextsIn]⟩

theorem exOld_checked (server : List Cmd → List Inc) (hs : server [.hello exNewCtx, .ping] = [.packet .pong]) :
    exOldHandle.precheckC (exNewWorld server) = (.ok (), ⟨some ⟨[], server, false, [.hello exNewCtx, .ping]⟩, exNewCtx, .attached⟩, []) := by
  have h1 : (Handle.mk (some ⟨[], exOlder, false, [.hello exOldCtx]⟩) exOldCtx .detached).ping = (.err .broken, ⟨none, exOldCtx, .detached⟩) := by
    simp [Handle.ping, Conn.clear, Conn.call, CStream.loop, CStream.next, exOlder]
  have h2 : (Handle.mk (some ⟨[], server, false, [.hello exNewCtx]⟩) exNewCtx .attached).ping =
      (.ok (), ⟨some ⟨[], server, false, [.hello exNewCtx, .ping]⟩, exNewCtx, .attached⟩) := by
    simp [Handle.ping, Conn.clear, Conn.call, CStream.loop, CStream.next, hs, pingBody, Packet.takesConn]
  have h3 : retryLoopC true 3 0 false ⟨some ⟨[], exOlder, false, [.hello exOldCtx]⟩, exOldCtx, .detached⟩ (exNewWorld server) =
      (.ok (), ⟨some ⟨[], server, false, [.hello exNewCtx, .ping]⟩, exNewCtx, .attached⟩, []) := by
    rw [retryLoopC]
    simp only [Bool.false_eq_true, if_false, h1, exNewWorld]
    rw [if_neg (by decide), retryLoopC]
    simp [h2]
  exact (congrArg (fun r : OpRes Unit × Handle × WorldC => (match r with
    | (.ok (), h, w) => (.ok (), { h with binding := if h.binding = .detached then .attached else h.binding }, w)
    | r => r : OpRes Unit × Handle × WorldC)) h3 : _)

-- the hypotheses of `C93_query`, over the change of server
example : ∃ s h', exOldHandle.openStreamC ⟨"SELECT 1", ""⟩ false (exNewWorld exNewer) = (.ok s, h', []) ∧ h'.context = exNewCtx := by
  rw [Handle.openStreamC, exOld_checked exNewer rfl]
  exact ⟨_, _, rfl, rfl⟩

-- those of `C93_query_read`
example : QueryOK sampleEnv (fun _ => .number) "UTC".toList ⟨"SELECT 1", ""⟩ exNewCtx :=
  ⟨by decide, by decide, by decide, by simp [exNewCtx, Options.default], ⟨⟨0, emptyBlock_ok _ _⟩, by simp [exNewCtx, Options.default]⟩⟩

-- those of `C93_execute_partial`, with nothing changed by the check, and of `C93_query_contexts`
example : ∃ h', ToldBy exRevision ⟨some ⟨[], exNewer, false, [.hello exNewCtx]⟩, exNewCtx, .attached⟩ ∧
    Handle.executeC ⟨some ⟨[], exNewer, false, [.hello exNewCtx]⟩, exNewCtx, .attached⟩ ⟨"SELECT 1", ""⟩ (exNewWorld exNewer) =
      (.ok (), h', exNewWorld exNewer) ∧ h'.context.revision = exNewCtx.revision ∧
    ∀ c x, some (c, x) ∈ exNewWorld exNewer → x = exNewCtx := by
  have h2 : (Handle.mk (some ⟨[], exNewer, false, [.hello exNewCtx]⟩) exNewCtx .detached).ping =
      (.ok (), ⟨some ⟨[], exNewer, false, [.hello exNewCtx, .ping]⟩, exNewCtx, .detached⟩) := by
    simp [Handle.ping, Conn.clear, Conn.call, CStream.loop, CStream.next, exNewer, sampleServer, pingBody, Packet.takesConn]
  have h3 : Handle.precheckC ⟨some ⟨[], exNewer, false, [.hello exNewCtx]⟩, exNewCtx, .attached⟩ (exNewWorld exNewer) =
      (.ok (), ⟨some ⟨[], exNewer, false, [.hello exNewCtx, .ping]⟩, exNewCtx, .attached⟩, exNewWorld exNewer) := by
    rw [Handle.precheckC, if_pos (by rfl), Handle.checkConnectionC]
    simp only [Binding.detach]
    rw [retryLoopC]
    simp only [Bool.false_eq_true, if_false, h2, if_true]
  refine ⟨⟨some ⟨[], exNewer, false, [.hello exNewCtx, .ping, .sendQuery ⟨"SELECT 1", ""⟩ exNewCtx]⟩, exNewCtx, .attached⟩, ?_, ?_, rfl, ?_⟩
  · intro c hc
    cases hc
    exact ⟨rfl, by simp [WrittenFor, contextsIn]⟩
  · rw [Handle.executeC, h3]
    simp [Conn.execute, Conn.clear, Conn.call, CStream.loop, CStream.next, exNewer, sampleServer, executeBody, Packet.takesConn]
  · intro c x hx
    simp only [exNewWorld, List.mem_singleton, Option.some.injEq, Prod.mk.injEq] at hx
    exact hx.2

/-- The bytes of a statement written for a server of revision 54400, read by one of revision 54429: there is no message in them; the
server waits for more. -/
theorem stale_read (env : Env) (kind : String → SettingKind) (tz : Tz) :
    ∃ bytes, (Cmd.sendQuery ⟨"SELECT 1", ""⟩ exOldCtx).encode env.codec = .ok bytes ∧ readMsg env kind 54429 tz false bytes = .more := by
  have hd := C39_empty_data_bytes env.codec
  refine ⟨_, by rw [Cmd.encode, encodeQuery, show exOldCtx.options.compression = false from rfl, hd]; rfl, ?_⟩
  simp only [List.append_assoc]
  rw [readMsg, bind_ok (readUvarint_put (by decide) _), if_neg (by decide), if_pos rfl]
  refine bind_more ?_
  rw [readQuery, bind_ok (readString_put _ _ (by decide)), show putUvarint 1 = putLE 1 1 by simp [putUvarint, putLE],
    bind_ok (readLE_put (by decide) _), bind_ok (readString_put _ _ (by decide)), bind_ok (readString_put _ _ (by decide)),
    bind_ok (readString_put _ _ (by decide)), bind_ok (readLE_put (by decide) _), bind_ok (readString_put _ _ (by decide)),
    bind_ok (readString_put _ _ (by decide))]
  have hv : ∀ w, readVersion (clientInfo ++ w) = .ok ("Rust SQLDriver", 1, 1, 54429) w := by
    intro w
    rw [clientInfo]
    simp only [List.append_assoc]
    rw [readVersion, bind_ok (readString_put _ _ (by decide)), bind_ok (readUvarint_put (by decide) _),
      bind_ok (readUvarint_put (by decide) _), bind_ok (readUvarint_put (by decide) _)]
    rfl
  rw [bind_ok (hv _), if_pos (by decide), if_neg (by decide), fieldIf, if_pos (by decide), bind_ok (readString_put _ _ (by decide)),
    fieldIf, if_pos (by decide), List.nil_append,
    show serializeSettings exOldCtx.options.settings (decide (exOldCtx.revision ≥ 54429)) = putUvarint 0 ++ [] by
      simp [serializeSettings, exOldCtx, Options.default, putString, putBytes, strBytes],
    List.append_assoc, bind_ok (readUvarint_put (by decide) _)]
  refine bind_more ?_
  rw [readSettings, loop_run, List.nil_append]
  have hb : putUvarint 2 ++ (putUvarint (if false = true then 1 else 0) ++ (putString "SELECT 1" ++
      [2, 0, 1, 0, 2, 255, 255, 255, 255, 0, 0, 0])) =
      [2, 0, 8, 83, 69, 76, 69, 67, 84, 32, 49, 2, 0, 1, 0, 2, 255, 255, 255, 255, 0, 0, 0] := by
    rw [show putString "SELECT 1" = putUvarint 8 ++ [83, 69, 76, 69, 67, 84, 32, 49] from rfl]
    simp [putUvarint]
  generalize hg : putUvarint 2 ++ _ = bs
  obtain rfl : bs = _ := hg.symm.trans hb
  have e1 : readString [2, 0, 8, 83, 69, 76, 69, 67, 84, 32, 49, 2, 0, 1, 0, 2, 255, 255, 255, 255, 0, 0, 0] =
      .ok "\x00\x08" [83, 69, 76, 69, 67, 84, 32, 49, 2, 0, 1, 0, 2, 255, 255, 255, 255, 0, 0, 0] := by decide +kernel
  have e2 : readUvarint [83, 69, 76, 69, 67, 84, 32, 49, 2, 0, 1, 0, 2, 255, 255, 255, 255, 0, 0, 0] =
      .ok 83 [69, 76, 69, 67, 84, 32, 49, 2, 0, 1, 0, 2, 255, 255, 255, 255, 0, 0, 0] := by decide +kernel
  have e3 : readString [69, 76, 69, 67, 84, 32, 49, 2, 0, 1, 0, 2, 255, 255, 255, 255, 0, 0, 0] = .more := by decide +kernel
  rw [bind_ok e1, if_neg (by decide), if_pos (by decide), bind_ok e2, bind_more e3]

/-- C93 fails for `execute`: the server a handle was connected to has gone, the check before the statement connects to a newer one, and
the statement is still written for the old one. The new server reads no statement from it: it waits for more, and so
does the client. -/
theorem C93_execute_violated (env : Env) (kind : String → SettingKind) (tz : Tz) : ∃ (h h' : Handle) (w : WorldC) (c : Conn) (q : Query) (bytes : Bytes),
    ToldBy exRevision h ∧ ToldWorld exRevision w ∧ h.executeC q w = (.ok (), h', []) ∧ h'.inner = some c ∧ ¬ WrittenFor exRevision c ∧
    .sendQuery q h.context ∈ c.sent ∧ (Cmd.sendQuery q h.context).encode env.codec = .ok bytes ∧
    readMsg env kind (min (exRevision c.server) 54429) tz false bytes = .more := by
  obtain ⟨bytes, h1, h2⟩ := stale_read env kind tz
  have hx : exOldHandle.executeC ⟨"SELECT 1", ""⟩ (exNewWorld exNewer) =
      (.ok (), ⟨some ⟨[], exNewer, false, [.hello exNewCtx, .ping, .sendQuery ⟨"SELECT 1", ""⟩ exOldCtx]⟩, exNewCtx, .attached⟩, []) := by
    rw [Handle.executeC, exOld_checked exNewer rfl]
    simp [Conn.execute, Conn.clear, Conn.call, CStream.loop, CStream.next, exNewer, sampleServer, executeBody, Packet.takesConn]
    rfl
  refine ⟨exOldHandle, _, exNewWorld exNewer, _, _, bytes, (exOld_told exNewer rfl).1, (exOld_told exNewer rfl).2, hx, rfl, ?_, by simp; rfl, h1, h2⟩
  intro hw
  have := hw (.sendQuery ⟨"SELECT 1", ""⟩ exOldCtx) (by simp) exOldCtx (by simp [contextsIn])
  exact absurd this (by decide)

/-- A newer server that also takes data: upon a statement it sends the columns of the table, upon data the end. -/
def exStoring : List Cmd → List Inc := fun l =>
  match l.getLast? with
  | some .ping => [.packet .pong]
  | some (.sendQuery _ _) => [.packet (.block sampleBlock)]
  | some (.union _ _) => [.packet .eof]
  | _ => []

theorem exStored (numeric : Char → Bool) (table q : Query) (hq : makeQuery numeric table sampleBlock = .ok q) :
    ∃ c : Conn, c.server = exStoring ∧ .sendQuery q exOldCtx ∈ c.sent ∧
      exOldHandle.insertC numeric (fun b _ => .ok b) table sampleBlock (exNewWorld exStoring) = (.ok (), ⟨some c, exNewCtx, .attached⟩, []) := by
  have h1 : Conn.clear ⟨[], exStoring, false, [.hello exNewCtx, .ping]⟩ = .ok ⟨[], exStoring, false, [.hello exNewCtx, .ping]⟩ := rfl
  have h2 : Conn.sendInsertQuery ⟨[], exStoring, false, [.hello exNewCtx, .ping]⟩ exOldCtx q =
      .ok (⟨[], exStoring, false, [.hello exNewCtx, .ping, .sendQuery q exOldCtx]⟩, sampleBlock) := by
    simp [Conn.sendInsertQuery, CStream.readOneBlock, Conn.call, CStream.loop, CStream.next, exStoring, readBlockBody, Packet.takesConn,
      Packet.isBlock]
  have h3 : insertChunks sampleBlock = .ok [⟨BlockInfo.default, sampleBlock.columns.map fun c => c.slice 0 3⟩] := rfl
  have h4 : Conn.insertBlock ⟨[], exStoring, false, [.hello exNewCtx, .ping, .sendQuery q exOldCtx]⟩ exOldCtx
      ⟨BlockInfo.default, sampleBlock.columns.map fun c => c.slice 0 3⟩ = .ok ⟨[], exStoring, false, [.hello exNewCtx, .ping, .sendQuery q exOldCtx,
        .union (.sendData ⟨BlockInfo.default, sampleBlock.columns.map fun c => c.slice 0 3⟩ exOldCtx) (.sendData Block.new exOldCtx)]⟩ := by
    simp [Conn.insertBlock, CStream.readOneBlock, Conn.call, CStream.loop, CStream.next, exStoring, readBlockBody, Packet.takesConn,
      Packet.isBlock]
  refine ⟨⟨[], exStoring, false, [.hello exNewCtx, .ping, .sendQuery q exOldCtx,
    .union (.sendData ⟨BlockInfo.default, sampleBlock.columns.map fun c => c.slice 0 3⟩ exOldCtx) (.sendData Block.new exOldCtx)]⟩, rfl, ?_, ?_⟩
  rotate_left
  · rw [Handle.insertC, hq]
    simp only [exOld_checked exStoring rfl, Conn.insert, h1, show exOldHandle.context = exOldCtx from rfl, h2, h3, h4]
    rfl
  · simp

/-- C93 fails for `insert` in the same way. -/
theorem C93_insert_violated (numeric : Char → Bool) (table q : Query) (hq : makeQuery numeric table sampleBlock = .ok q) :
    ∃ (h h' : Handle) (w : WorldC) (c : Conn), ToldBy exRevision h ∧ ToldWorld exRevision w ∧
      h.insertC numeric (fun b _ => .ok b) table sampleBlock w = (.ok (), h', []) ∧ h'.inner = some c ∧ ¬ WrittenFor exRevision c := by
  obtain ⟨c, h1, h2, h3⟩ := exStored numeric table q hq
  refine ⟨exOldHandle, _, exNewWorld exStoring, c, (exOld_told exStoring rfl).1, (exOld_told exStoring rfl).2, h3, rfl, fun hw => ?_⟩
  have := hw _ h2 exOldCtx (by simp [contextsIn])
  rw [h1] at this
  exact absurd this (by decide)

/-- The hypothesis of `C93_insert_violated`, and with `exStored` and `exOld_told` those of `C93_insert_partial`. -/
example : ∃ q, makeQuery (fun c => c.isDigit) ⟨"t", ""⟩ sampleBlock = .ok q := ⟨_, rfl⟩

end CH.Props
