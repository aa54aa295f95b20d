import Verif.Lemmas.Progress
import Verif.Lemmas.Flush
import Verif.Props.Faults

/-!
C82: what holds of operations on decoded messages (C79, C81) holds of the operations over the socket.
-/

namespace CH.Props
open CH CH.Spec CH.Socket CH.Feed CH.Progress

/-- C82. One operation over the socket, with whatever it takes to reconnect: however the bytes are cut into pieces and however often
the socket is not ready, any result it comes to is that of the operation on a connection that gives the decoded messages, and the two
handles go on agreeing. -/
theorem C82_operation (env : Env) (numeric : Char → Bool) (cast : Block → Block → Out Block) (h h' : HandleS) (w : WorldS) (a : Wish)
    (r : Reply) (hc : Handle) (wc : World) (ha : AskS env numeric cast h w a r h') (hh : IsHandle env h hc) (hw : IsWorld env w wc)
    (he : DataEncodes env cast h.context a) : ∃ hc', askW numeric cast hc wc a = some (r, hc') ∧ IsHandle env h' hc' :=
  ask_same ha hh hw he

theorem eof_parse (env : Env) (i : TransportInfo) : parsePacket env i [5] = .ok .eof [] := by
  simp [parsePacket, parseBody, bind_run, readUvarint, readUvarintLoop, Reader.pure]

/-- What the server of `exDbConn` sends for a ping and for a statement with the ping before it: the bytes come in two parts with
pauses. The socket takes one byte at a time, `n` times. -/
def exSock (n : Nat) : Sock := ⟨Transport.new false, [.pending, .ready [4], .pending, .ready [4, 5]], ⟨List.replicate n (.wrote 1), []⟩⟩

theorem exSock_is (env : Env) (n : Nat) : IsConn env (exSock n)
    ⟨replies exDbConn.server exDbConn.sent [.ping, .ping, .sendQuery ⟨"DROP", ""⟩ sampleCtx], fun _ => [], false, []⟩ where
  carries := ⟨rfl, rfl, [.inl .pong, .inl .pong, .inl .eof], _, [], by
      simp [replies, exDbConn, serverOf, exDb, incOf],
      .packet (pong_parse env _ [4, 5]) (.other (by simp)) (.packet (pong_parse env _ [5]) (.other (by simp))
        (.packet (eof_parse env _) (.other (by simp)) .done)), parsePacket_nil _ _⟩
  encodable := fun d hd => absurd (show d ∈ [] from hd) List.not_mem_nil
  mute _ := rfl
  reads := by
    intro e he
    simp only [exSock, List.mem_cons, List.not_mem_nil, or_false] at he
    rcases he with rfl | rfl | rfl | rfl
    · exact .inl rfl
    · exact .inr ⟨[4], by simp, rfl⟩
    · exact .inl rfl
    · exact .inr ⟨[4, 5], by simp, rfl⟩
  writes := by
    intro e he
    rw [List.eq_of_mem_replicate (show e ∈ List.replicate n (.wrote 1) from he)]
    exact nofun
  written := rfl

/-- The hypotheses of `C82_operation` and `C82_all_sent`: a handle over a socket that takes enough, on which a ping succeeds. -/
theorem exSock_ping (env : Env) (numeric : Char → Bool) (cast : Block → Block → Out Block) :
    ∃ n hc, IsHandle env ⟨some (exSock n), sampleCtx, .attached⟩ hc ∧
      ∃ k, AskS env numeric cast ⟨some (exSock n), sampleCtx, .attached⟩ [] .ping (.items []) ⟨some k, sampleCtx, .attached⟩ := by
  have hp : pingC ⟨[.packet .pong, .packet .pong, .packet .eof], fun _ => [], false, []⟩ =
      .ok ⟨[.packet .pong, .packet .eof], fun _ => [], false, [.ping]⟩ := by
    have h1 : Conn.clear ⟨[.packet .pong, .packet .pong, .packet .eof], fun _ => [], false, []⟩ =
      .ok ⟨[.packet .pong, .packet .pong, .packet .eof], fun _ => [], false, []⟩ := rfl
    simp only [pingC, h1, andThen, Conn.call, List.nil_append, List.append_nil]
    rw [loop_item (next_taken (rest := [.packet .pong, .packet .eof]) rfl rfl)]
    simp only [pingBody]
    rw [loop_ended next_none]
    rfl
  have he : ask numeric cast ⟨some ⟨[.packet .pong, .packet .pong, .packet .eof], fun _ => [], false, []⟩, sampleCtx, .attached⟩ .ping =
      some ([], ⟨some ⟨[.packet .pong, .packet .eof], fun _ => [], false, [.ping]⟩, sampleCtx, .attached⟩) := by
    simp only [ask, ping_of hp]
  obtain ⟨n, h⟩ := ask_progress (env := env) he (by simp) trivial 0
  have hi := exSock_is env (n + 1)
  have hr : replies exDbConn.server exDbConn.sent [.ping, .ping, .sendQuery ⟨"DROP", ""⟩ sampleCtx] =
      [.packet .pong, .packet .pong, .packet .eof] := by simp [replies, exDbConn, serverOf, exDb]
  rw [hr] at hi
  have ha : ∀ n, accepts (List.replicate n (.wrote 1)) = n := by
    intro n
    induction n with
    | zero => rfl
    | succ n ih => rw [List.replicate_succ, accepts, ih]
  obtain ⟨k', g, -⟩ := h (exSock (n + 1)) ⟨hi, by
    rw [show (exSock (n + 1)).writer.evs = List.replicate (n + 1) (.wrote 1) from rfl, ha]
    show n + 0 < n + 1
    omega⟩
  exact ⟨n + 1, ⟨some _, sampleCtx, .attached⟩, ⟨.some hi, rfl, rfl⟩, _, g⟩

/-- A case of `C82_operation`. -/
example (env : Env) (numeric : Char → Bool) (cast : Block → Block → Out Block) :
    ∃ n k hc hc', AskS env numeric cast ⟨some (exSock n), sampleCtx, .attached⟩ [] .ping (.items []) ⟨some k, sampleCtx, .attached⟩ ∧
      askW numeric cast hc [] .ping = some (.items [], hc') := by
  obtain ⟨n, hc, h, k, ha⟩ := exSock_ping env numeric cast
  obtain ⟨hc', e, _⟩ := C82_operation env numeric cast _ _ _ _ _ hc [] ha h .nil trivial
  exact ⟨n, k, hc, hc', ha, e⟩

theorem ask_askW {numeric : Char → Bool} {cast : Block → Block → Out Block} {h h' : Handle} {a : Wish} {o : List BItem}
    (e : ask numeric cast h a = some (o, h')) : askW numeric cast h [] a = some (.items o, h') := by
  cases a with
  | ping =>
    simp only [ask] at e
    simp only [askW]
    generalize h.ping = q at e ⊢
    obtain ⟨u, g⟩ := q
    cases u <;> simp at e ⊢
    exact e
  | execute q =>
    simp only [ask] at e
    simp only [askW]
    generalize h.execute q [] = q at e ⊢
    obtain ⟨u, g, w⟩ := q
    cases u <;> simp at e ⊢
    exact e
  | insert t b =>
    simp only [ask] at e
    simp only [askW]
    generalize h.insert numeric cast t b [] = q at e ⊢
    obtain ⟨u, g, w⟩ := q
    cases u <;> simp at e ⊢
    exact e
  | select q skip n =>
    simp only [ask] at e
    simp only [askW]
    generalize h.openStream q skip [] = q at e ⊢
    obtain ⟨u, g, w⟩ := q
    cases u <;> simp at e ⊢
    exact e

theorem effect_no_wait {σ : Type} {db : Db σ} {numeric : Char → Bool} {cast : Block → Block → Out Block} {s s' : σ} {a : Wish}
    {o : List BItem} (h : Effect db numeric cast s a s' o) : BItem.waits ∉ o := by
  cases h with
  | select _ =>
    intro hm
    simp only [itemsOf, List.mem_append, List.mem_map, List.mem_replicate] at hm
    rcases hm with ⟨b, _, hb⟩ | ⟨_, hb⟩ <;> cases hb
  | _ => simp

/-- C82. Any number of things asked of a database over a socket: if the socket delivers, in whatever pieces and with whatever pauses,
bytes that decode to the answers the database gives to the commands the client sends (`cmds`), then whatever the program over the
socket comes to is what was asked of the database in turn, and what the socket has taken, with what is still to be sent, are exactly
the bytes of those commands; and the program does come to that if the socket takes bytes often enough. -/
theorem C82_database {σ : Type} (env : Env) (db : Db σ) (s0 s : σ) (c : Conn) (ctx : Context) (numeric : Char → Bool)
    (cast : Block → Block → Out Block) (l : List Wish) (hv : Serves db s0 c.server) (hs : (db.state s0 c.sent).1 = s)
    (hi : c.inconsistent = false) (hn : c.incoming = []) (hp : ctx.options.pingBeforeQuery = true)
    (hw : Workable db numeric cast s l) (he : ∀ a ∈ l, DataEncodes env cast ctx a) :
    ∃ os c' s' cmds n, askAll numeric cast ⟨some c, ctx, .attached⟩ l = some (os, ⟨some c', ctx, .attached⟩) ∧ c'.sent = c.sent ++ cmds ∧
      Effects db numeric cast s l s' os ∧ (db.state s0 c'.sent).1 = s' ∧
      ∀ k, IsConn env k ⟨replies c.server c.sent cmds, fun _ => [], false, c.sent⟩ →
        (∀ rs h', AskAllS env numeric cast ⟨some k, ctx, .attached⟩ l rs h' → rs = os.map .items ∧
          ∃ k', h'.inner = some k' ∧ k'.writer.out ++ k'.t.wr ++ cmdBytes env.codec k'.t.cmds = cmdBytes env.codec c'.sent) ∧
        (n + unsent env k.t < accepts k.writer.evs → ∃ h', AskAllS env numeric cast ⟨some k, ctx, .attached⟩ l (os.map .items) h') := by
  have hb : Between db s0 c s := ⟨hv, hs, .inl ⟨hi, hn⟩⟩
  have key : ∃ os c' s' cmds, askAll numeric cast ⟨some c, ctx, .attached⟩ l = some (os, ⟨some c', ctx, .attached⟩) ∧
      c'.sent = c.sent ++ cmds ∧ Effects db numeric cast s l s' os ∧ (db.state s0 c'.sent).1 = s' ∧
      ∀ e, Fed (replies c.server c.sent cmds) e c →
        (∀ k rs h', IsConn env k e → AskAllS env numeric cast ⟨some k, ctx, .attached⟩ l rs h' → rs = os.map .items ∧
          ∃ k', h'.inner = some k' ∧ k'.writer.out ++ k'.t.wr ++ cmdBytes env.codec k'.t.cmds = cmdBytes env.codec c'.sent) ∧
        ∃ n, ∀ k, Free env n k e → ∃ h', AskAllS env numeric cast ⟨some k, ctx, .attached⟩ l (os.map .items) h' := by
    clear hv hs hi hn
    induction l generalizing c s with
    | nil =>
      refine ⟨[], c, s, [], rfl, by simp, .nil, hb.state, fun e hf => ⟨fun k rs h' hk ha => ?_, 0, fun k _ => ⟨_, .nil⟩⟩⟩
      cases ha
      exact ⟨rfl, k, rfl, by rw [hk.written, hf.same]⟩
    | cons a l ih =>
      cases hw with
      | cons hc hw =>
        obtain ⟨o, c1, s1, e1, h1, hb1⟩ := C79_one hb hp hc
        obtain ⟨cmds1, f1, f2, f3⟩ := ask_fed e1 (effect_no_wait h1)
        obtain ⟨os, c2, s2, cmds2, e2, e3, h2, h3, h4⟩ := ih s1 c1 (hw _ _ h1) (fun a ha => he a (List.mem_cons_of_mem _ ha)) hb1
        refine ⟨o :: os, c2, s2, cmds1 ++ cmds2, by simp only [askAll, e1, e2, Option.map_some], by rw [e3, f2, List.append_assoc], .cons h1 h2, h3,
          fun e hf => ?_⟩
        rw [replies_append] at hf
        obtain ⟨e', g1, g2⟩ := f3 _ e hf
        obtain ⟨h5, n1, h6⟩ := h4 e' (by rw [f1, f2]; exact g2)
        constructor
        · intro k rs h' hk ha
          cases ha with
          | @cons _ _ r h1 _ rs _ ha hl =>
            have hh : IsHandle env ⟨some k, ctx, .attached⟩ ⟨some e, ctx, .attached⟩ := ⟨.some hk, rfl, rfl⟩
            obtain ⟨hc', q1, q2⟩ := ask_same ha hh .nil (he a List.mem_cons_self)
            rw [ask_askW g1] at q1
            simp only [Option.some.injEq, Prod.mk.injEq] at q1
            obtain ⟨rfl, rfl⟩ := q1
            obtain ⟨ki, kc, kb⟩ := h1
            obtain ⟨q3, q4, q5⟩ := q2
            simp only at q3 q4 q5
            subst q4 q5
            cases q3 with
            | @some k1 _ q3 =>
              obtain ⟨rfl, h8⟩ := h5 k1 rs h' q3 hl
              exact ⟨rfl, h8⟩
        · obtain ⟨n, h7⟩ := ask_progress g1 (effect_no_wait h1) (he a List.mem_cons_self) n1
          refine ⟨n, fun k hk => ?_⟩
          obtain ⟨k1, r1, r2⟩ := h7 k hk
          obtain ⟨h', r3⟩ := h6 k1 r2
          exact ⟨h', .cons r1 r3⟩
  obtain ⟨os, c', s', cmds, a1, a2, k1, k2, k3⟩ := key
  obtain ⟨k4, n, k5⟩ := k3 ⟨replies c.server c.sent cmds, fun _ => [], false, c.sent⟩ ⟨by rw [hn]; rfl, hi.symm, fun _ => rfl, rfl⟩
  exact ⟨os, c', s', cmds, n, a1, a2, k1, k2, fun k hk => ⟨fun rs h' ha => k4 k rs h' hk ha, fun hf => k5 k ⟨hk, hf⟩⟩⟩

/-- C82. When something asked of a handle has succeeded and, if it was a query, at least one item was awaited, the socket has taken
every byte of the commands sent. -/
theorem C82_all_sent (env : Env) (numeric : Char → Bool) (cast : Block → Block → Out Block) (h h' : HandleS) (w : WorldS) (a : Wish)
    (os : List BItem) (hc : Handle) (wc : World) (k : Sock) (ha : AskS env numeric cast h w a (.items os) h') (hh : IsHandle env h hc)
    (hw : IsWorld env w wc) (hd : DataEncodes env cast h.context a) (he : ∀ e, BItem.err e ∉ os) (hp : BItem.panic ∉ os)
    (h0 : ∀ q skip, a ≠ .select q skip 0) (hk : h'.inner = some k) :
    ∃ hc' c', askW numeric cast hc wc a = some (.items os, hc') ∧ hc'.inner = some c' ∧ k.writer.out = cmdBytes env.codec c'.sent := by
  obtain ⟨hc', e1, e2⟩ := ask_same ha hh hw hd
  have hs : Flush.SatedO h'.inner := by
    cases ha with
    | ping hp => exact Flush.ping_sated hp
    | execute hx => exact Flush.checked_sated (fun _ _ _ => Flush.execute_sated) hx
    | @select q skip n s h1 w1 is s' h2 h' ho hr hd =>
      have hn : n ≠ 0 := by rintro rfl; exact h0 q skip rfl
      cases ho with
      | opened _ _ _ =>
        obtain ⟨r1, r2⟩ := Flush.run_sated hr (Flush.call_past _ _) Flush.none_sated he hp (.inl ⟨hn, rfl⟩)
        exact Flush.drop_sated r1 r2 hd
    | @insert t b _ _ hi =>
      rw [HandleS.insert] at hi
      cases hq : makeQuery numeric t b with
      | ok q => rw [hq] at hi; exact Flush.checked_sated (fun _ _ _ => Flush.insert_sated) hi
      | err e => rw [hq] at hi; cases hi.1
      | panic => rw [hq] at hi; cases hi.1
  have hin := e2.inner
  rw [hk] at hin
  cases hi : hc'.inner with
  | none => rw [hi] at hin; cases hin
  | some c' =>
    rw [hi] at hin
    cases hin with
    | some hin =>
      refine ⟨hc', c', e1, hi, ?_⟩
      obtain ⟨s1, s2⟩ := hs k hk
      have := hin.written
      rw [s1, s2] at this
      simpa [cmdBytes] using this

/-- A case of `C82_all_sent`. -/
example (env : Env) (numeric : Char → Bool) (cast : Block → Block → Out Block) :
    ∃ n k c', AskS env numeric cast ⟨some (exSock n), sampleCtx, .attached⟩ [] .ping (.items []) ⟨some k, sampleCtx, .attached⟩ ∧
      k.writer.out = cmdBytes env.codec c' := by
  obtain ⟨n, hc, h, k, ha⟩ := exSock_ping env numeric cast
  obtain ⟨_, c', _, _, e⟩ := C82_all_sent env numeric cast _ _ _ _ _ hc [] k ha h .nil trivial (by simp) (by simp) nofun rfl
  exact ⟨n, k, c'.sent, ha, e⟩

/-- The hypotheses of `C82_database`. -/
example (env : Env) : Serves exDb [] exDbConn.server ∧ (exDb.state [] exDbConn.sent).1 = [] ∧ exDbConn.inconsistent = false ∧
    exDbConn.incoming = [] ∧ sampleCtx.options.pingBeforeQuery = true ∧
    Workable exDb (fun c => c.isDigit) (fun b _ => .ok b) [] [.ping, .execute ⟨"DROP", ""⟩] ∧
    ∀ a ∈ [Wish.ping, .execute ⟨"DROP", ""⟩], DataEncodes env (fun b _ => .ok b) sampleCtx a :=
  ⟨serverOf_serves exDb [], rfl, rfl, rfl, rfl, .cons .ping fun _ _ _ => .cons (.execute rfl) fun _ _ _ => .nil, by
    intro a ha
    simp only [List.mem_cons, List.not_mem_nil, or_false] at ha
    rcases ha with rfl | rfl <;> trivial⟩

end CH.Props
