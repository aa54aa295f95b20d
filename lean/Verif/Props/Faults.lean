import Verif.Lemmas.Faults
import Verif.Props.Service

/-! C81: failures of statements, of data and of connections stay with the operation they happen to. -/

namespace CH.Props
open CH CH.Spec CH.Faults

/-- C81. One thing asked of a handle between operations, whose connection is in step, or holds the rest of an abandoned answer
(perhaps one that breaks off), or has broken, or is gone, while reconnecting may give connections in any such
state too: what the user gets is what the database says to this statement in its present state, and the handle can be used again. Missing: a query read up to the point where its answer breaks off
(`C52_after_exception_violated`, `C52_after_loss_violated`). -/
theorem C81_one_partial {σ : Type} {db : Shaky σ} {s : σ} {h : Handle} {ctx : Context} {w : World} {numeric : Char → Bool}
    {cast : Block → Block → Out Block} {a : Wish} (hr : Ready db ctx h s) (hp : ctx.options.pingBeforeQuery = true)
    (hm : 0 < ctx.options.sendRetries) (hw : Reopens db s ctx.options.sendRetries w) (ha : Askable db numeric cast s a) :
    ∃ r h' s', askW numeric cast h w a = some (r, h') ∧ Outcome db numeric cast s a s' r ∧ Ready db ctx h' s' := by
  obtain ⟨n0, s0, c, used, w', hused, hpre, hs⟩ := ready_precheck hr hp hm hw
  have hclear : c.clear = .ok c := by simp [Conn.clear, hs.calm]
  have select : ∀ q skip n, db.isInsert q = false → (db.refuses s q = none ∨ n ≤ (resultBlocks skip (db.answer s q)).length) →
      ∃ r h' s', askW numeric cast h w (.select q skip n) = some (r, h') ∧ Outcome db numeric cast s (.select q skip n) s' r ∧
        Ready db ctx h' s' := by
    intro q skip n hq hor
    have ho : h.openStream q skip w =
        (.ok (reading ⟨c.incoming ++ c.server (c.sent ++ [.sendQuery q ctx]), c.server, c.inconsistent, c.sent ++ [.sendQuery q ctx]⟩ 0 skip),
          ⟨none, ctx, .detached⟩, w') := by
      simp only [Handle.openStream, hpre, Binding.detach]
      rfl
    have hin : c.incoming ++ c.server (c.sent ++ [.sendQuery q ctx]) = db.answer s q ++ [closing (db.refuses s q)] := by
      rw [hs.empty, hs.serves.statement _ _ _ hs.long hq, hs.state]; rfl
    rcases hor with hn | hn
    · obtain ⟨s', h', c', r1, r2, r3, r4, r5⟩ := run_some (skip := skip) (h := ⟨none, ctx, .detached⟩) rfl n (db.answer s q)
        (c := ⟨c.incoming ++ c.server (c.sent ++ [.sendQuery q ctx]), c.server, c.inconsistent, c.sent ++ [.sendQuery q ctx]⟩)
        (idx := 0) (by rw [hn] at hin; exact hin) (db.answers _ _) hs.calm
      refine ⟨.items (itemsOf n (resultBlocks skip (db.answer s q))), ⟨some c', ctx, .attached⟩, _, ?_, .select hq, rfl, rfl,
        .inr ⟨c', rfl, ⟨n0, s0, by rw [r3]; exact hs.serves, by rw [r4]; exact longer hs.long _,
          by rw [r4, drop_snoc hs.long, Faults.state_statement _ _ _ hq, hs.state]⟩, ?_⟩⟩
      · simp only [askW, ho, r1, r2, wantedFrom_zero, Option.map_some]
      · rcases r5 with ⟨h1, h2⟩ | ⟨h1, body, h2, h3⟩
        · exact .inl ⟨h1, by rw [h2]; exact .none⟩
        · exact .inr ⟨h1, body, _, [], h2, h3, .inl rfl, .none⟩
    · obtain ⟨s', c', body', r1, r2, r3, r4, r5, r6, r7⟩ := run_part (skip := skip) (h := ⟨none, ctx, .detached⟩) rfl n (db.answer s q)
        (c := ⟨c.incoming ++ c.server (c.sent ++ [.sendQuery q ctx]), c.server, c.inconsistent, c.sent ++ [.sendQuery q ctx]⟩)
        (idx := 0) hin (db.answers _ _) (by rw [wantedFrom_zero]; exact hn)
      refine ⟨.items (itemsOf n (resultBlocks skip (db.answer s q))), ⟨some c', ctx, .attached⟩, _, ?_, .select hq, rfl, rfl,
        .inr ⟨c', rfl, ⟨n0, s0, by rw [r3]; exact hs.serves, by rw [r4]; exact longer hs.long _,
          by rw [r4, drop_snoc hs.long, Faults.state_statement _ _ _ hq, hs.state]⟩, ?_⟩⟩
      · simp only [askW, ho, r1, r2, wantedFrom_zero, Option.map_some]
      · refine .inr ⟨r5, body', _, [], r6, r7, ?_, .none⟩
        cases hx : db.refuses s q with
        | none => exact .inl rfl
        | some xe =>
          obtain ⟨x, e⟩ := xe
          exact .inr ⟨e, db.refused s q x e hx⟩
  cases ha with
  | ping =>
    obtain ⟨inner, context, binding⟩ := h
    obtain ⟨h1, h2, h3⟩ := hr
    simp only at h1 h2 h3
    subst h1 h2
    rcases h3 with rfl | ⟨c, rfl, hl⟩
    · exact ⟨_, _, s, rfl, .pingFailed _, rfl, rfl, .inl rfl⟩
    · rcases link_ping hl context .attached with ⟨n1, s1, c', e, hs'⟩ | ⟨e, he⟩
      · exact ⟨.items [], ⟨some c', context, .attached⟩, s, by simp only [askW, e], .ping, rfl, rfl, .inr ⟨c', rfl, hs'.link⟩⟩
      · exact ⟨.failed e, ⟨none, context, .attached⟩, s, by simp only [askW, he], .pingFailed e, rfl, rfl, .inl rfl⟩
  | @execute q hq =>
    obtain ⟨g1, g2⟩ := Faults.step_execute hs ctx hq
    cases hx : db.refuses s q with
    | none =>
      obtain ⟨c', e, h'⟩ := g1 hx
      exact ⟨.items [], ⟨some c', ctx, .attached⟩, _, by simp only [askW, Handle.execute, hpre, e], .execute hq hx, rfl, rfl,
        .inr ⟨c', rfl, h'.link⟩⟩
    | some xe =>
      obtain ⟨x, e⟩ := xe
      exact ⟨.failed e, ⟨none, ctx, .attached⟩, _, by simp only [askW, Handle.execute, hpre, g2 x e hx], .executeFailed hq hx, rfl, rfl,
        .inl rfl⟩
  | @select q skip n hq hn => exact select q skip n hq (.inl hn)
  | @selectPart q skip n hq hn => exact select q skip n hq (.inr hn)
  | @insertRefused t b q x e hq hi hx =>
    obtain ⟨g1, g2⟩ := Faults.step_insertQuery hs ctx hi
    exact ⟨.failed e, ⟨none, ctx, .attached⟩, _, by simp only [askW, Handle.insert, hq, hpre, Conn.insert, hclear, g2 x e hx],
      .insertRefused hq hx, rfl, rfl, .inl rfl⟩
  | @insertUnfit t b q e hq hi hcast =>
    obtain ⟨g1, g2⟩ := Faults.step_insertQuery hs ctx hi
    cases hx : db.refuses s q with
    | none =>
      obtain ⟨c', e', h', _⟩ := g1 hx
      exact ⟨.failed (.other e), ⟨none, ctx, .attached⟩, _, by simp only [askW, Handle.insert, hq, hpre, Conn.insert, hclear, e', hcast],
        .insertUnfit hq hx hcast, rfl, rfl, .inl rfl⟩
    | some xe =>
      obtain ⟨x, e⟩ := xe
      exact ⟨.failed e, ⟨none, ctx, .attached⟩, _, by simp only [askW, Handle.insert, hq, hpre, Conn.insert, hclear, g2 x e hx],
        .insertRefused hq hx, rfl, rfl, .inl rfl⟩
  | @insert t b q b' m hq hi hcast hm' hrect hrc =>
    obtain ⟨g1, g2⟩ := Faults.step_insertQuery hs ctx hi
    cases hx : db.refuses s q with
    | some xe =>
      obtain ⟨x, e⟩ := xe
      exact ⟨.failed e, ⟨none, ctx, .attached⟩, _, by simp only [askW, Handle.insert, hq, hpre, Conn.insert, hclear, g2 x e hx],
        .insertRefused hq hx, rfl, rfl, .inl rfl⟩
    | none =>
      obtain ⟨c3, e3, h3, hs3⟩ := g1 hx
      obtain ⟨ch, chs, e4, hch, hrows⟩ := chunks_of hm' hrect hrc
      obtain ⟨t', r, hst, hcs⟩ := step_chunks ctx hi chs ch h3 hs3
      rcases hcs with ⟨rfl, c5, c6, e5, e6, h6⟩ | ⟨e, rfl, hcs⟩
      · exact ⟨.items [], ⟨some c6, ctx, .attached⟩, t', by simp only [askW, Handle.insert, hq, hpre, Conn.insert, hclear, e3, hcast, e4, e5, e6],
          .insert (r := none) (ch :: chs) hq hx hcast hch hrows hst, rfl, rfl, .inr ⟨c6, rfl, h6.link⟩⟩
      · refine ⟨.failed e, ⟨none, ctx, .attached⟩, t', ?_, .insert (r := some e) (ch :: chs) hq hx hcast hch hrows hst, rfl, rfl, .inl rfl⟩
        rcases hcs with hcs | ⟨c5, e5, e6⟩
        · simp only [askW, Handle.insert, hq, hpre, Conn.insert, hclear, e3, hcast, e4, hcs]
        · simp only [askW, Handle.insert, hq, hpre, Conn.insert, hclear, e3, hcast, e4, e5, e6]

/-- The same in turn, from any handle that is ready. -/
theorem live_ready {σ : Type} {db : Shaky σ} {ctx : Context} {numeric : Char → Bool} {cast : Block → Block → Out Block} (l : List Event)
    {s : σ} {h : Handle} (hr : Ready db ctx h s) (hp : ctx.options.pingBeforeQuery = true) (hm : 0 < ctx.options.sendRetries)
    (hl : Liveable db numeric cast ctx.options.sendRetries s l) :
    ∃ rs h' s', live numeric cast h l = some (rs, h') ∧ Outcomes db numeric cast s l s' rs := by
  induction l generalizing h s with
  | nil => exact ⟨[], h, s, rfl, .nil⟩
  | cons x l ih =>
    cases hl with
    | @asked _ a w _ ha hw hl =>
      obtain ⟨r, h1, s1, e1, ho, hr1⟩ := C81_one_partial hr hp hm hw ha
      obtain ⟨rs, h2, s2, e2, hos⟩ := ih hr1 (hl _ _ ho)
      exact ⟨r :: rs, h2, s2, by simp only [live, e1, e2, Option.map_some], .asked ho hos⟩
    | @broken _ x _ hx hl =>
      have hr' : Ready db ctx { h with inner := h.inner.map fun c => { c with incoming := c.incoming ++ [x] } } s :=
        ⟨hr.context, hr.bound, by
          rcases hr.conn with hn | ⟨c, hc, hlink⟩
          · exact .inl (by simp [hn])
          · exact .inr ⟨_, by simp [hc], link_breaks hlink hx⟩⟩
      obtain ⟨rs, h2, s2, e2, hos⟩ := ih hr' hl
      exact ⟨rs, h2, s2, e2, .broken hos⟩

/-- C81. Everything that happens to a handle of a pool in turn: statements that succeed or fail, queries read or dropped, inserts
of which a chunk may be lost, connections that break between operations. Every operation but a ping gets the reply of the
database to its own statement, in the state the statements before it led to: a failure is seen by the operation it happens to and by
no other, and broken connections are seen by none. Missing as above. -/
theorem C81_sequence_partial {σ : Type} (db : Shaky σ) (s : σ) (c : Conn) (ctx : Context) (numeric : Char → Bool)
    (cast : Block → Block → Out Block) (l : List Event) (hc : GoodConn db c s) (hp : ctx.options.pingBeforeQuery = true)
    (hm : 0 < ctx.options.sendRetries) (hl : Liveable db numeric cast ctx.options.sendRetries s l) :
    ∃ rs h' s', live numeric cast ⟨some c, ctx, .attached⟩ l = some (rs, h') ∧ Outcomes db numeric cast s l s' rs := by
  obtain ⟨n0, s0, g1, g0, g2, g3, g4⟩ := hc
  exact live_ready l ⟨rfl, rfl, .inr ⟨c, rfl, (Step.mk g1 g0 g2 g3 g4).link⟩⟩ hp hm hl

/-- A server for any such database. -/
def serverOfShaky {σ : Type} (db : Shaky σ) (s : σ) (log : List Cmd) : List Inc :=
  match log.getLast? with
  | some .ping => [.packet .pong]
  | some (.sendQuery q _) =>
    if db.isInsert q then [.packet (.tableColumns "" ""), match db.refuses (db.state s log.dropLast).1 q with
      | none => .packet (.block (db.table (db.state s log.dropLast).1 q))
      | some (x, _) => x]
    else db.answer (db.state s log.dropLast).1 q ++ [closing (db.refuses (db.state s log.dropLast).1 q)]
  | some (.union (.sendData b _) _) =>
    match db.state s log.dropLast with
    | (t, some q) => [closing (db.loses t q b)]
    | _ => []
  | _ => []

theorem serverOfShaky_serves {σ : Type} (db : Shaky σ) (s : σ) : ServesShaky db 0 s (serverOfShaky db s) where
  ping log _ := by simp [serverOfShaky]
  cancel log _ := by simp [serverOfShaky]
  statement log q ctx _ h := by simp [serverOfShaky, h]
  insert log q ctx _ h := ⟨[("", "")], by simp [serverOfShaky, h]; rfl⟩
  data log q t b e ctx _ h := by
    rw [List.drop_zero] at h
    simp [serverOfShaky, h]

def exServerError : ServerError := ⟨60, "DB::Exception", "no such table", ""⟩

/-- A database that counts the statements it has seen: a query gives a header and then one block for each; BAD is refused by the
server, GONE ends with a failing socket after one block, and data for INSERT is always lost. -/
def exShaky : Shaky Nat where
  isInsert q := q.sql.toList.take 6 == "INSERT".toList
  answer s q := if q.sql == "SELECT" then .packet (.block exHead) :: List.replicate s (.packet (.block exHead))
    else if q.sql == "GONE" then [.packet (.block exHead)] else []
  after s _ := s + 1
  table _ _ := exHead
  store s _ _ := s
  refuses _ q := if q.sql == "BAD" then some (.packet (.exception exServerError), .server exServerError)
    else if q.sql == "GONE" then some (.error (.other "reset"), .io) else none
  loses _ _ _ := some (.packet (.exception exServerError), .server exServerError)
  answers s q x hx := by
    split at hx
    · simp only [List.mem_cons, List.mem_replicate] at hx
      rcases hx with rfl | ⟨_, rfl⟩ <;> exact .block _
    · split at hx
      · simp only [List.mem_cons, List.not_mem_nil, or_false] at hx
        subst hx; exact .block _
      · simp at hx
  refused s q x e h := by
    split at h
    · simp only [Option.some.injEq, Prod.mk.injEq] at h; obtain ⟨rfl, rfl⟩ := h; exact .exception _
    · split at h
      · simp only [Option.some.injEq, Prod.mk.injEq] at h; obtain ⟨rfl, rfl⟩ := h; exact .socket _
      · cases h
  lost s q b x e h := by
    simp only [Option.some.injEq, Prod.mk.injEq] at h; obtain ⟨rfl, rfl⟩ := h; exact .exception _

/-- A new connection while the count is `n`. -/
def exFresh (n : Nat) : Conn := ⟨[], serverOfShaky exShaky n, false, []⟩

theorem exFresh_holds (n : Nat) : GoodConn exShaky (exFresh n) n := ⟨0, n, serverOfShaky_serves exShaky n, Nat.zero_le _, rfl, rfl, rfl⟩

/-- A connection used before, which the server has closed. -/
def exOld (n : Nat) : Conn := ⟨[.closed], serverOfShaky exShaky n, false, []⟩

theorem exOld_link (n : Nat) : Link exShaky (exOld n) n :=
  ⟨⟨0, n, serverOfShaky_serves exShaky n, Nat.zero_le _, rfl⟩, .inl ⟨rfl, .closed⟩⟩

/-- A statement is refused; the next succeeds on a new connection, after
one used before that is closed and one attempt that fails; a query whose answer breaks off is
dropped before that; the connection closes; data is lost; and then a query is read to its end. -/
def exEvents : List Event := [.asked (.execute ⟨"BAD", ""⟩) [some (exFresh 0)], .asked (.execute ⟨"X", ""⟩) [some (exOld 1), none, some (exFresh 1)],
  .asked (.select ⟨"GONE", ""⟩ false 1) [some (exFresh 2)], .broken .closed,
  .asked (.insert ⟨"t", ""⟩ sampleBlock) [some (exFresh 3)], .asked (.select ⟨"SELECT", ""⟩ true 4) [some (exFresh 3)]]

theorem exEvents_liveable (hr : 0 < sampleCtx.options.sendRetries) : Liveable exShaky (fun c => c.isDigit) (fun b _ => .ok b) sampleCtx.options.sendRetries 0 exEvents := by
  have one : ∀ n, Reopens exShaky n sampleCtx.options.sendRetries [some (exFresh n)] := fun n =>
    .good (exFresh_holds n)
  have many : ∀ n, Reopens exShaky n sampleCtx.options.sendRetries [some (exOld n), none, some (exFresh n)] := fun n => by
    generalize sampleCtx.options.sendRetries = r at hr
    cases r with
    | zero => omega
    | succ r => exact .used (exOld_link n) (.failed (.good (exFresh_holds n)))
  refine .asked (.execute rfl) (one 0) fun s r h => ?_
  have : s = 1 := by cases h <;> rfl
  subst this
  refine .asked (.execute rfl) (many 1) fun s r h => ?_
  have : s = 2 := by cases h <;> rfl
  subst this
  refine .asked (.selectPart rfl (by decide)) (one 2) fun s r h => ?_
  have : s = 3 := by cases h; rfl
  subst this
  refine .broken .closed (.asked (.insert (m := 3) (q := ⟨"INSERT INTO t (`id`, `tags`) VALUES", ""⟩) rfl rfl rfl (by decide) ?_ rfl) (one 3)
    fun s r h => ?_)
  · intro c hc
    simp only [sampleBlock, List.mem_cons, List.not_mem_nil, or_false] at hc
    rcases hc with rfl | rfl <;> rfl
  · have : s = 3 := by
      cases h with
      | insertRefused h1 h2 => cases h1; cases h2
      | insertUnfit h1 h2 h3 => cases h3
      | insert chunks h1 h2 h3 h4 h5 h6 =>
        cases h6 with
        | last h => cases h
        | lost h => rfl
        | refused h => cases h
        | more h => cases h
    subst this
    exact .asked (.select rfl rfl) (one 3) fun _ _ _ => .nil

example : ∃ h', live (fun c => c.isDigit) (fun b _ => .ok b) ⟨some (exFresh 0), sampleCtx, .attached⟩ exEvents =
    some ([.failed (.server exServerError), .items [], .items [.block exHead], .failed (.server exServerError),
      .items [.block exHead, .block exHead, .block exHead, .ended]], h') := by
  obtain ⟨rs, h', s', e, h⟩ := C81_sequence_partial exShaky 0 (exFresh 0) sampleCtx (fun c => c.isDigit) (fun b _ => .ok b) exEvents
    (exFresh_holds 0) rfl (by decide) (exEvents_liveable (by decide))
  refine ⟨h', ?_⟩
  rw [e]
  cases h with
  | asked h1 h =>
  cases h1 with
  | execute _ hx => cases hx
  | executeFailed _ hx =>
  cases hx
  cases h with
  | asked h2 h =>
  cases h2 with
  | executeFailed _ hx => cases hx
  | execute _ _ =>
  cases h with
  | asked h3 h =>
  cases h3 with
  | select _ =>
  cases h with
  | broken h =>
  cases h with
  | asked h4 h =>
  cases h with
  | asked h5 h =>
  cases h
  cases h4 with
  | insertRefused h1 h2 => cases h1; cases h2
  | insertUnfit h1 h2 h3 => cases h3
  | insert chunks h1 h2 h3 _ _ h6 =>
    cases h6 with
    | last h => cases h
    | refused h => cases h
    | more h => cases h
    | lost h =>
      cases h
      cases h5 with
      | select _ => rfl

end CH.Props
