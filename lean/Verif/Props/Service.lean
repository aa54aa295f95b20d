import Verif.Lemmas.Service

/-! C79: whatever a user asks of a handle in turn, the answers and the state of the database are those of the same statements
executed one after the other, each answer going to the operation that asked for it. -/

namespace CH.Props
open CH CH.Spec

/-- A server for any database. -/
def serverOf {σ : Type} (db : Db σ) (s : σ) (log : List Cmd) : List Inc :=
  match log.getLast? with
  | some .ping => [.packet .pong]
  | some (.sendQuery q _) =>
    if db.isInsert q then [.packet (.tableColumns "" ""), .packet (.block (db.table (db.state s log.dropLast).1 q))]
    else db.answer (db.state s log.dropLast).1 q ++ [.packet .eof]
  | some (.union _ _) => [.packet .eof]
  | _ => []

theorem serverOf_serves {σ : Type} (db : Db σ) (s : σ) : Serves db s (serverOf db s) where
  ping log := by simp [serverOf]
  cancel log := by simp [serverOf]
  statement log q ctx h := by simp [serverOf, h]
  insert log q ctx h := ⟨[("", "")], by simp [serverOf, h]⟩
  data log a b := by simp [serverOf]

/-- C79. One thing asked, on a connection in step or with the rest of an abandoned answer on its way: it succeeds, with the effect
and the answer that the database gives to it, and the handle is ready again. -/
theorem C79_one {σ : Type} {db : Db σ} {s0 s : σ} {c : Conn} {ctx : Context} {numeric : Char → Bool} {cast : Block → Block → Out Block}
    {a : Wish} (hb : Between db s0 c s) (hp : ctx.options.pingBeforeQuery = true) (hc : Can db numeric cast s a) :
    ∃ o c' s', ask numeric cast ⟨some c, ctx, .attached⟩ a = some (o, ⟨some c', ctx, .attached⟩) ∧
      Effect db numeric cast s a s' o ∧ Between db s0 c' s' := by
  cases hc with
  | ping =>
    obtain ⟨c', e, hs⟩ := between_ping hb ctx .attached
    exact ⟨[], c', s, by simp [ask, e], .ping, hs.between⟩
  | @execute q hq =>
    obtain ⟨c1, e1, h1⟩ := between_precheck hb hp
    obtain ⟨c2, e2, h2⟩ := step_execute h1 ctx hq
    refine ⟨[], c2, _, ?_, .execute hq, h2.between⟩
    simp only [ask, Handle.execute, e1, e2]
  | @select q skip n hq =>
    obtain ⟨c1, e1, h1⟩ := between_precheck hb hp
    have ho : (Handle.mk (some c) ctx .attached).openStream q skip [] =
        (.ok (reading ⟨c1.incoming ++ c1.server (c1.sent ++ [.sendQuery q ctx]), c1.server, c1.inconsistent, c1.sent ++ [.sendQuery q ctx]⟩ 0 skip),
          ⟨none, ctx, .detached⟩, []) := by
      simp only [Handle.openStream, e1, Binding.detach]
      rfl
    obtain ⟨s', h', c', r1, r2, r3, r4, r5⟩ := run_some (skip := skip) (h := ⟨none, ctx, .detached⟩) rfl n
      (db.answer (db.state s0 c1.sent).1 q)
      (c := ⟨c1.incoming ++ c1.server (c1.sent ++ [.sendQuery q ctx]), c1.server, c1.inconsistent, c1.sent ++ [.sendQuery q ctx]⟩)
      (idx := 0) (by rw [h1.empty, h1.serves.statement _ _ _ hq]; rfl) (db.answers _ _) h1.calm
    refine ⟨itemsOf n (resultBlocks skip (db.answer s q)), c', _, ?_, .select hq, ?_, ?_, r5⟩
    · simp only [ask, ho, r1, r2, wantedFrom_zero, h1.state, Option.map_some]
    · rw [r3]; exact h1.serves
    · rw [r4, state_statement _ _ _ hq, h1.state]
  | @insert t b q b' m hq hi hcast hm hr hrc =>
    obtain ⟨c1, e1, h1⟩ := between_precheck hb hp
    obtain ⟨c2, e2, h2⟩ := between_clear h1.between
    obtain ⟨c3, e3, h3, hs3⟩ := step_insertQuery h2 ctx hi
    obtain ⟨ch, chs, e4, hch, hrows⟩ := chunks_of hm hr hrc
    obtain ⟨c5, e5, h5⟩ := step_insertBlock h3 ctx ch hs3
    obtain ⟨c6, e6, h6⟩ := step_insertTail ctx hi chs h5
    refine ⟨[], c6, _, ?_, .insert (ch :: chs) hq hcast hch hrows, h6.between⟩
    simp only [ask, Handle.insert, hq, e1, Conn.insert, e2, e3, hcast, e4, e5, e6]

/-- C79. Everything asked in turn. On a handle of a pool, in step with a server of the database, any sequence of pings,
statements, queries (read completely or dropped after any number of items, zero included) and inserts that the database can do
succeeds; every query gets the blocks of its own answer, and the database comes to the state the statements lead to. -/
theorem C79_sequence {σ : Type} (db : Db σ) (s0 s : σ) (c : Conn) (ctx : Context) (numeric : Char → Bool)
    (cast : Block → Block → Out Block) (l : List Wish) (hv : Serves db s0 c.server) (hs : (db.state s0 c.sent).1 = s)
    (hi : c.inconsistent = false) (he : c.incoming = []) (hp : ctx.options.pingBeforeQuery = true)
    (hw : Workable db numeric cast s l) :
    ∃ os c' s', askAll numeric cast ⟨some c, ctx, .attached⟩ l = some (os, ⟨some c', ctx, .attached⟩) ∧
      Effects db numeric cast s l s' os ∧ (db.state s0 c'.sent).1 = s' := by
  have hb : Between db s0 c s := ⟨hv, hs, .inl ⟨hi, he⟩⟩
  clear hv hs hi he
  induction l generalizing c s with
  | nil => exact ⟨[], c, s, rfl, .nil, hb.state⟩
  | cons a l ih =>
    cases hw with
    | cons hc hw =>
      obtain ⟨o, c1, s1, e1, h1, hb1⟩ := C79_one hb hp hc
      obtain ⟨os, c2, s2, e2, h2, h3⟩ := ih s1 c1 (hw _ _ h1) hb1
      refine ⟨o :: os, c2, s2, ?_, .cons h1 h2, h3⟩
      simp only [askAll, e1, e2, Option.map_some]

/-- C79. What a query gives is the same whatever was asked before, given the state: the connection carries nothing over. -/
theorem C79_no_memory {σ : Type} {db : Db σ} {s1 s2 s : σ} {c1 c2 : Conn} {ctx : Context} {numeric : Char → Bool}
    {cast : Block → Block → Out Block} (q : Query) (skip : Bool) (n : Nat) (h1 : Between db s1 c1 s) (h2 : Between db s2 c2 s)
    (hp : ctx.options.pingBeforeQuery = true) (hq : db.isInsert q = false) :
    (ask numeric cast ⟨some c1, ctx, .attached⟩ (.select q skip n)).map Prod.fst =
      (ask numeric cast ⟨some c2, ctx, .attached⟩ (.select q skip n)).map Prod.fst := by
  obtain ⟨o1, _, _, e1, f1, _⟩ := C79_one (numeric := numeric) (cast := cast) (a := .select q skip n) h1 hp (.select hq)
  obtain ⟨o2, _, _, e2, f2, _⟩ := C79_one (numeric := numeric) (cast := cast) (a := .select q skip n) h2 hp (.select hq)
  rw [e1, e2]
  cases f1; cases f2; rfl

/-- The columns of a table, without rows. -/
def exHead : Block := ⟨⟨false, -1⟩, [⟨"id", .num .u32 []⟩, ⟨"tags", .array [] (.str [])⟩]⟩

/-- A database that keeps the blocks stored, gives them in answer to any statement after a header without rows, and forgets them
on DROP. -/
def exDb : Db (List Block) where
  isInsert q := q.sql.toList.take 6 == "INSERT".toList
  answer s q := if q.sql == "SELECT" then .packet (.block exHead) :: .packet (.progress ⟨1, 2, 3, 0, 0⟩) :: s.map fun b => .packet (.block b) else []
  after s q := if q.sql == "DROP" then [] else s
  table _ _ := exHead
  store s _ b := s ++ [b]
  answers s q x hx := by
    split at hx
    · simp only [List.mem_cons, List.mem_map] at hx
      rcases hx with rfl | rfl | ⟨b, _, rfl⟩
      · exact .block _
      · exact .progress _
      · exact .block _
    · simp at hx

def exDbConn : Conn := ⟨[], serverOf exDb [], false, [.hello sampleCtx]⟩

theorem exDb_stored (q : Query) : ∀ (l s : List Block), l.foldl (fun s ch => exDb.store s q ch) s = s ++ l
  | [], s => by simp
  | ch :: l, s => by rw [List.foldl_cons, exDb_stored q l]; simp [exDb]

theorem exDb_blocks (s : List Block) : blocksOf (exDb.answer s ⟨"SELECT", ""⟩) = exHead :: s := by
  have : blocksOf (s.map fun b => .packet (.block b)) = s := by
    induction s with
    | nil => rfl
    | cons b s ih => simpa [blocksOf] using ih
  show exHead :: blocksOf (s.map fun b => .packet (.block b)) = _
  rw [this]

/-- Rows are inserted, a query is dropped after the header and another before anything was read, then a ping, a query read to its
end and beyond, a statement that forgets the rows, and a query again. -/
def exAsks : List Wish := [.insert ⟨"t", ""⟩ sampleBlock, .select ⟨"SELECT", ""⟩ false 1, .select ⟨"SELECT", ""⟩ false 0, .ping,
  .select ⟨"SELECT", ""⟩ true 3, .execute ⟨"DROP", ""⟩, .select ⟨"SELECT", ""⟩ true 1]

theorem exAsks_workable : Workable exDb (fun c => c.isDigit) (fun b _ => .ok b) [] exAsks := by
  refine .cons (.insert (m := 3) (q := ⟨"INSERT INTO t (`id`, `tags`) VALUES", ""⟩) rfl rfl rfl (by decide) ?_ rfl) fun _ _ _ => ?_
  · intro c hc
    simp only [sampleBlock, List.mem_cons, List.not_mem_nil, or_false] at hc
    rcases hc with rfl | rfl <;> rfl
  · refine .cons (.select rfl) fun _ _ _ => .cons (.select rfl) fun _ _ _ => .cons .ping fun _ _ _ => .cons (.select rfl) fun _ _ _ =>
      .cons (.execute rfl) fun _ _ _ => .cons (.select rfl) fun _ _ _ => .nil

example : ∃ os c', askAll (fun c => c.isDigit) (fun b _ => .ok b) ⟨some exDbConn, sampleCtx, .attached⟩ exAsks =
      some (os, ⟨some c', sampleCtx, .attached⟩) ∧
    ∃ chunks : List Block, chunks.flatMap rowsOf = rowsOf sampleBlock ∧
      os = [[], [.block exHead], [], [], itemsOf 3 chunks, [], [.ended]] := by
  obtain ⟨os, c', s', e, h, _⟩ := C79_sequence exDb [] [] exDbConn sampleCtx (fun c => c.isDigit) (fun b _ => .ok b) exAsks
    (serverOf_serves exDb []) rfl rfl rfl rfl exAsks_workable
  refine ⟨os, c', e, ?_⟩
  rcases h with _ | ⟨_ | _ | _ | ⟨chunks, hq, hcast, hch, hrows⟩, _ | ⟨_ | _ | _, _ | ⟨_ | _ | _, _ | ⟨_ | _, _ | ⟨_ | _ | _, _ | ⟨_ | _, _ | ⟨_ | _ | _, _ | _⟩⟩⟩⟩⟩⟩⟩
  cases hcast
  have hne : ∀ x ∈ chunks, x.columns ≠ [] := by
    intro x hx hn
    have := (hch x hx).1
    rw [header, hn] at this
    cases this
  refine ⟨chunks, hrows, ?_⟩
  have hf : chunks.filter (fun b => decide (b.columns ≠ [])) = chunks := List.filter_eq_self.mpr fun x hx => decide_eq_true (hne x hx)
  have ha : ∀ s, exDb.after s ⟨"SELECT", ""⟩ = s := fun s => rfl
  have hd : ∀ s, exDb.after s ⟨"DROP", ""⟩ = [] := fun s => rfl
  simp only [exDb_stored, ha, hd, resultBlocks, exDb_blocks, List.nil_append, if_true, List.drop_succ_cons, List.drop_zero, hf]
  have hx : (decide (exHead.columns ≠ [])) = true := rfl
  simp only [Bool.false_eq_true, if_false, List.drop_zero, List.filter_cons, hx, if_true, itemsOf]
  simp

/-- Hypotheses of the others: a connection in step, and one with the rest of an answer on its way. -/
example : Between exDb [] exDbConn [] ∧
    Between exDb [] { exDbConn with inconsistent := true, incoming := exBody ++ [.packet .eof] } [] ∧
    Can exDb (fun c => c.isDigit) (fun b _ => .ok b) [] (.select ⟨"SELECT", ""⟩ false 1) :=
  ⟨⟨serverOf_serves exDb [], rfl, .inl ⟨rfl, rfl⟩⟩, ⟨serverOf_serves exDb [], rfl, .inr ⟨rfl, exBody, rfl, exBody_middle⟩⟩,
    .select rfl⟩

end CH.Props
