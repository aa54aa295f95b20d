import Verif.Spec.Service
import Verif.Props.Client
import Verif.Props.Verdict

/-! Lemmas for C79: a handle between operations, and what each operation does to it. -/

namespace CH
open CH.Spec CH.Props

variable {σ : Type} {db : Db σ} {s0 : σ}

/-- A connection in step. -/
structure InStep (db : Db σ) (s0 : σ) (c : Conn) (s : σ) : Prop where
  serves : Serves db s0 c.server
  state : (db.state s0 c.sent).1 = s
  calm : c.inconsistent = false
  empty : c.incoming = []

theorem InStep.between {c : Conn} {s : σ} (h : InStep db s0 c s) : Between db s0 c s := ⟨h.serves, h.state, .inl ⟨h.calm, h.empty⟩⟩

theorem state_snoc (s : σ) (log : List Cmd) (cmd : Cmd) : db.state s (log ++ [cmd]) = db.does (db.state s log) cmd := by
  simp [Db.state, List.foldl_append]

theorem state_ping (s : σ) (log : List Cmd) : (db.state s (log ++ [.ping])).1 = (db.state s log).1 := by
  rw [state_snoc]
  generalize db.state s log = x
  obtain ⟨a, o⟩ := x
  cases o <;> rfl

theorem state_cancel (s : σ) (log : List Cmd) : (db.state s (log ++ [.cancel])).1 = (db.state s log).1 := by
  rw [state_snoc]
  generalize db.state s log = x
  obtain ⟨a, o⟩ := x
  cases o <;> rfl

theorem state_statement (s : σ) (log : List Cmd) {q : Query} (ctx : Context) (hq : db.isInsert q = false) :
    (db.state s (log ++ [.sendQuery q ctx])).1 = db.after (db.state s log).1 q := by
  rw [state_snoc]
  generalize db.state s log = x
  obtain ⟨a, o⟩ := x
  cases o <;> simp [Db.does, hq]

theorem state_insert (s : σ) (log : List Cmd) {q : Query} (ctx : Context) (hq : db.isInsert q = true) :
    db.state s (log ++ [.sendQuery q ctx]) = ((db.state s log).1, some q) := by
  rw [state_snoc]
  generalize db.state s log = x
  obtain ⟨a, o⟩ := x
  cases o <;> simp [Db.does, hq]

theorem state_data {s a : σ} {log : List Cmd} {q : Query} {ctx : Context} {b e : Block} (h : db.state s log = (a, some q)) :
    db.state s (log ++ [.union (.sendData b ctx) (.sendData e ctx)]) = (db.store a q b, none) := by
  rw [state_snoc, h]
  rfl

theorem middle_leftover {x : Inc} (h : Middle x) : Leftover x := by
  cases h <;> exact ⟨_, rfl, by intro h; cases h⟩

/-- Bringing a connection back in step. -/
theorem between_clear {c : Conn} {s : σ} (h : Between db s0 c s) : ∃ c', c.clear = .ok c' ∧ InStep db s0 c' s := by
  rcases h.rest with ⟨h1, h2⟩ | ⟨h1, body, h2, h3⟩
  · exact ⟨c, by simp [Conn.clear, h1], h.serves, h.state, h1, h2⟩
  · have := C60_resync c body [] h1 (by rw [h.serves.cancel, h2]; simp) (fun x hx => middle_leftover (h3 x hx))
    exact ⟨_, this, h.serves, by rw [state_cancel]; exact h.state, rfl, rfl⟩

/-- A ping. -/
theorem between_ping {c : Conn} {s : σ} (h : Between db s0 c s) (ctx : Context) (b : Binding) :
    ∃ c', (Handle.mk (some c) ctx b).ping = (.ok (), ⟨some c', ctx, b⟩) ∧ InStep db s0 c' s := by
  obtain ⟨c1, hc, hs⟩ := between_clear h
  have e := (C60_checked_first c c1 ⟨"", ""⟩ ctx (fun b _ => .ok b) Block.new b hc hs.calm).2.2
  have hj : Judged NoSkips IsPong (c1.incoming ++ c1.server (c1.sent ++ [.ping])) (.finished .pong []) := by
    rw [hs.empty, hs.serves.ping]; exact .finished .pong
  have := C71_ping c1 ctx b _ hs.calm hj
  rw [e, this]
  exact ⟨_, rfl, hs.serves, by rw [state_ping]; exact hs.state, hs.calm, rfl⟩

/-- The check before an operation. -/
theorem between_precheck {c : Conn} {s : σ} {ctx : Context} (h : Between db s0 c s) (hp : ctx.options.pingBeforeQuery = true) :
    ∃ c', (Handle.mk (some c) ctx .attached).precheck [] = (.ok (), ⟨some c', ctx, .attached⟩, []) ∧ InStep db s0 c' s := by
  obtain ⟨c', e, hs⟩ := between_ping h ctx .detached
  refine ⟨c', ?_, hs⟩
  unfold Handle.precheck
  simp only [hp, if_true]
  unfold Handle.checkConnection
  simp only [Binding.detach]
  rw [retryGuard, retryLoop_eq]
  simp only [Bool.false_eq_true, if_false, e]
  simp

/-- A statement without data. -/
theorem step_execute {c : Conn} {s : σ} (h : InStep db s0 c s) {q : Query} (ctx : Context) (hq : db.isInsert q = false) :
    ∃ c', c.execute q ctx = .ok c' ∧ InStep db s0 c' (db.after s q) := by
  have hj : Judged ExecuteSkips IsEnd (c.incoming ++ c.server (c.sent ++ [.sendQuery q ctx])) (.finished .eof []) := by
    rw [h.empty, h.serves.statement _ _ _ hq, List.nil_append]
    have := db.answers (db.state s0 c.sent).1 q
    revert this
    generalize db.answer (db.state s0 c.sent).1 q = l
    intro hl
    induction l with
    | nil => exact .finished .eof
    | cons x l ih =>
      have := ih fun y hy => hl y (by simp [hy])
      cases hl x (by simp) with
      | block b => exact .skip .block this
      | progress p => exact .skip .progress this
      | profileInfo p => exact .skip .profile this
  have := C71_execute c q ctx _ h.calm hj
  refine ⟨_, this, h.serves, ?_, h.calm, rfl⟩
  rw [state_statement _ _ _ hq, h.state]

/-- The INSERT statement. -/
theorem step_insertQuery {c : Conn} {s : σ} (h : InStep db s0 c s) {q : Query} (ctx : Context) (hq : db.isInsert q = true) :
    ∃ c', c.sendInsertQuery ctx q = .ok (c', db.table s q) ∧ InStep db s0 c' s ∧ db.state s0 c'.sent = (s, some q) := by
  have hj : Judged InsertSkips InsertEnds (c.incoming ++ c.server (c.sent ++ [.sendQuery q ctx]))
      (.finished (.block (db.table s q)) []) := by
    obtain ⟨pre, e⟩ := h.serves.insert c.sent q ctx hq
    rw [h.empty, e, List.nil_append, h.state]
    clear e
    induction pre with
    | nil => exact .finished .block
    | cons x l ih => exact .skip .columns ih
  have := C71_insert_query c q ctx _ hj
  have hst : db.state s0 (c.sent ++ [.sendQuery q ctx]) = (s, some q) := by rw [state_insert _ _ _ hq, h.state]
  exact ⟨_, this, ⟨h.serves, by rw [hst], h.calm, rfl⟩, hst⟩

/-- A block of data. -/
theorem step_insertBlock {c : Conn} {s : σ} (h : InStep db s0 c s) {q : Query} (ctx : Context) (b : Block)
    (hq : db.state s0 c.sent = (s, some q)) : ∃ c', c.insertBlock ctx b = .ok c' ∧ InStep db s0 c' (db.store s q b) := by
  have hj : Judged InsertSkips InsertEnds
      (c.incoming ++ c.server (c.sent ++ [.union (.sendData b ctx) (.sendData Block.new ctx)])) (.finished .eof []) := by
    rw [h.empty, h.serves.data]; exact .finished .eof
  have := C71_insert_block c b ctx _ hj
  exact ⟨_, this, h.serves, by rw [state_data hq], h.calm, rfl⟩

/-- The later chunks. -/
theorem step_insertTail {q : Query} (ctx : Context) (hq : db.isInsert q = true) : ∀ (chs : List Block) {c : Conn} {s : σ},
    InStep db s0 c s → ∃ c', c.insertTail ctx q chs = .ok c' ∧ InStep db s0 c' (chs.foldl (fun s ch => db.store s q ch) s)
  | [], c, s, h => ⟨c, rfl, h⟩
  | ch :: chs, c, s, h => by
    obtain ⟨c1, e1, h1, hs1⟩ := step_insertQuery h ctx hq
    obtain ⟨c2, e2, h2⟩ := step_insertBlock h1 ctx ch hs1
    obtain ⟨c3, e3, h3⟩ := step_insertTail ctx hq chs h2
    refine ⟨c3, ?_, h3⟩
    rw [Conn.insertTail]
    simp only [e1, e2, e3]

/-- The chunks of a block with rows. -/
theorem chunks_of {b : Block} {m : Nat} (hm : 0 < m) (hr : Rect b m) (hrc : b.rowCount = .ok m) :
    ∃ ch chs, insertChunks b = .ok (ch :: chs) ∧
      (∀ x ∈ ch :: chs, header x = header b ∧ ∃ r, x.rowCount = .ok r ∧ 0 < r ∧ r ≤ 1048576) ∧
      (ch :: chs).flatMap rowsOf = rowsOf b := by
  obtain ⟨bs, hy, hb1, hb2, hb3⟩ := C16_chunks_partial b m insertBlockSize (by decide) hm hr hrc
  have hlen : bs.length ≤ m := by
    have : bs.length ≤ (bs.flatMap rowsOf).length := by
      clear hb2 hb3 hy
      induction bs with
      | nil => simp
      | cons x xs ih =>
        obtain ⟨_, r, hr1, hr2, _⟩ := hb1 x (by simp)
        have := ih fun y hy => hb1 y (by simp [hy])
        have hx : 0 < (rowsOf x).length := by simp [rowsOf, hr1, hr2]
        simp only [List.flatMap_cons, List.length_cons, List.length_append]
        omega
    rw [hb3, rowsOf, hrc] at this
    simpa using this
  have hlist := chunkList_yields ((hy bs).mpr rfl) (m + 1) (by omega)
  have hi : insertChunks b = .ok bs := by
    unfold insertChunks
    rw [hrc]
    simp only [obind_ok]
    exact hlist
  cases bs with
  | nil =>
    exfalso
    rw [rowsOf, hrc] at hb3
    simp only [List.flatMap_nil] at hb3
    have := congrArg List.length hb3
    simp at this
    omega
  | cons ch chs => exact ⟨ch, chs, hi, hb1, hb3⟩

/-- Awaiting one item of a stream whose whole answer is there. -/
theorem read_one {skip : Bool} {h : Handle} {t : List Inc} (hd : h.binding = .detached) : ∀ (body : List Inc) {c : Conn} {idx : Nat},
    c.incoming = body ++ .packet .eof :: t → (∀ x ∈ body, Middle x) →
    (wantedFrom skip idx body = [] ∧ ∃ s', (reading c idx skip).next h = (.ended, s', ⟨some { c with incoming := t }, h.context, .attached⟩) ∧
      s'.state = .finished) ∨
    (∃ w body' idx', wantedFrom skip idx body = w :: wantedFrom skip idx' body' ∧ (∀ x ∈ body', Middle x) ∧
      (reading c idx skip).next h = (.block w, reading { c with incoming := body' ++ .packet .eof :: t } idx' skip, h))
  | [], c, idx, hc, _ => by
    refine .inl ⟨by simp [wantedFrom, blocksOf], ?_⟩
    rw [next_reading, read_eof (next_taken (p := .eof) (rest := t) hc rfl), hd]
    exact ⟨_, rfl, rfl⟩
  | x :: xs, c, idx, hc, hb => by
    have hxs : ∀ y ∈ xs, Middle y := fun y hy => hb y (by simp [hy])
    have ih := fun idx => read_one (skip := skip) hd xs (c := { c with incoming := xs ++ .packet .eof :: t }) (idx := idx) rfl hxs
    cases hb x (by simp) with
    | progress p =>
      rw [wantedFrom_other (by simp), next_reading, reading_progress hc, ← next_reading]
      exact ih idx
    | profileInfo p =>
      rw [wantedFrom_other (by simp), next_reading, reading_profile hc, ← next_reading]
      exact ih idx
    | block b =>
      rw [wantedFrom_block, next_reading, reading_block hc]
      split
      · next hw => exact .inr ⟨b, xs, idx + 1, rfl, hxs, rfl⟩
      · next hw => rw [← next_reading]; exact ih (idx + 1)

/-- Awaiting `n` items and dropping the stream. -/
theorem run_some {skip : Bool} {h : Handle} (hd : h.binding = .detached) : ∀ (n : Nat) (body : List Inc) {c : Conn} {idx : Nat},
    c.incoming = body ++ [.packet .eof] → (∀ x ∈ body, Middle x) → c.inconsistent = false →
    ∃ s' h' c', run n (reading c idx skip) h = (itemsOf n (wantedFrom skip idx body), s', h') ∧
      s'.drop h' = some ⟨some c', h.context, .attached⟩ ∧ c'.server = c.server ∧ c'.sent = c.sent ∧
      (c'.inconsistent = false ∧ c'.incoming = [] ∨
        c'.inconsistent = true ∧ ∃ body, c'.incoming = body ++ [.packet .eof] ∧ ∀ x ∈ body, Middle x)
  | 0, body, c, idx, hc, hb, hi => by
    refine ⟨_, _, { c with inconsistent := true }, by simp [run, itemsOf, reading], C60_dropped c idx skip h hd, rfl, rfl, .inr ⟨rfl, body, hc, hb⟩⟩
  | n + 1, body, c, idx, hc, hb, hi => by
    rcases read_one (skip := skip) (idx := idx) (t := []) hd body hc hb with ⟨hw, s', e, hf⟩ | ⟨w, body', idx', hw, hb', e⟩
    · refine ⟨s', ⟨some { c with incoming := [] }, h.context, .attached⟩, { c with incoming := [] }, ?_, ?_, rfl, rfl, .inl ⟨hi, rfl⟩⟩
      · rw [run_next e, run_finished hf, hw]
        simp [itemsOf, List.replicate_succ]
      · simp [BStream.drop, hf]
    · obtain ⟨s', h', c', h1, h2, h3, h4, h5⟩ :=
        run_some hd n body' (c := { c with incoming := body' ++ [.packet .eof] }) (idx := idx') rfl hb' hi
      refine ⟨s', h', c', ?_, h2, h3, h4, h5⟩
      rw [run_next e, h1, hw]
      simp [itemsOf]

end CH
