import Verif.Spec.Faults
import Verif.Lemmas.Service

/-! Lemmas for C81. -/

namespace CH
open CH.Spec CH.Props

namespace Faults

variable {σ : Type} {db : Shaky σ} {n0 : Nat} {s0 : σ}

theorem drop_snoc {n : Nat} {l : List Cmd} (h : n ≤ l.length) (x : Cmd) : (l ++ [x]).drop n = l.drop n ++ [x] :=
  List.drop_append_of_le_length h

theorem longer {n : Nat} {l : List Cmd} (h : n ≤ l.length) (x : Cmd) : n ≤ (l ++ [x]).length := by
  rw [List.length_append]; omega

theorem state_snoc (s : σ) (log : List Cmd) (cmd : Cmd) : db.state s (log ++ [cmd]) = db.does (db.state s log) cmd := by
  simp [Shaky.state, List.foldl_append]

theorem state_ping (s : σ) (log : List Cmd) : (db.state s (log ++ [.ping])).1 = (db.state s log).1 := by
  rw [state_snoc]
  generalize db.state s log = x
  obtain ⟨a, o⟩ := x
  cases o <;> rfl

theorem state_cancel (s : σ) (log : List Cmd) : (db.state s (log ++ [.cancel])).1 = (db.state s log).1 := by
  rw [state_snoc]
  generalize db.state s log = x
  obtain ⟨a, o⟩ := x
  cases o <;> rfl

theorem state_statement (s : σ) (log : List Cmd) {q : Query} (ctx : Context) (hq : db.isInsert q = false) :
    (db.state s (log ++ [.sendQuery q ctx])).1 = db.after (db.state s log).1 q := by
  rw [state_snoc]
  generalize db.state s log = x
  obtain ⟨a, o⟩ := x
  cases o <;> simp [Shaky.does, hq]

theorem state_insert (s : σ) (log : List Cmd) {q : Query} (ctx : Context) (hq : db.isInsert q = true)
    (hr : db.refuses (db.state s log).1 q = none) : db.state s (log ++ [.sendQuery q ctx]) = ((db.state s log).1, some q) := by
  rw [state_snoc]
  revert hr
  generalize db.state s log = x
  intro hr
  obtain ⟨a, o⟩ := x
  simp only at hr
  cases o <;> simp [Shaky.does, hq, hr]

theorem state_data {s a : σ} {log : List Cmd} {q : Query} {ctx : Context} {b e : Block} (h : db.state s log = (a, some q)) :
    db.state s (log ++ [.union (.sendData b ctx) (.sendData e ctx)]) = (db.store a q b, none) := by
  rw [state_snoc, h]
  rfl

/-- A connection in step, with the state it was opened in. -/
structure Step (db : Shaky σ) (n0 : Nat) (s0 : σ) (c : Conn) (s : σ) : Prop where
  serves : ServesShaky db n0 s0 c.server
  long : n0 ≤ c.sent.length
  state : (db.state s0 (c.sent.drop n0)).1 = s
  calm : c.inconsistent = false
  empty : c.incoming = []

theorem Step.holds {c : Conn} {s : σ} (h : Step db n0 s0 c s) : GoodConn db c s := ⟨n0, s0, h.serves, h.long, h.state, h.calm, h.empty⟩

theorem Step.link {c : Conn} {s : σ} (h : Step db n0 s0 c s) : Link db c s :=
  ⟨⟨n0, s0, h.serves, h.long, h.state⟩, .inl ⟨h.calm, by rw [h.empty]; exact .none⟩⟩

theorem tail_append {t : List Inc} (h : Tail t) {x : Inc} (hx : Tail [x]) : Tail (t ++ [x]) := by
  cases h with
  | none => exact hx
  | closed => exact .closed
  | socket => exact .socket

/-- Breaking a connection. -/
theorem link_breaks {c : Conn} {s : σ} (h : Link db c s) {x : Inc} (hx : Tail [x]) :
    Link db { c with incoming := c.incoming ++ [x] } s := by
  refine ⟨h.serves, ?_⟩
  rcases h.rest with ⟨h1, h2⟩ | ⟨h1, body, y, t, h2, h3, h4, h5⟩
  · exact .inl ⟨h1, tail_append h2 hx⟩
  · exact .inr ⟨h1, body, y, t ++ [x], by simp [h2], h3, h4, tail_append h5 hx⟩

theorem calm_ping {c : Conn} {s : σ} (hs : ServesShaky db n0 s0 c.server) (hlen : n0 ≤ c.sent.length)
    (hst : (db.state s0 (c.sent.drop n0)).1 = s) (hi : c.inconsistent = false)
    (ht : Tail c.incoming) (ctx : Context) (b : Binding) :
    (∃ c', (Handle.mk (some c) ctx b).ping = (.ok (), ⟨some c', ctx, b⟩) ∧ Step db n0 s0 c' s) ∨
      ∃ e, (Handle.mk (some c) ctx b).ping = (.err e, ⟨none, ctx, b⟩) := by
  generalize hinc : c.incoming = l at ht
  cases ht with
  | none =>
    have hj : Judged NoSkips IsPong (c.incoming ++ c.server (c.sent ++ [.ping])) (.finished .pong []) := by
      rw [hinc, hs.ping _ hlen]; exact .finished .pong
    have := C71_ping c ctx b _ hi hj
    exact .inl ⟨_, this, hs, longer hlen _, by rw [drop_snoc hlen, state_ping]; exact hst, hi, rfl⟩
  | @closed l =>
    have hj : Judged NoSkips IsPong (c.incoming ++ c.server (c.sent ++ [.ping])) .lost := by
      rw [hinc]; exact .lost
    exact .inr ⟨_, C71_ping c ctx b _ hi hj⟩
  | @socket e l =>
    have hj : Judged NoSkips IsPong (c.incoming ++ c.server (c.sent ++ [.ping])) .failed := by
      rw [hinc]; exact .failed
    exact .inr ⟨_, C71_ping c ctx b _ hi hj⟩

theorem judged_body {v : Verdict} {l : List Inc} : ∀ {body : List Inc}, (∀ y ∈ body, Middle y) →
    Judged LeftOver EndsLeftOver l v → Judged LeftOver EndsLeftOver (body ++ l) v
  | [], _, h => h
  | x :: body, hb, h => by
    have ih := judged_body (body := body) (fun y hy => hb y (by simp [hy])) h
    cases hb x (by simp) with
    | block b => exact .skip .block ih
    | progress p => exact .skip .progress ih
    | profileInfo p => exact .skip .profile ih

/-- A ping finds out whether the connection is good. -/
theorem link_ping {c : Conn} {s : σ} (h : Link db c s) (ctx : Context) (b : Binding) :
    (∃ n0 s0 c', (Handle.mk (some c) ctx b).ping = (.ok (), ⟨some c', ctx, b⟩) ∧ Step db n0 s0 c' s) ∨
      ∃ e, (Handle.mk (some c) ctx b).ping = (.err e, ⟨none, ctx, b⟩) := by
  obtain ⟨n0, s0, hs, hlen, hst⟩ := h.serves
  rcases h.rest with ⟨h1, h2⟩ | ⟨h1, body, x, t, h2, h3, h4, h5⟩
  · rcases calm_ping hs hlen hst h1 h2 ctx b with ⟨c', h, h'⟩ | h
    · exact .inl ⟨n0, s0, c', h, h'⟩
    · exact .inr h
  · have hin : c.incoming ++ c.server (c.sent ++ [.cancel]) = body ++ x :: t := by rw [hs.cancel _ hlen, h2]; simp
    rcases h4 with rfl | ⟨e, hf⟩
    · have hc := C71_clear c _ h1 (by rw [hin]; exact judged_body h3 (.finished .eof))
      simp only at hc
      have e := (C60_checked_first c _ ⟨"", ""⟩ ctx (fun b _ => .ok b) Block.new b hc rfl).2.2
      rw [e]
      rcases calm_ping (s := s) (c := ⟨t, c.server, false, c.sent ++ [.cancel]⟩) hs (longer hlen _)
        (by rw [drop_snoc hlen, state_cancel]; exact hst) rfl h5 ctx b with
        ⟨c', h, h'⟩ | h
      · exact .inl ⟨n0, s0, c', h, h'⟩
      · exact .inr h
    · cases hf with
      | exception e =>
        have hc := C71_clear c _ h1 (by rw [hin]; exact judged_body h3 .refused)
        simp only at hc
        exact .inr ⟨_, by simp only [Handle.ping, hc]; rfl⟩
      | socket e =>
        have hc := C71_clear c _ h1 (by rw [hin]; exact judged_body h3 .failed)
        simp only at hc
        exact .inr ⟨_, by simp only [Handle.ping, hc]; rfl⟩

/-- A handle of a pool between operations. -/
structure Ready (db : Shaky σ) (ctx : Context) (h : Handle) (s : σ) : Prop where
  context : h.context = ctx
  bound : h.binding = .attached
  conn : h.inner = none ∨ ∃ c, h.inner = some c ∧ Link db c s

theorem step_ping {c : Conn} {s : σ} (h : Step db n0 s0 c s) (ctx : Context) (b : Binding) :
    ∃ c', (Handle.mk (some c) ctx b).ping = (.ok (), ⟨some c', ctx, b⟩) ∧ Step db n0 s0 c' s := by
  have hj : Judged NoSkips IsPong (c.incoming ++ c.server (c.sent ++ [.ping])) (.finished .pong []) := by
    rw [h.empty, h.serves.ping _ h.long]; exact .finished .pong
  have := C71_ping c ctx b _ h.calm hj
  exact ⟨_, this, h.serves, longer h.long _, by rw [drop_snoc h.long, state_ping]; exact h.state, h.calm, rfl⟩

/-- A check that fails is followed by a reconnection. -/
theorem retry_failed {p : Bool} {m a : Nat} {h h' : Handle} {e : OpErr} (he : h.ping = (.err e, h')) (hm : ¬ m ≤ a) (w : World) :
    retryLoop p m a false h w = retryLoop p m a true h' w := by
  rw [retryLoop_eq, retryLoop_eq (skip := true)]
  simp only [Bool.false_eq_true, if_false, if_true, he, Bool.not_true, Bool.not_false, Bool.false_and, Bool.true_and]
  rw [if_neg (by simpa using hm)]

/-- Reconnecting until a connection answers. -/
theorem reopen {s : σ} {ctx : Context} {m : Nat} : ∀ {r : Nat} {w : World}, Reopens db s r w → ∀ {b : Binding} {a : Nat}, a + r ≤ m →
    ∃ n0 s0 c' used w', w = used ++ w' ∧ retryLoop true m a true ⟨none, ctx, b⟩ w = (.ok (), ⟨some c', ctx, .attached⟩, w') ∧
      Step db n0 s0 c' s := by
  intro r w hw
  induction hw with
  | @good r c w hc =>
    intro b a _
    obtain ⟨n0, s0, g1, g2, g3, g4, g5⟩ := hc
    obtain ⟨c', e, h'⟩ := step_ping (Step.mk g1 g2 g3 g4 g5) ctx .attached
    refine ⟨n0, s0, c', [some c], w, rfl, ?_, h'⟩
    rw [retryLoop_eq]
    simp only [if_true, Bool.not_true, Bool.false_and, Bool.false_eq_true, if_false]
    rw [retryLoop_eq]
    simp only [Bool.false_eq_true, if_false, e]
  | @used r c w hl hw ih =>
    intro b a hle
    rcases link_ping hl ctx .attached with ⟨n0, s0, c', e, h'⟩ | ⟨e', e⟩
    · refine ⟨n0, s0, c', [some c], w, rfl, ?_, h'⟩
      rw [retryLoop_eq]
      simp only [if_true, Bool.not_true, Bool.false_and, Bool.false_eq_true, if_false]
      rw [retryLoop_eq]
      simp only [Bool.false_eq_true, if_false, e]
    · obtain ⟨n0, s0, c', used, w', e1, e2, h'⟩ := ih (b := .attached) (a := a) hle
      have nz : ¬ m ≤ a := by omega
      refine ⟨n0, s0, c', some c :: used, w', by rw [e1]; rfl, ?_, h'⟩
      rw [retryLoop_eq]
      simp only [if_true, Bool.not_true, Bool.false_and, Bool.false_eq_true, if_false]
      rw [retry_failed e nz]
      exact e2
  | @failed r w hw ih =>
    intro b a hle
    obtain ⟨n0, s0, c', used, w', e1, e2, h'⟩ := ih (b := b) (a := a + 1) (by omega)
    refine ⟨n0, s0, c', none :: used, w', by rw [e1]; rfl, ?_, h'⟩
    rw [retryLoop_eq]
    simp only [if_true, Bool.not_true, Bool.false_and, Bool.false_eq_true, if_false]
    rw [if_neg (by omega)]
    exact e2

/-- Reconnections are taken in order. -/
theorem retryLoop_rest {p : Bool} {m : Nat} (n : Nat) : ∀ (w : World), w.length = n → ∀ (a : Nat) (skip : Bool) (h : Handle),
    ∃ used, w = used ++ (retryLoop p m a skip h w).2.2 := by
  induction n with
  | zero =>
    intro w hn a skip h
    obtain rfl : w = [] := List.length_eq_zero_iff.mp hn
    rw [retryLoop_eq]
    generalize (if skip = true then (OpRes.err OpErr.connect, h) else h.ping) = x
    obtain ⟨x, h1⟩ := x
    cases x with
    | ok => exact ⟨[], rfl⟩
    | panic => exact ⟨[], rfl⟩
    | waits => exact ⟨[], rfl⟩
    | err e =>
      simp only
      split <;> exact ⟨[], rfl⟩
  | succ n ih =>
    intro w hn a skip h
    rw [retryLoop_eq]
    generalize (if skip = true then (OpRes.err OpErr.connect, h) else h.ping) = x
    obtain ⟨x, h1⟩ := x
    cases x with
    | ok => exact ⟨[], rfl⟩
    | panic => exact ⟨[], rfl⟩
    | waits => exact ⟨[], rfl⟩
    | err e =>
      simp only
      split
      · exact ⟨[], rfl⟩
      · cases w with
        | nil => exact ⟨[], rfl⟩
        | cons x w =>
          cases x with
          | none =>
            simp only
            split
            · exact ⟨[none], rfl⟩
            · obtain ⟨u, hu⟩ := ih w (by simpa using hn) (a + 1) true h1
              exact ⟨none :: u, by rw [List.cons_append, ← hu]⟩
          | some c =>
            obtain ⟨u, hu⟩ := ih w (by simpa using hn) a false { h1 with inner := some c, binding := if p then .attached else .none }
            exact ⟨some c :: u, by simp only; rw [List.cons_append, ← hu]⟩

theorem precheck_rest (h : Handle) (w : World) : ∃ used, w = used ++ (h.precheck w).2.2 := by
  unfold Handle.precheck
  split
  · unfold Handle.checkConnection
    cases h.binding.detach with
    | none => exact ⟨[], rfl⟩
    | some b =>
      simp only
      obtain ⟨u, hu⟩ := retryLoop_rest (p := true) (m := h.context.options.sendRetries) _ w rfl 0 false { h with binding := b }
      refine ⟨u, ?_⟩
      unfold retryGuard
      generalize retryLoop true h.context.options.sendRetries 0 false { h with binding := b } w = x at hu
      obtain ⟨x, h1, w1⟩ := x
      cases x <;> exact hu
  · exact ⟨[], rfl⟩

/-- Every operation leaves the reconnections it does not need. -/
theorem restW_suffix (numeric : Char → Bool) (cast : Block → Block → Out Block) (h : Handle) (w : World) (a : Wish) :
    ∃ used, w = used ++ restW numeric cast h w a := by
  obtain ⟨u, hu⟩ := precheck_rest h w
  cases a with
  | ping => exact ⟨[], rfl⟩
  | execute q =>
    refine ⟨u, ?_⟩
    unfold restW Handle.execute
    generalize h.precheck w = x at hu
    obtain ⟨x, h1, w1⟩ := x
    cases x with
    | ok =>
      simp only
      cases h1.inner with
      | none => exact hu
      | some c =>
        simp only
        cases c.execute q h1.context <;> exact hu
    | _ => exact hu
  | select q skip n =>
    refine ⟨u, ?_⟩
    unfold restW Handle.openStream
    generalize h.precheck w = x at hu
    obtain ⟨x, h1, w1⟩ := x
    cases x with
    | ok =>
      simp only
      cases h1.binding.detach with
      | none => exact hu
      | some b => simp only; cases h1.inner <;> exact hu
    | _ => exact hu
  | insert t b =>
    show ∃ used, w = used ++ (h.insert numeric cast t b w).2.2
    unfold Handle.insert
    cases makeQuery numeric t b with
    | err e => exact ⟨[], rfl⟩
    | panic => exact ⟨[], rfl⟩
    | ok q =>
      refine ⟨u, ?_⟩
      simp only
      generalize h.precheck w = x at hu
      obtain ⟨x, h1, w1⟩ := x
      cases x with
      | ok =>
        simp only
        cases h1.inner with
        | none => exact hu
        | some c =>
          simp only
          cases c.insert cast q h1.context b <;> exact hu
      | _ => exact hu

/-- The check before an operation gives a connection in step. -/
theorem ready_precheck {h : Handle} {s : σ} {ctx : Context} {w : World} (hr : Ready db ctx h s) (hp : ctx.options.pingBeforeQuery = true)
    (hm : 0 < ctx.options.sendRetries) (hw : Reopens db s ctx.options.sendRetries w) :
    ∃ n0 s0 c' used w', w = used ++ w' ∧ h.precheck w = (.ok (), ⟨some c', ctx, .attached⟩, w') ∧ Step db n0 s0 c' s := by
  obtain ⟨inner, context, binding⟩ := h
  obtain ⟨h1, h2, h3⟩ := hr
  simp only at h1 h2 h3
  subst h1 h2
  have key : (∃ n0 s0 c', (Handle.mk inner context .detached).ping = (.ok (), ⟨some c', context, .detached⟩) ∧ Step db n0 s0 c' s) ∨
      ∃ e, (Handle.mk inner context .detached).ping = (.err e, ⟨none, context, .detached⟩) := by
    rcases h3 with rfl | ⟨c, rfl, hl⟩
    · exact .inr ⟨_, rfl⟩
    · exact link_ping hl context .detached
  unfold Handle.precheck
  simp only [hp, if_true]
  unfold Handle.checkConnection
  simp only [Binding.detach]
  rw [retryGuard]
  rcases key with ⟨n1, s1, c', e, hs⟩ | ⟨e, he⟩
  · refine ⟨n1, s1, c', [], w, rfl, ?_, hs⟩
    rw [retryLoop_eq]
    simp only [Bool.false_eq_true, if_false, e]
    simp
  · have nz : ¬ context.options.sendRetries ≤ 0 := by omega
    obtain ⟨n0, s0, c', used, w', e1, e2, h'⟩ := reopen (ctx := context) (m := context.options.sendRetries) hw (b := .detached) (a := 0) (by omega)
    refine ⟨n0, s0, c', used, w', e1, ?_, h'⟩
    rw [retry_failed he nz, e2]
    simp

/-- A statement without data. -/
theorem step_execute {c : Conn} {s : σ} (h : Step db n0 s0 c s) {q : Query} (ctx : Context) (hq : db.isInsert q = false) :
    (db.refuses s q = none → ∃ c', c.execute q ctx = .ok c' ∧ Step db n0 s0 c' (db.after s q)) ∧
      (∀ x e, db.refuses s q = some (x, e) → c.execute q ctx = .err e) := by
  have body : ∀ {l : List Inc} {v : Verdict}, Judged ExecuteSkips IsEnd l v → Judged ExecuteSkips IsEnd (db.answer s q ++ l) v := by
    intro l v hv
    have := db.answers s q
    revert this
    generalize db.answer s q = a
    intro hl
    induction a with
    | nil => exact hv
    | cons x a ih =>
      have := ih fun y hy => hl y (by simp [hy])
      cases hl x (by simp) with
      | block b => exact .skip .block this
      | progress p => exact .skip .progress this
      | profileInfo p => exact .skip .profile this
  have hin : c.incoming ++ c.server (c.sent ++ [.sendQuery q ctx]) = db.answer s q ++ [closing (db.refuses s q)] := by
    rw [h.empty, h.serves.statement _ _ _ h.long hq, h.state]; rfl
  constructor
  · intro hn
    have := C71_execute c q ctx _ h.calm (by rw [hin, hn]; exact body (.finished .eof))
    exact ⟨_, this, h.serves, longer h.long _, by rw [drop_snoc h.long, state_statement _ _ _ hq, h.state], h.calm, rfl⟩
  · intro x e hs
    have hf := db.refused s q x e hs
    rw [hs] at hin
    cases hf with
    | exception e => exact C71_execute c q ctx _ h.calm (by rw [hin]; exact body .refused)
    | socket e => exact C71_execute c q ctx _ h.calm (by rw [hin]; exact body .failed)

/-- The INSERT statement. -/
theorem step_insertQuery {c : Conn} {s : σ} (h : Step db n0 s0 c s) {q : Query} (ctx : Context) (hq : db.isInsert q = true) :
    (db.refuses s q = none →
      ∃ c', c.sendInsertQuery ctx q = .ok (c', db.table s q) ∧ Step db n0 s0 c' s ∧ db.state s0 (c'.sent.drop n0) = (s, some q)) ∧
      (∀ x e, db.refuses s q = some (x, e) → c.sendInsertQuery ctx q = .err e) := by
  obtain ⟨pre, e⟩ := h.serves.insert c.sent q ctx h.long hq
  rw [h.state] at e
  have skips : ∀ {l : List Inc} {v : Verdict}, Judged InsertSkips InsertEnds l v →
      Judged InsertSkips InsertEnds ((pre.map fun p => Inc.packet (.tableColumns p.1 p.2)) ++ l) v := by
    intro l v hv
    clear e
    induction pre with
    | nil => exact hv
    | cons x l ih => exact .skip .columns ih
  constructor
  · intro hn
    rw [hn] at e
    have := C71_insert_query c q ctx (.finished (.block (db.table s q)) []) (by rw [h.empty, e]; exact skips (.finished .block))
    have hst : db.state s0 ((c.sent ++ [Cmd.sendQuery q ctx]).drop n0) = (s, some q) := by
      rw [drop_snoc h.long, state_insert _ _ _ hq (by rw [h.state]; exact hn), h.state]
    exact ⟨_, this, ⟨h.serves, longer h.long _, by rw [hst], h.calm, rfl⟩, hst⟩
  · intro x e' hs
    have hf := db.refused s q x e' hs
    rw [hs] at e
    cases hf with
    | exception e' => exact C71_insert_query c q ctx (.refused e') (by rw [h.empty, e]; exact skips .refused)
    | socket e' => exact C71_insert_query c q ctx .failed (by rw [h.empty, e]; exact skips .failed)

/-- A block of data. -/
theorem step_insertBlock {c : Conn} {s : σ} (h : Step db n0 s0 c s) {q : Query} (ctx : Context) (b : Block)
    (hq : db.state s0 (c.sent.drop n0) = (s, some q)) :
    (db.loses s q b = none → ∃ c', c.insertBlock ctx b = .ok c' ∧ Step db n0 s0 c' (db.store s q b)) ∧
      (∀ x e, db.loses s q b = some (x, e) → c.insertBlock ctx b = .err e) := by
  have hin : c.incoming ++ c.server (c.sent ++ [.union (.sendData b ctx) (.sendData Block.new ctx)]) = [closing (db.loses s q b)] := by
    rw [h.empty, h.serves.data _ q s _ _ _ h.long hq]; rfl
  constructor
  · intro hn
    have := C71_insert_block c b ctx _ (by rw [hin, hn]; exact .finished .eof)
    exact ⟨_, this, h.serves, longer h.long _, by rw [drop_snoc h.long, state_data hq], h.calm, rfl⟩
  · intro x e hs
    have hf := db.lost s q b x e hs
    rw [hs] at hin
    cases hf with
    | exception e => exact C71_insert_block c b ctx _ (by rw [hin]; exact .refused)
    | socket e => exact C71_insert_block c b ctx _ (by rw [hin]; exact .failed)

/-- The chunks of an INSERT whose first statement was accepted. -/
theorem step_chunks {q : Query} (ctx : Context) (hq : db.isInsert q = true) : ∀ (chs : List Block) (ch : Block) {c : Conn} {s : σ},
    Step db n0 s0 c s → db.state s0 (c.sent.drop n0) = (s, some q) →
    ∃ t r, StoreAll db q s (ch :: chs) t r ∧
      ((r = none ∧ ∃ c1 c', c.insertBlock ctx ch = .ok c1 ∧ c1.insertTail ctx q chs = .ok c' ∧ Step db n0 s0 c' t) ∨
       (∃ e, r = some e ∧ (c.insertBlock ctx ch = .err e ∨ ∃ c1, c.insertBlock ctx ch = .ok c1 ∧ c1.insertTail ctx q chs = .err e)))
  | [], ch, c, s, h, hs => by
    obtain ⟨b1, b2⟩ := step_insertBlock h ctx ch hs
    cases hl : db.loses s q ch with
    | none =>
      obtain ⟨c1, e1, h1⟩ := b1 hl
      exact ⟨_, _, .last hl, .inl ⟨rfl, c1, c1, e1, rfl, h1⟩⟩
    | some xe =>
      obtain ⟨x, e⟩ := xe
      exact ⟨_, _, .lost hl, .inr ⟨e, rfl, .inl (b2 x e hl)⟩⟩
  | ch' :: chs, ch, c, s, h, hs => by
    obtain ⟨b1, b2⟩ := step_insertBlock h ctx ch hs
    cases hl : db.loses s q ch with
    | some xe =>
      obtain ⟨x, e⟩ := xe
      exact ⟨_, _, .lost hl, .inr ⟨e, rfl, .inl (b2 x e hl)⟩⟩
    | none =>
      obtain ⟨c1, e1, h1⟩ := b1 hl
      obtain ⟨d1, d2⟩ := step_insertQuery h1 ctx hq
      cases hr : db.refuses (db.store s q ch) q with
      | some xe =>
        obtain ⟨x, e⟩ := xe
        refine ⟨_, _, .refused hl hr, .inr ⟨e, rfl, .inr ⟨c1, e1, ?_⟩⟩⟩
        rw [Conn.insertTail]
        simp only [d2 x e hr]
      | none =>
        obtain ⟨c2, e2, h2, hs2⟩ := d1 hr
        obtain ⟨t, r, hst, hc⟩ := step_chunks ctx hq chs ch' h2 hs2
        refine ⟨t, r, .more hl hr hst, ?_⟩
        rcases hc with ⟨rfl, c3, c', e3, e4, h4⟩ | ⟨e, rfl, hc⟩
        · refine .inl ⟨rfl, c1, c', e1, ?_, h4⟩
          rw [Conn.insertTail]
          simp only [e2, e3, e4]
        · refine .inr ⟨e, rfl, .inr ⟨c1, e1, ?_⟩⟩
          rw [Conn.insertTail]
          rcases hc with hc | ⟨c3, e3, e4⟩
          · simp only [e2, hc]
          · simp only [e2, e3, e4]

/-- Awaiting a block that is there. -/
theorem read_there {skip : Bool} {h : Handle} {t : List Inc} : ∀ (body : List Inc) {c : Conn} {idx : Nat},
    c.incoming = body ++ t → (∀ y ∈ body, Middle y) → wantedFrom skip idx body ≠ [] →
    ∃ w body' idx', wantedFrom skip idx body = w :: wantedFrom skip idx' body' ∧ (∀ y ∈ body', Middle y) ∧
      (reading c idx skip).next h = (.block w, reading { c with incoming := body' ++ t } idx' skip, h)
  | [], c, idx, hc, _, hw => absurd (by simp [wantedFrom, blocksOf]) hw
  | y :: ys, c, idx, hc, hb, hw => by
    have hys : ∀ z ∈ ys, Middle z := fun z hz => hb z (by simp [hz])
    have ih := fun idx => read_there (skip := skip) (h := h) ys (c := { c with incoming := ys ++ t }) (idx := idx) rfl hys
    cases hb y (by simp) with
    | progress p =>
      rw [wantedFrom_other (by simp)] at hw ⊢
      rw [next_reading, reading_progress hc, ← next_reading]
      exact ih idx hw
    | profileInfo p =>
      rw [wantedFrom_other (by simp)] at hw ⊢
      rw [next_reading, reading_profile hc, ← next_reading]
      exact ih idx hw
    | block b =>
      rw [wantedFrom_block] at hw ⊢
      rw [next_reading, reading_block hc]
      split
      · next hw' => exact ⟨b, ys, idx + 1, rfl, hys, rfl⟩
      · next hw' =>
        rw [if_neg hw'] at hw
        rw [← next_reading]
        exact ih (idx + 1) hw

/-- Awaiting no more blocks than are there, whatever comes after them, and dropping the stream. -/
theorem run_part {skip : Bool} {h : Handle} {x : Inc} (hd : h.binding = .detached) : ∀ (n : Nat) (body : List Inc) {c : Conn} {idx : Nat},
    c.incoming = body ++ [x] → (∀ y ∈ body, Middle y) → n ≤ (wantedFrom skip idx body).length →
    ∃ s' c' body', run n (reading c idx skip) h = (itemsOf n (wantedFrom skip idx body), s', h) ∧
      s'.drop h = some ⟨some c', h.context, .attached⟩ ∧ c'.server = c.server ∧ c'.sent = c.sent ∧
      c'.inconsistent = true ∧ c'.incoming = body' ++ [x] ∧ ∀ y ∈ body', Middle y
  | 0, body, c, idx, hc, hb, _ =>
    ⟨_, { c with inconsistent := true }, body, by simp [run, itemsOf, reading], C60_dropped c idx skip h hd, rfl, rfl, rfl, hc, hb⟩
  | n + 1, body, c, idx, hc, hb, hn => by
    have hne : wantedFrom skip idx body ≠ [] := by intro h; rw [h] at hn; simp at hn
    obtain ⟨w, body1, idx1, hw, hb1, e⟩ := read_there (skip := skip) (h := h) (t := [x]) body hc hb hne
    rw [hw] at hn ⊢
    obtain ⟨s', c', body', h1, h2, h3, h4, h5, h6, h7⟩ :=
      run_part (skip := skip) hd n body1 (c := { c with incoming := body1 ++ [x] }) (idx := idx1) rfl hb1 (by simpa using hn)
    refine ⟨s', c', body', ?_, h2, h3, h4, h5, h6, h7⟩
    rw [run_next e, h1]
    simp [itemsOf]

end Faults

end CH
