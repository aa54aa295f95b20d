import Verif.Lemmas.Socket
import Verif.Spec.Reopen

/-! For C93: the commands the operations give to a connection, and the check with contexts compared with the check without. -/

namespace CH.Reopen
open CH CH.Spec

/-- The connection that comes out of an operation goes to the same server, and the statements it was given carry `ctx`. -/
def Adds (ctx : Context) (c c' : Conn) : Prop :=
  c'.server = c.server ∧ ∃ cmds, c'.sent = c.sent ++ cmds ∧ ∀ cmd ∈ cmds, ∀ x ∈ contextsIn cmd, x = ctx

theorem adds_refl (ctx : Context) (c : Conn) : Adds ctx c c := ⟨rfl, [], by simp, by simp⟩

theorem adds_trans {ctx : Context} {a b c : Conn} (h : Adds ctx a b) (g : Adds ctx b c) : Adds ctx a c := by
  obtain ⟨h1, x, h2, h3⟩ := h
  obtain ⟨g1, y, g2, g3⟩ := g
  refine ⟨g1.trans h1, x ++ y, by rw [g2, h2, List.append_assoc], fun cmd hc => ?_⟩
  rcases List.mem_append.mp hc with hc | hc
  · exact h3 cmd hc
  · exact g3 cmd hc

/-- Given one command, and then messages read. -/
theorem adds_call {ctx : Context} {c c' : Conn} {cmd : Cmd} (hx : ∀ x ∈ contextsIn cmd, x = ctx)
    (h : c'.server = c.server ∧ c'.sent = c.sent ++ [cmd]) : Adds ctx c c' :=
  ⟨h.1, [cmd], h.2, fun y hy => by rw [List.mem_singleton.mp hy]; exact hx⟩

/-- Reading messages changes neither the server nor what was sent. -/
theorem loop_conn {σ : Type} {f : σ → Except Err (Packet × Option Conn) → σ ⊕ OpErr} {P : Conn → Prop} {I : σ → Prop}
    (hP : ∀ c d : Conn, c.server = d.server → c.sent = d.sent → P d → P c)
    (hf : ∀ v p c v', I v → (∀ x, c = some x → P x) → f v (.ok (p, c)) = .inl v' → I v')
    (he : ∀ v e v', I v → f v (.error e) = .inl v' → I v') (n : Nat) :
    ∀ {s : CStream} {v v' : σ}, s.fuel = n → I v → (∀ c, s.conn = some c → P c) → CStream.loop f v s = .fell v' → I v' := by
  induction n using Nat.strongRecOn with
  | _ n ih =>
    intro s v v' hn hv hs h
    obtain ⟨n1, n2⟩ := Socket.next_conn (cs := s)
    have keep : ∀ c, s.next.2.conn = some c → P c := fun c hc => by
      obtain ⟨d, hd, e1, e2⟩ := n1 c hc
      exact hP c d e1 e2 (hs d hd)
    rw [CStream.loop] at h
    split at h
    · cases h; exact hv
    · cases h
    · next p c s' hx =>
      have fu := CStream.next_item hx
      rw [hx] at keep n2
      split at h
      · next v1 hv1 =>
        refine ih s'.fuel (hn ▸ fu) rfl (hf v p c v1 hv (fun x hc => ?_) hv1) keep h
        subst hc
        obtain ⟨d, hd, e1, e2⟩ := n2 p x rfl
        exact hP x d e1 e2 (hs d hd)
      · cases h
    · next e s' hx =>
      have fu := CStream.next_error hx
      rw [hx] at keep
      split at h
      · next v1 hv1 => exact ih s'.fuel (hn ▸ fu) rfl (he v e v1 hv hv1) keep h
      · cases h

/-- Loops with one connection as their variable. -/
theorem loop_one {f : Option Conn → Except Err (Packet × Option Conn) → Option Conn ⊕ OpErr}
    (hf : ∀ v p c v', f v (.ok (p, c)) = .inl v' → v' = v ∨ v' = c) (he : ∀ v e v', f v (.error e) = .inl v' → v' = v)
    {c c' : Conn} {cmd : Cmd} (h : (c.call cmd).loop f none = .fell (some c')) : c'.server = c.server ∧ c'.sent = c.sent ++ [cmd] := by
  refine loop_conn (P := fun x => x.server = c.server ∧ x.sent = c.sent ++ [cmd])
    (I := fun v => ∀ x, v = some x → x.server = c.server ∧ x.sent = c.sent ++ [cmd])
    (fun a b e1 e2 hb => ⟨e1.trans hb.1, e2.trans hb.2⟩) ?_ ?_ _ rfl (by simp) ?_ h c' rfl
  · intro v p d v' hv hd hx
    rcases hf v p d v' hx with rfl | rfl
    · exact hv
    · exact hd
  · intro v e v' hv hx
    rw [he v e v' hx]; exact hv
  · intro x hx
    cases hx
    exact ⟨rfl, rfl⟩

theorem clear_adds (ctx : Context) {c c' : Conn} (h : c.clear = .ok c') : Adds ctx c c' := by
  rw [Conn.clear] at h
  split at h
  · cases h; exact adds_refl ctx c
  · split at h
    · next x hx =>
      cases h
      have := loop_one (f := clearBody) (by
        intro v p d v' e
        cases p <;> cases e <;> simp) (by intro v e v' x; cases x) hx
      exact adds_call (cmd := .cancel) (by simp [contextsIn]) ⟨this.1, this.2⟩
    all_goals cases h

theorem execute_adds {c c' : Conn} {q : Query} {ctx : Context} (h : c.execute q ctx = .ok c') :
    Adds ctx c c' ∧ .sendQuery q ctx ∈ c'.sent := by
  rw [Conn.execute] at h
  split at h
  · cases h
  · cases h
  · cases h
  · next c1 h1 =>
    split at h
    · next x hx =>
      cases h
      have := loop_one (f := executeBody) (by
        intro v p d v' e
        cases p <;> cases e <;> simp) (by intro v e v' x; cases x) hx
      exact ⟨adds_trans (clear_adds ctx h1) (adds_call (by simp [contextsIn]) this), by rw [this.2]; simp⟩
    all_goals cases h

theorem readOneBlock_adds {c c' : Conn} {cmd : Cmd} {b : Option Block} (h : (c.call cmd).readOneBlock = .ok (c', b)) :
    c'.server = c.server ∧ c'.sent = c.sent ++ [cmd] := by
  rw [CStream.readOneBlock] at h
  split at h
  · next x y hx =>
    cases h
    refine loop_conn (f := readBlockBody) (P := fun x => x.server = c.server ∧ x.sent = c.sent ++ [cmd])
      (I := fun v => ∀ x, v.1 = some x → x.server = c.server ∧ x.sent = c.sent ++ [cmd])
      (fun a b e1 e2 hb => ⟨e1.trans hb.1, e2.trans hb.2⟩) ?_ ?_ _ rfl (by simp) ?_ hx c' rfl
    · intro v p d v' hv hd hx
      cases p <;> cases hx <;> first | exact hv | exact hd
    · intro v e v' hv hx
      cases hx
    · intro x hx
      cases hx
      exact ⟨rfl, rfl⟩
  all_goals cases h

theorem sendInsertQuery_adds {c c' : Conn} {q : Query} {ctx : Context} {b : Block} (h : c.sendInsertQuery ctx q = .ok (c', b)) :
    Adds ctx c c' ∧ .sendQuery q ctx ∈ c'.sent := by
  rw [Conn.sendInsertQuery] at h
  split at h
  · next hx =>
    cases h
    have := readOneBlock_adds hx
    exact ⟨adds_call (by simp [contextsIn]) this, by rw [this.2]; simp⟩
  all_goals cases h

theorem insertBlock_adds {c c' : Conn} {ctx : Context} {b : Block} (h : c.insertBlock ctx b = .ok c') : Adds ctx c c' := by
  rw [Conn.insertBlock] at h
  split at h
  · next hx =>
    cases h
    exact adds_call (by simp [contextsIn]) (readOneBlock_adds hx)
  all_goals cases h

theorem insertTail_adds {ctx : Context} {q : Query} (bs : List Block) : ∀ {c c' : Conn}, c.insertTail ctx q bs = .ok c' → Adds ctx c c' := by
  induction bs with
  | nil => intro c c' h; cases h; exact adds_refl ctx c
  | cons b bs ih =>
    intro c c' h
    rw [Conn.insertTail] at h
    split at h
    · next c1 _ h1 =>
      split at h
      · next c2 h2 => exact adds_trans (sendInsertQuery_adds h1).1 (adds_trans (insertBlock_adds h2) (ih h))
      all_goals cases h
    all_goals cases h

theorem adds_mem {ctx : Context} {c c' : Conn} {cmd : Cmd} (h : Adds ctx c c') (hm : cmd ∈ c.sent) : cmd ∈ c'.sent := by
  obtain ⟨_, x, e, _⟩ := h
  rw [e]; exact List.mem_append_left _ hm

theorem insert_adds {cast : Block → Block → Out Block} {c c' : Conn} {q : Query} {ctx : Context} {b : Block}
    (h : c.insert cast q ctx b = .ok c') : Adds ctx c c' ∧ .sendQuery q ctx ∈ c'.sent := by
  rw [Conn.insert] at h
  split at h
  · cases h
  · cases h
  · cases h
  · next c1 h1 =>
    split at h
    · cases h
    · cases h
    · cases h
    · next c2 d h2 =>
      split at h
      · cases h
      · cases h
      · split at h
        · split at h
          · next c3 h3 =>
            have a2 := sendInsertQuery_adds h2
            have a3 := adds_trans (insertBlock_adds h3) (insertTail_adds _ h)
            exact ⟨adds_trans (clear_adds ctx h1) (adds_trans a2.1 a3), adds_mem a3 a2.2⟩
          all_goals cases h
        all_goals cases h

theorem writtenFor_adds {rev : (List Cmd → List Inc) → Nat} {ctx : Context} {c c' : Conn} (h : Adds ctx c c') (hw : WrittenFor rev c)
    (hr : ctx.revision = rev c.server) : WrittenFor rev c' := by
  obtain ⟨h1, x, h2, h3⟩ := h
  intro cmd hc y hy
  rw [h1]
  rw [h2] at hc
  rcases List.mem_append.mp hc with hc | hc
  · exact hw cmd hc y hy
  · rw [h3 cmd hc y hy, hr]

theorem ping_adds (ctx : Context) {h h' : Handle} {r : OpRes Unit} (e : h.ping = (r, h')) :
    h'.context = h.context ∧ h'.binding = h.binding ∧ ∀ c', h'.inner = some c' → ∃ c, h.inner = some c ∧ Adds ctx c c' := by
  rw [Handle.ping] at e
  split at e
  · next hi => cases e; exact ⟨rfl, rfl, fun c' hc => by rw [hi] at hc; cases hc⟩
  · next c hi =>
    simp only at e
    split at e
    · cases e; exact ⟨rfl, rfl, fun c' hc => by cases hc⟩
    · cases e; exact ⟨rfl, rfl, fun c' hc => by cases hc⟩
    · cases e; exact ⟨rfl, rfl, fun c' hc => by cases hc⟩
    · next c1 h1 =>
      split at e
      · next x hx =>
        cases e
        refine ⟨rfl, rfl, fun c' hc => ?_⟩
        cases hc
        have := loop_one (f := pingBody) (by
          intro v p d v' e
          cases p <;> cases e <;> simp) (by intro v e v' x; cases x) hx
        exact ⟨c, hi, adds_trans (clear_adds ctx h1) (adds_call (by simp [contextsIn]) this)⟩
      all_goals cases e; exact ⟨rfl, rfl, fun c' hc => by cases hc⟩

theorem ping_told {rev : (List Cmd → List Inc) → Nat} {h h' : Handle} {r : OpRes Unit} (e : h.ping = (r, h')) (ht : ToldBy rev h) :
    ToldBy rev h' := by
  obtain ⟨e1, -, e2⟩ := ping_adds h.context e
  intro c' hc
  obtain ⟨c, hi, ha⟩ := e2 c' hc
  obtain ⟨t1, t2⟩ := ht c hi
  exact ⟨by rw [e1, ha.1]; exact t1, writtenFor_adds ha t2 t1⟩

theorem retry_told {rev : (List Cmd → List Inc) → Nat} {pooled : Bool} {m a : Nat} {skip : Bool} {h : Handle} {w : WorldC} (ht : ToldBy rev h)
    (hw : ToldWorld rev w) : ToldBy rev (retryLoopC pooled m a skip h w).2.1 ∧ ToldWorld rev (retryLoopC pooled m a skip h w).2.2 := by
  have hp : ∀ {r h'}, (if skip then (OpRes.err OpErr.connect, h) else h.ping) = (r, h') → ToldBy rev h' := by
    intro r h' e
    split at e
    · cases e; exact ht
    · exact ping_told e ht
  induction hn : w.length generalizing w a skip h with
  | zero =>
    rw [List.length_eq_zero_iff] at hn
    subst hn
    rw [retryLoopC]
    split <;> (try split) <;> exact ⟨hp ‹_›, hw⟩
  | succ n ih =>
    rw [retryLoopC]
    split
    · exact ⟨hp ‹_›, hw⟩
    · exact ⟨hp ‹_›, hw⟩
    · exact ⟨hp ‹_›, hw⟩
    · next e h1 h2 =>
      have t1 := hp h2
      split
      · exact ⟨t1, hw⟩
      · split
        · cases hn
        · next w =>
          have hw' : ToldWorld rev w := fun c x hx => hw c x (List.mem_cons_of_mem _ hx)
          split
          · exact ⟨t1, hw'⟩
          · refine ih t1 hw' ?_ (by simpa using hn)
            intro r h' e
            cases e; exact t1
        · next c x w =>
          have hw' : ToldWorld rev w := fun c x hx => hw c x (List.mem_cons_of_mem _ hx)
          have t2 : ToldBy rev ⟨some c, x, if pooled then .attached else .none⟩ := fun d hd => by
            cases hd; exact hw c x (by simp)
          refine ih t2 hw' ?_ (by simpa using hn)
          intro r h' e
          exact ping_told (by simpa using e) t2

theorem precheck_told {rev : (List Cmd → List Inc) → Nat} {h : Handle} {w : WorldC} (ht : ToldBy rev h)
    (hw : ToldWorld rev w) : ToldBy rev (h.precheckC w).2.1 ∧ ToldWorld rev (h.precheckC w).2.2 := by
  rw [Handle.precheckC]
  split
  · rw [Handle.checkConnectionC]
    split
    · exact ⟨ht, hw⟩
    · next b _ =>
      have hr := retry_told (pooled := true) (m := h.context.options.sendRetries) (a := 0) (skip := false) (h := { h with binding := b }) ht hw
      split
      · next h1 w1 e => rw [e] at hr; exact hr
      · exact hr
  · exact ⟨ht, hw⟩

/-- The handle with another context. -/
def within (x : Context) (h : Handle) : Handle := { h with context := x }

theorem ping_within (x : Context) (h : Handle) : (within x h).ping = (h.ping.1, within x h.ping.2) := by
  obtain ⟨inner, ctx, b⟩ := h
  cases inner with
  | none => rfl
  | some c =>
    simp only [within, Handle.ping]
    cases c.clear with
    | ok c1 =>
      simp only
      cases (c1.call .ping).loop pingBody none with
      | fell v => cases v <;> rfl
      | failed e => rfl
      | waits => rfl
    | _ => rfl

theorem retry_within (x : Context) {pooled : Bool} {m a : Nat} {skip : Bool} {h : Handle} {w : WorldC} :
    retryLoop pooled m a skip (within x h) (connsOf w) =
      ((retryLoopC pooled m a skip h w).1, within x (retryLoopC pooled m a skip h w).2.1, connsOf (retryLoopC pooled m a skip h w).2.2) := by
  induction hn : w.length generalizing w a skip h with
  | zero =>
    rw [List.length_eq_zero_iff] at hn
    subst hn
    rw [retryLoop, retryLoopC]
    cases skip with
    | true => simp [connsOf]
    | false =>
      simp only [Bool.false_eq_true, if_false, ping_within]
      rcases h.ping with ⟨r, h1⟩
      cases r with
      | err e => simp only; split <;> rfl
      | _ => rfl
  | succ n ih =>
    cases w with
    | nil => cases hn
    | cons y w =>
      have hl : w.length = n := by simpa using hn
      rw [retryLoop, retryLoopC]
      have step : ∀ (r : OpRes Unit) (h1 : Handle), (if skip then (OpRes.err OpErr.connect, h) else h.ping) = (r, h1) →
          (if skip then (OpRes.err OpErr.connect, within x h) else (within x h).ping) = (r, within x h1) := by
        intro r h1 e
        cases skip with
        | true => simp only [if_true] at e ⊢; cases e; rfl
        | false => simp only [Bool.false_eq_true, if_false] at e ⊢; rw [ping_within, e]
      rcases hp : (if skip then (OpRes.err OpErr.connect, h) else h.ping) with ⟨r, h1⟩
      rw [step r h1 hp]
      cases r with
      | err e =>
        simp only
        split
        · rfl
        · cases y with
          | none =>
            simp only [connsOf, List.map_cons, Option.map_none]
            split
            · rfl
            · exact ih hl
          | some cx =>
            obtain ⟨c, cx⟩ := cx
            simp only [connsOf, List.map_cons, Option.map_some]
            exact ih (h := ⟨some c, cx, if pooled then .attached else .none⟩) hl
      | _ => rfl

theorem precheck_within {h : Handle} {w : WorldC} :
    h.precheck (connsOf w) = ((h.precheckC w).1, within h.context (h.precheckC w).2.1, connsOf (h.precheckC w).2.2) := by
  rw [Handle.precheck, Handle.precheckC]
  split
  · rw [Handle.checkConnection, Handle.checkConnectionC]
    cases h.binding.detach with
    | none => rfl
    | some b =>
      simp only [retryGuard]
      have := retry_within h.context (pooled := true) (m := h.context.options.sendRetries) (a := 0) (skip := false)
        (h := { h with binding := b }) (w := w)
      rw [show within h.context { h with binding := b } = { h with binding := b } from rfl] at this
      rw [this]
      rcases retryLoopC true h.context.options.sendRetries 0 false { h with binding := b } w with ⟨r, h1, w1⟩
      cases r <;> rfl
  · rfl

theorem retry_context {x : Context} {pooled : Bool} {m a : Nat} {skip : Bool} {h : Handle} {w : WorldC} (hx : h.context = x)
    (hw : ∀ c y, some (c, y) ∈ w → y = x) : (retryLoopC pooled m a skip h w).2.1.context = x := by
  have hp : ∀ {skip : Bool} {h h' : Handle} {r}, h.context = x → (if skip then (OpRes.err OpErr.connect, h) else h.ping) = (r, h') →
      h'.context = x := by
    intro skip h h' r hx e
    split at e
    · cases e; exact hx
    · exact (ping_adds h.context e).1.trans hx
  induction hn : w.length generalizing w a skip h with
  | zero =>
    rw [List.length_eq_zero_iff] at hn
    subst hn
    rw [retryLoopC]
    split <;> (try split) <;> exact hp hx ‹_›
  | succ n ih =>
    rw [retryLoopC]
    split
    · exact hp hx ‹_›
    · exact hp hx ‹_›
    · exact hp hx ‹_›
    · next e h1 h2 =>
      have t1 := hp hx h2
      split
      · exact t1
      · split
        · cases hn
        · next w =>
          split
          · exact t1
          · exact ih t1 (fun c y hy => hw c y (List.mem_cons_of_mem _ hy)) (by simpa using hn)
        · next c y w =>
          exact ih (hw c y (by simp)) (fun c y hy => hw c y (List.mem_cons_of_mem _ hy)) (by simpa using hn)

theorem precheck_context {h : Handle} {w : WorldC} (hw : ∀ c y, some (c, y) ∈ w → y = h.context) :
    (h.precheckC w).2.1.context = h.context := by
  rw [Handle.precheckC]
  split
  · rw [Handle.checkConnectionC]
    split
    · rfl
    · next b _ =>
      have hr := retry_context (x := h.context) (pooled := true) (m := h.context.options.sendRetries) (a := 0) (skip := false)
        (h := { h with binding := b }) rfl hw
      split
      · next h1 w1 e => rw [e] at hr; exact hr
      · exact hr
  · rfl

end CH.Reopen
