import Verif.Spec.Client

/-! Lemmas about the client operations. -/

namespace CH

open Spec

/-! ### Loops over packet streams -/

theorem next_nil {c : Conn} {rb : Bool} (h : c.incoming = []) : (CStream.mk (some c) false rb).next = (.waits, ⟨some c, false, rb⟩) := by
  simp [CStream.next, h]

theorem next_packet {c : Conn} {rb : Bool} {p : Packet} {rest : List Inc} (h : c.incoming = .packet p :: rest)
    (hp : p.takesConn = false) :
    (CStream.mk (some c) false rb).next = (.item p none, ⟨some { c with incoming := rest }, rb && p.isBlock, rb⟩) := by
  simp [CStream.next, h, hp]

theorem next_taken {c : Conn} {rb : Bool} {p : Packet} {rest : List Inc} (h : c.incoming = .packet p :: rest)
    (hp : p.takesConn = true) :
    (CStream.mk (some c) false rb).next = (.item p (some { c with incoming := rest }), ⟨none, false, rb⟩) := by
  simp [CStream.next, h, hp]

theorem next_err {c : Conn} {rb : Bool} {e : Err} {rest : List Inc} (h : c.incoming = .error e :: rest) :
    (CStream.mk (some c) false rb).next = (.error e, ⟨some { c with incoming := rest }, false, rb⟩) := by
  simp [CStream.next, h]

theorem next_closed {c : Conn} {rb : Bool} {rest : List Inc} (h : c.incoming = .closed :: rest) :
    (CStream.mk (some c) false rb).next = (.ended, ⟨some { c with incoming := rest }, false, rb⟩) := by
  simp [CStream.next, h]

theorem next_finished {c : Conn} {rb : Bool} :
    (CStream.mk (some c) true rb).next = (.item .eof (some c), ⟨none, true, rb⟩) := by
  simp [CStream.next]

theorem next_none {f rb : Bool} : (CStream.mk none f rb).next = (.ended, ⟨none, f, rb⟩) := by
  simp [CStream.next]

section
variable {σ : Type} {f : σ → Except Err (Packet × Option Conn) → σ ⊕ OpErr}

theorem loop_ended {v : σ} {s s' : CStream} (h : s.next = (.ended, s')) : CStream.loop f v s = .fell v := by
  rw [CStream.loop]
  split <;> rename_i h' <;> rw [h] at h' <;> simp_all

theorem loop_waits {v : σ} {s s' : CStream} (h : s.next = (.waits, s')) : CStream.loop f v s = .waits := by
  rw [CStream.loop]
  split <;> rename_i h' <;> rw [h] at h' <;> simp_all

theorem loop_item {v : σ} {s s' : CStream} {p : Packet} {c : Option Conn} (h : s.next = (.item p c, s')) :
    CStream.loop f v s = match f v (.ok (p, c)) with | .inl v => CStream.loop f v s' | .inr e => .failed e := by
  rw [CStream.loop]
  split <;> rename_i h' <;> rw [h] at h' <;> simp only [Prod.mk.injEq, reduceCtorEq, false_and] at h'
  simp only [CItem.item.injEq] at h'
  obtain ⟨⟨rfl, rfl⟩, rfl⟩ := h'
  rfl

theorem loop_error {v : σ} {s s' : CStream} {e : Err} (h : s.next = (.error e, s')) :
    CStream.loop f v s = match f v (.error e) with | .inl v => CStream.loop f v s' | .inr e => .failed e := by
  rw [CStream.loop]
  split <;> rename_i h' <;> rw [h] at h' <;> simp only [Prod.mk.injEq, reduceCtorEq, false_and] at h'
  simp only [CItem.error.injEq] at h'
  obtain ⟨rfl, rfl⟩ := h'
  rfl

/-- Packets the body ignores are passed over. -/
theorem loop_skip {v : σ} {c : Conn} {body rest : List Inc} (hc : c.incoming = body ++ rest)
    (hb : ∀ x ∈ body, ∃ p, x = .packet p ∧ p.takesConn = false ∧ ∀ v, f v (.ok (p, none)) = .inl v) :
    CStream.loop f v ⟨some c, false, false⟩ = CStream.loop f v ⟨some { c with incoming := rest }, false, false⟩ := by
  induction body generalizing c with
  | nil => cases c; simp at hc; subst hc; rfl
  | cons x xs ih =>
    obtain ⟨p, rfl, hp, hf⟩ := hb x (by simp)
    rw [loop_item (next_packet (by simpa using hc) hp), hf]
    simp only [Bool.false_and]
    rw [ih (c := { c with incoming := xs ++ rest }) rfl (fun y hy => hb y (by simp [hy]))]

/-- How a loop can end by falling through: `P` is what the loop variables satisfy as long as no packet hands over the
connection. -/
theorem loop_fell (P : σ → Prop) (hP : ∀ v p v', P v → f v (.ok (p, none)) = .inl v' → P v')
    (hE : ∀ v e v', P v → f v (.error e) = .inl v' → P v') {v v' : σ} {c : Conn} {rb : Bool} (hv : P v)
    (h : CStream.loop f v ⟨some c, false, rb⟩ = .fell v') :
    P v' ∨
    (∃ pre p rest u, P u ∧ c.incoming = pre ++ .packet p :: rest ∧ p.takesConn = true ∧
      f u (.ok (p, some { c with incoming := rest })) = .inl v') ∨
    (∃ pre p rest u u', P u ∧ rb = true ∧ p.isBlock = true ∧ c.incoming = pre ++ .packet p :: rest ∧
      f u (.ok (p, none)) = .inl u' ∧ f u' (.ok (.eof, some { c with incoming := rest })) = .inl v') := by
  generalize hl : c.incoming = l at *
  induction l generalizing c v with
  | nil => rw [loop_waits (next_nil hl)] at h; simp at h
  | cons x xs ih =>
    cases x with
    | packet p =>
      cases hp : p.takesConn with
      | true =>
        rw [loop_item (next_taken hl hp)] at h
        split at h
        · next u hu =>
          rw [loop_ended next_none] at h
          simp only [LoopEnd.fell.injEq] at h
          subst h
          exact .inr (.inl ⟨[], p, xs, v, hv, rfl, hp, hu⟩)
        · simp at h
      | false =>
        rw [loop_item (next_packet hl hp)] at h
        split at h
        · next u hu =>
          cases hrb : rb && p.isBlock with
          | true =>
            rw [hrb, loop_item next_finished] at h
            split at h
            · next u' hu' =>
              rw [loop_ended next_none] at h
              simp only [LoopEnd.fell.injEq] at h
              subst h
              simp only [Bool.and_eq_true] at hrb
              exact .inr (.inr ⟨[], p, xs, v, u, hv, hrb.1, hrb.2, rfl, hu, hu'⟩)
            · simp at h
          | false =>
            rw [hrb] at h
            have := ih (hP _ _ _ hv hu) h rfl
            rcases this with h1 | ⟨pre, q, rest, w, h1, h2, h3, h4⟩ | ⟨pre, q, rest, w, w', h1, h2, h3, h4, h5, h6⟩
            · exact .inl h1
            · exact .inr (.inl ⟨.packet p :: pre, q, rest, w, h1, by simp [h2], h3, h4⟩)
            · exact .inr (.inr ⟨.packet p :: pre, q, rest, w, w', h1, h2, h3, by simp [h4], h5, h6⟩)
        · simp at h
    | error e =>
      rw [loop_error (next_err hl)] at h
      split at h
      · next u hu =>
        have := ih (hE _ _ _ hv hu) h rfl
        rcases this with h1 | ⟨pre, q, rest, w, h1, h2, h3, h4⟩ | ⟨pre, q, rest, w, w', h1, h2, h3, h4, h5, h6⟩
        · exact .inl h1
        · exact .inr (.inl ⟨.error e :: pre, q, rest, w, h1, by simp [h2], h3, h4⟩)
        · exact .inr (.inr ⟨.error e :: pre, q, rest, w, w', h1, h2, h3, by simp [h4], h5, h6⟩)
      · simp at h
    | closed =>
      rw [loop_ended (next_closed hl)] at h
      simp only [LoopEnd.fell.injEq] at h
      subst h
      exact .inl hv

end

/-! ### Orderly servers -/

theorem taken_final {p : Packet} (h : p.takesConn = true) : Final p := by
  cases p <;> simp [Packet.takesConn] at h <;> constructor

theorem Spec.Ends.tail {a b : List Inc} (h : Ends (a ++ b)) : Ends b := by
  intro pre p post e f
  exact h (a ++ pre) p post (by simp [e]) f

theorem ends_nil : Ends [] := by
  intro pre p post e f
  simp at e

/-- A connection of a session between operations. -/
structure Tidy (isInsert : Query → Prop) (c : Conn) : Prop where
  idle : c.inconsistent = false → c.incoming = []
  ends : Ends c.incoming
  orderly : Orderly isInsert c.server

/-- A connection on which nothing is outstanding, as after a successful operation. -/
def Idle (isInsert : Query → Prop) (c : Conn) : Prop := c.incoming = [] ∧ c.inconsistent = false ∧ Orderly isInsert c.server

theorem Idle.tidy {I : Query → Prop} {c : Conn} (h : Idle I c) : Tidy I c := ⟨fun _ => h.1, h.1 ▸ ends_nil, h.2.2⟩

variable {I : Query → Prop}

theorem clearBody_plain {v v' : Option Conn} {p : Packet} (hv : v = none) (h : clearBody v (.ok (p, none)) = .inl v') : v' = none := by
  subst hv
  cases p <;> simp [clearBody] at h <;> simp [h]

theorem clear_ok {c c' : Conn} (ht : Tidy I c) (h : c.clear = .ok c') : Idle I c' := by
  unfold Conn.clear at h
  split at h
  · next hi =>
    simp only [OpRes.ok.injEq] at h
    subst h
    exact ⟨ht.idle (by simpa using hi), by simpa using hi, ht.orderly⟩
  · split at h <;> simp only [OpRes.ok.injEq, reduceCtorEq] at h
    next c0 hl =>
    subst h
    rcases loop_fell (P := fun v => v = none) (fun v p v' hv h => clearBody_plain hv h)
      (fun v e v' hv h => by simp [clearBody] at h) rfl hl with h1 | ⟨pre, p, rest, u, hu, h2, h3, h4⟩ | ⟨_, _, _, _, _, _, h2, _⟩
    · simp at h1
    · simp only [ht.orderly.cancel, List.append_nil] at h2 h4
      have hr := ht.ends pre p rest h2 (taken_final h3)
      subst hr hu
      cases p <;> simp [clearBody] at h4 <;> subst h4 <;> exact ⟨rfl, rfl, ht.orderly⟩
    · simp at h2

theorem executeBody_plain {v v' : Option Conn} {p : Packet} (hv : v = none) (h : executeBody v (.ok (p, none)) = .inl v') :
    v' = none := by
  subst hv
  cases p <;> simp [executeBody] at h <;> simp [h]

theorem conn_execute_ok {c c' : Conn} {q : Query} {ctx : Context} (ht : Tidy I c) (h : c.execute q ctx = .ok c') : Idle I c' := by
  unfold Conn.execute at h
  split at h
  · simp at h
  · simp at h
  · simp at h
  next c1 h1 =>
  have hi := clear_ok ht h1
  split at h <;> simp only [OpRes.ok.injEq, reduceCtorEq] at h
  next c2 hl =>
  subst h
  rcases loop_fell (P := fun v => v = none) (fun v p v' hv h => executeBody_plain hv h)
    (fun v e v' hv h => by simp [executeBody] at h) rfl hl with h1 | ⟨pre, p, rest, u, hu, h2, h3, h4⟩ | ⟨_, _, _, _, _, _, h2, _⟩
  · simp at h1
  · simp only [hi.1, List.nil_append] at h2
    have hr := hi.2.2.ends _ pre p rest h2 (taken_final h3)
    subst hr hu
    cases p <;> simp [executeBody] at h4 <;> try (simp [Packet.takesConn] at h3)
    subst h4
    exact ⟨rfl, hi.2.1, hi.2.2⟩
  · simp at h2

theorem ping_ok {h h' : Handle} (ht : ∀ c, h.inner = some c → Tidy I c) (e : h.ping = (.ok (), h')) :
    ∃ c, h' = { h with inner := some c } ∧ Idle I c := by
  unfold Handle.ping at e
  split at e
  · simp at e
  · next c hc =>
    simp only at e
    split at e
    · simp at e
    · simp at e
    · simp at e
    next c1 h1 =>
    have hi := clear_ok (ht c hc) h1
    split at e <;> simp only [Prod.mk.injEq, true_and, reduceCtorEq, false_and] at e
    next c2 hl =>
    subst e
    rcases loop_fell (P := fun v => v = none) (fun v p v' hv h => by cases p <;> simp [pingBody] at h <;> simp [h])
      (fun v e v' hv h => by simp [pingBody] at h) rfl hl with h1 | ⟨pre, p, rest, u, hu, h2, h3, h4⟩ | ⟨_, _, _, _, _, _, h2, _⟩
    · simp at h1
    · simp only [hi.1, List.nil_append] at h2
      have hr := hi.2.2.ends _ pre p rest h2 (taken_final h3)
      subst hr hu
      cases p <;> simp [pingBody] at h4
      subst h4
      exact ⟨_, rfl, rfl, hi.2.1, hi.2.2⟩
    · simp at h2

theorem ping_not_ok {h h' : Handle} {r : OpRes Unit} (e : h.ping = (r, h')) (hr : r ≠ .ok ()) : h' = { h with inner := none } := by
  unfold Handle.ping at e
  split at e
  · next hn => simp only [Prod.mk.injEq] at e; obtain ⟨_, rfl⟩ := e; cases h; simp_all
  · simp only at e
    split at e
    · simp only [Prod.mk.injEq] at e; exact e.2.symm
    · simp only [Prod.mk.injEq] at e; exact e.2.symm
    · simp only [Prod.mk.injEq] at e; exact e.2.symm
    · split at e
      · simp only [Prod.mk.injEq] at e; exact absurd e.1.symm hr
      · simp only [Prod.mk.injEq] at e; exact e.2.symm
      · simp only [Prod.mk.injEq] at e; exact e.2.symm
      · simp only [Prod.mk.injEq] at e; exact e.2.symm

/-- All connections of a handle are tidy. -/
def TidyH (I : Query → Prop) (h : Handle) : Prop := ∀ c, h.inner = some c → Tidy I c

/-- The handle has a connection with nothing outstanding. -/
def IdleH (I : Query → Prop) (h : Handle) : Prop := ∃ c, h.inner = some c ∧ Idle I c

theorem IdleH.tidy {h : Handle} (hi : IdleH I h) : TidyH I h := by
  obtain ⟨c, h1, h2⟩ := hi
  intro c' hc
  rw [h1] at hc
  simp only [Option.some.injEq] at hc
  subst hc
  exact h2.tidy

theorem ping_tidy {h : Handle} (ht : TidyH I h) : TidyH I h.ping.2 := by
  cases hp : h.ping with
  | mk r h' =>
    cases r with
    | ok _ =>
      obtain ⟨c, rfl, hi⟩ := ping_ok ht hp
      exact IdleH.tidy ⟨c, rfl, hi⟩
    | _ =>
      rw [ping_not_ok hp (by simp)]
      intro c hc
      simp at hc

theorem ping_context {h : Handle} : h.ping.2.context = h.context ∧ h.ping.2.binding = h.binding := by
  unfold Handle.ping
  split
  · exact ⟨rfl, rfl⟩
  · simp only
    split
    · exact ⟨rfl, rfl⟩
    · exact ⟨rfl, rfl⟩
    · exact ⟨rfl, rfl⟩
    · split <;> exact ⟨rfl, rfl⟩

/-- One round of the retry loop. -/
theorem retryLoop_eq (pooled : Bool) (m a : Nat) (skip : Bool) (h : Handle) (w : World) :
    retryLoop pooled m a skip h w =
      match (if skip then (OpRes.err OpErr.connect, h) else h.ping) with
      | (.ok (), h) => (.ok (), h, w)
      | (.panic, h) => (.panic, h, w)
      | (.waits, h) => (.waits, h, w)
      | (.err e, h) =>
        if !skip && m ≤ a then (.err e, h, w)
        else
          match w with
          | [] => (.waits, h, [])
          | none :: w => if m ≤ a then (.err .connect, h, w) else retryLoop pooled m (a + 1) true h w
          | some c :: w => retryLoop pooled m a false { h with inner := some c, binding := if pooled then .attached else .none } w := by
  rw [retryLoop]
  generalize (if skip then (OpRes.err OpErr.connect, h) else h.ping) = x
  obtain ⟨r, g⟩ := x
  cases r <;> rfl

theorem retryLoop_spec {pooled : Bool} {m a : Nat} {skip : Bool} {h h' : Handle} {w w' : World} {r : OpRes Unit}
    (ht : TidyH I h) (hw : FreshWorld I w) (e : retryLoop pooled m a skip h w = (r, h', w')) :
    h'.context = h.context ∧ TidyH I h' ∧ (r = .ok () → IdleH I h') ∧ FreshWorld I w' := by
  induction w generalizing a skip h with
  | nil =>
    rw [retryLoop_eq] at e
    have h1 : TidyH I (if skip then (OpRes.err OpErr.connect, h) else h.ping).2 := by
      split
      · exact ht
      · exact ping_tidy ht
    have h2 : (if skip then (OpRes.err OpErr.connect, h) else h.ping).2.context = h.context := by
      split
      · rfl
      · exact ping_context.1
    have h3 : ∀ g, (if skip then (OpRes.err OpErr.connect, h) else h.ping) = (.ok (), g) → IdleH I g := by
      intro g hg
      split at hg
      · simp at hg
      · obtain ⟨c, rfl, hi⟩ := ping_ok ht hg
        exact ⟨c, rfl, hi⟩
    generalize (if skip then (OpRes.err OpErr.connect, h) else h.ping) = x at *
    obtain ⟨r1, g⟩ := x
    cases r1 with
    | ok _ =>
      simp only [Prod.mk.injEq] at e
      obtain ⟨rfl, rfl, rfl⟩ := e
      exact ⟨h2, h1, fun _ => h3 _ rfl, hw⟩
    | panic =>
      simp only [Prod.mk.injEq] at e
      obtain ⟨rfl, rfl, rfl⟩ := e
      exact ⟨h2, h1, by simp, hw⟩
    | waits =>
      simp only [Prod.mk.injEq] at e
      obtain ⟨rfl, rfl, rfl⟩ := e
      exact ⟨h2, h1, by simp, hw⟩
    | err er =>
      simp only at e
      split at e
      all_goals
        simp only [Prod.mk.injEq] at e
        obtain ⟨rfl, rfl, rfl⟩ := e
        exact ⟨h2, h1, by simp, hw⟩
  | cons o w ih =>
    rw [retryLoop_eq] at e
    have h1 : TidyH I (if skip then (OpRes.err OpErr.connect, h) else h.ping).2 := by
      split
      · exact ht
      · exact ping_tidy ht
    have h2 : (if skip then (OpRes.err OpErr.connect, h) else h.ping).2.context = h.context := by
      split
      · rfl
      · exact ping_context.1
    have h3 : ∀ g, (if skip then (OpRes.err OpErr.connect, h) else h.ping) = (.ok (), g) → IdleH I g := by
      intro g hg
      split at hg
      · simp at hg
      · obtain ⟨c, rfl, hi⟩ := ping_ok ht hg
        exact ⟨c, rfl, hi⟩
    have hw' : FreshWorld I w := fun c hc => hw c (by simp [hc])
    generalize (if skip then (OpRes.err OpErr.connect, h) else h.ping) = x at *
    obtain ⟨r1, g⟩ := x
    cases r1 with
    | ok _ =>
      simp only [Prod.mk.injEq] at e
      obtain ⟨rfl, rfl, rfl⟩ := e
      exact ⟨h2, h1, fun _ => h3 _ rfl, hw⟩
    | panic =>
      simp only [Prod.mk.injEq] at e
      obtain ⟨rfl, rfl, rfl⟩ := e
      exact ⟨h2, h1, by simp, hw⟩
    | waits =>
      simp only [Prod.mk.injEq] at e
      obtain ⟨rfl, rfl, rfl⟩ := e
      exact ⟨h2, h1, by simp, hw⟩
    | err er =>
      simp only at e
      split at e
      · simp only [Prod.mk.injEq] at e
        obtain ⟨rfl, rfl, rfl⟩ := e
        exact ⟨h2, h1, by simp, hw⟩
      · cases o with
        | none =>
          simp only at e
          split at e
          · simp only [Prod.mk.injEq] at e
            obtain ⟨rfl, rfl, rfl⟩ := e
            exact ⟨h2, h1, by simp, hw'⟩
          · have := ih h1 hw' e
            exact ⟨this.1.trans h2, this.2⟩
        | some c =>
          simp only at e
          have hf := hw c (by simp)
          have := ih (IdleH.tidy ⟨c, rfl, hf⟩) hw' e
          exact ⟨this.1.trans h2, this.2⟩

theorem check_spec {h h' : Handle} {w w' : World} {r : OpRes Unit} (ht : TidyH I h) (hw : FreshWorld I w)
    (e : h.checkConnection w = (r, h', w')) :
    h'.context = h.context ∧ TidyH I h' ∧ (r = .ok () → IdleH I h') ∧ FreshWorld I w' := by
  unfold Handle.checkConnection at e
  split at e
  · simp only [Prod.mk.injEq] at e
    obtain ⟨rfl, rfl, rfl⟩ := e
    exact ⟨rfl, ht, by simp, hw⟩
  · next b hb =>
    generalize hr : retryGuard true h.context.options.sendRetries { h with binding := b } w = x at e
    obtain ⟨r1, g, w1⟩ := x
    have := retryLoop_spec (h := { h with binding := b }) ht hw hr
    cases r1 with
    | ok _ =>
      simp only [Prod.mk.injEq] at e
      obtain ⟨rfl, rfl, rfl⟩ := e
      exact this
    | _ =>
      simp only [Prod.mk.injEq] at e
      obtain ⟨rfl, rfl, rfl⟩ := e
      exact this

theorem precheck_spec {h h' : Handle} {w w' : World} {r : OpRes Unit} (ht : TidyH I h) (hw : FreshWorld I w)
    (e : h.precheck w = (r, h', w')) :
    h'.context = h.context ∧ TidyH I h' ∧ (h.context.options.pingBeforeQuery = true → r = .ok () → IdleH I h') ∧
      FreshWorld I w' := by
  unfold Handle.precheck at e
  split at e
  · have := check_spec ht hw e
    exact ⟨this.1, this.2.1, fun _ => this.2.2.1, this.2.2.2⟩
  · next hn =>
    simp only [Prod.mk.injEq] at e
    obtain ⟨rfl, rfl, rfl⟩ := e
    exact ⟨rfl, ht, fun h1 => absurd h1 hn, hw⟩

theorem tidyH_none {h : Handle} : TidyH I { h with inner := none } := by
  intro c hc
  simp at hc

theorem execute_spec {h : Handle} {q : Query} {w : World} (ht : TidyH I h) (hw : FreshWorld I w) :
    (h.execute q w).2.1.context = h.context ∧ TidyH I (h.execute q w).2.1 := by
  unfold Handle.execute
  generalize hp : h.precheck w = x
  obtain ⟨r, g, w1⟩ := x
  have hs := precheck_spec ht hw hp
  cases r with
  | ok _ =>
    simp only
    split
    · exact ⟨hs.1, hs.2.1⟩
    · next c hc =>
      split
      · next c' hc' =>
        exact ⟨hs.1, IdleH.tidy ⟨c', rfl, conn_execute_ok (hs.2.1 c hc) hc'⟩⟩
      · exact ⟨hs.1, tidyH_none⟩
      · exact ⟨hs.1, tidyH_none⟩
      · exact ⟨hs.1, tidyH_none⟩
  | _ => exact ⟨hs.1, hs.2.1⟩

/-! ### INSERT -/

theorem readBlock_plain {v v' : Option Conn × Option Block} {p : Packet} (hv : v.1 = none)
    (h : readBlockBody v (.ok (p, none)) = .inl v') : v'.1 = none := by
  cases p <;> simp [readBlockBody] at h <;> subst h <;> simp [hv]

/-- What reading one block leaves: the block was the first, the rest of the answer is still there. -/
theorem readOneBlock_ok {c c' : Conn} {b : Option Block} (h : CStream.readOneBlock ⟨some c, false, false⟩ = .ok (c', b)) :
    (∃ pre p rest, c.incoming = pre ++ .packet p :: rest ∧ p.takesConn = true ∧ c' = { c with incoming := rest }) ∨
    (∃ pre bl rest, c.incoming = pre ++ .packet (.block bl) :: rest ∧ c' = { c with incoming := rest } ∧ b = some bl) := by
  unfold CStream.readOneBlock at h
  split at h <;> simp only [OpRes.ok.injEq, reduceCtorEq, Prod.mk.injEq] at h
  next c0 b0 hl =>
  obtain ⟨rfl, rfl⟩ := h
  rcases loop_fell (P := fun v => v.1 = none) (fun v p v' hv h => readBlock_plain hv h)
    (fun v e v' hv h => by simp [readBlockBody] at h) rfl hl with
    h1 | ⟨pre, p, rest, u, hu, h2, h3, h4⟩ | ⟨pre, p, rest, u, u', hu, h2, h3, h4, h5, h6⟩
  · simp at h1
  · refine .inl ⟨pre, p, rest, h2, h3, ?_⟩
    cases p <;> simp [readBlockBody] at h4 <;> simp [Packet.takesConn] at h3
    exact h4.1.symm
  · refine .inr ?_
    cases p <;> simp [Packet.isBlock] at h3
    next bl =>
    refine ⟨pre, bl, rest, h4, ?_⟩
    simp [readBlockBody] at h5 h6
    subst h5
    exact ⟨h6.1.symm, h6.2.symm⟩

theorem sendInsertQuery_ok {c c' : Conn} {ctx : Context} {q : Query} {b : Block} (hi : Idle I c) (hq : I q)
    (h : c.sendInsertQuery ctx q = .ok (c', b)) : Idle I c' := by
  unfold Conn.sendInsertQuery at h
  split at h <;> simp only [OpRes.ok.injEq, reduceCtorEq, Prod.mk.injEq] at h
  next c0 b0 hr =>
  obtain ⟨rfl, rfl⟩ := h
  rcases readOneBlock_ok hr with ⟨pre, p, rest, h1, h2, rfl⟩ | ⟨pre, bl, rest, h1, rfl, _⟩
  · simp only [hi.1, List.nil_append] at h1
    exact ⟨hi.2.2.ends _ _ _ _ h1 (taken_final h2), hi.2.1, hi.2.2⟩
  · simp only [hi.1, List.nil_append] at h1
    exact ⟨hi.2.2.header _ _ _ _ _ _ hq h1, hi.2.1, hi.2.2⟩

theorem insertBlock_ok {c c' : Conn} {ctx : Context} {b : Block} (hi : Idle I c) (h : c.insertBlock ctx b = .ok c') : Idle I c' := by
  unfold Conn.insertBlock at h
  split at h <;> simp only [OpRes.ok.injEq, reduceCtorEq] at h
  next c0 b0 hr =>
  subst h
  rcases readOneBlock_ok hr with ⟨pre, p, rest, h1, h2, rfl⟩ | ⟨pre, bl, rest, h1, rfl, _⟩
  · simp only [hi.1, List.nil_append] at h1
    exact ⟨hi.2.2.ends _ _ _ _ h1 (taken_final h2), hi.2.1, hi.2.2⟩
  · simp only [hi.1, List.nil_append] at h1
    exact absurd rfl (hi.2.2.data _ _ _ (.packet (.block bl)) (by rw [h1]; simp) bl)

theorem insertTail_ok {c c' : Conn} {ctx : Context} {q : Query} {bs : List Block} (hi : Idle I c) (hq : I q)
    (h : c.insertTail ctx q bs = .ok c') : Idle I c' := by
  induction bs generalizing c with
  | nil => simp only [Conn.insertTail, OpRes.ok.injEq] at h; exact h ▸ hi
  | cons b bs ih =>
    unfold Conn.insertTail at h
    split at h
    · next c1 b1 h1 =>
      split at h
      · next c2 h2 => exact ih (insertBlock_ok (sendInsertQuery_ok hi hq h1) h2) h
      · simp at h
      · simp at h
      · simp at h
    · simp at h
    · simp at h
    · simp at h

theorem conn_insert_ok {cast : Block → Block → Out Block} {c c' : Conn} {ctx : Context} {q : Query} {b : Block} (ht : Tidy I c)
    (hq : I q) (h : c.insert cast q ctx b = .ok c') : Idle I c' := by
  unfold Conn.insert at h
  split at h
  · simp at h
  · simp at h
  · simp at h
  · next c1 h1 =>
    split at h
    · simp at h
    · simp at h
    · simp at h
    · next c2 dst h2 =>
      split at h
      · simp at h
      · simp at h
      · split at h
        · split at h
          · next c3 h3 => exact insertTail_ok (insertBlock_ok (sendInsertQuery_ok (clear_ok ht h1) hq h2) h3) hq h
          · simp at h
          · simp at h
          · simp at h
        · simp at h
        · simp at h
        · simp at h

theorem insert_spec {numeric : Char → Bool} {cast : Block → Block → Out Block} {h : Handle} {t q : Query} {b : Block} {w : World}
    (ht : TidyH I h) (hw : FreshWorld I w) (hm : makeQuery numeric t b = .ok q) (hq : I q) :
    (h.insert numeric cast t b w).2.1.context = h.context ∧ TidyH I (h.insert numeric cast t b w).2.1 := by
  unfold Handle.insert
  rw [hm]
  simp only
  generalize hp : h.precheck w = x
  obtain ⟨r, g, w1⟩ := x
  have hs := precheck_spec ht hw hp
  cases r with
  | ok _ =>
    simp only
    split
    · exact ⟨hs.1, hs.2.1⟩
    · next c hc =>
      split
      · next c' hc' =>
        exact ⟨hs.1, IdleH.tidy ⟨c', rfl, conn_insert_ok (hs.2.1 c hc) hq hc'⟩⟩
      · exact ⟨hs.1, tidyH_none⟩
      · exact ⟨hs.1, tidyH_none⟩
      · exact ⟨hs.1, tidyH_none⟩
  | _ => exact ⟨hs.1, hs.2.1⟩

/-! ### Result streams -/

section
variable {s : BStream} {h : Handle} {i : CStream}

theorem read_waits (e : s.inner.next = (.waits, i)) : s.read h = (.waits, { s with inner := i }, h) := by
  rw [BStream.read]; split <;> rename_i h' <;> rw [e] at h' <;> simp_all

theorem read_ended (e : s.inner.next = (.ended, i)) : s.read h = (.err .eof, { s with inner := i, state := .error }, h) := by
  rw [BStream.read]; split <;> rename_i h' <;> rw [e] at h' <;> simp_all

theorem read_error {er : Err} (e : s.inner.next = (.error er, i)) : s.read h = (.err .io, { s with inner := i }, h) := by
  rw [BStream.read]; split <;> rename_i h' <;> rw [e] at h' <;> simp_all

theorem read_exception {x : ServerError} {c : Option Conn} (e : s.inner.next = (.item (.exception x) c, i)) :
    s.read h = (.err (.server x), { s with inner := i, state := .finished }, h) := by
  rw [BStream.read]; split <;> rename_i h' <;> rw [e] at h' <;> simp_all
  obtain ⟨⟨rfl, _⟩, _⟩ := h'
  simp_all

theorem read_progress {p : Progress} {c : Option Conn} (e : s.inner.next = (.item (.progress p) c, i)) :
    s.read h = BStream.read { s with inner := i } h := by
  rw [BStream.read]; split <;> rename_i h' <;> rw [e] at h' <;> simp_all
  obtain ⟨⟨rfl, _⟩, _⟩ := h'
  simp_all

theorem read_profile {p : ProfileInfo} {c : Option Conn} (e : s.inner.next = (.item (.profileInfo p) c, i)) :
    s.read h = BStream.read { s with inner := i } h := by
  rw [BStream.read]; split <;> rename_i h' <;> rw [e] at h' <;> simp_all
  obtain ⟨⟨rfl, _⟩, _⟩ := h'
  simp_all

theorem read_block {b : Block} {c : Option Conn} (e : s.inner.next = (.item (.block b) c, i)) :
    s.read h = if (s.blockIndex + 1 > 1 || !s.skipFirst) && !b.isEmpty then
      (.block b, { s with inner := i, blockIndex := s.blockIndex + 1 }, h)
    else BStream.read { s with inner := i, blockIndex := s.blockIndex + 1 } h := by
  rw [BStream.read]; split <;> rename_i h' <;> rw [e] at h' <;> simp_all
  obtain ⟨⟨rfl, _⟩, _⟩ := h'
  simp_all

theorem read_eof {c : Option Conn} (e : s.inner.next = (.item .eof c, i)) :
    s.read h = if h.binding = .attached then (.ended, { s with inner := i, state := .finished }, { h with inner := c })
    else
      match h.binding.attach with
      | some b => (.ended, { s with inner := i, state := .finished }, { h with inner := c, binding := b })
      | none => (.panic, { s with inner := i }, { h with inner := c, binding := .none }) := by
  rw [BStream.read]
  split <;> rename_i h' <;> rw [e] at h' <;> simp only [Prod.mk.injEq, reduceCtorEq, false_and] at h'
  · simp only [CItem.item.injEq] at h'
    obtain ⟨⟨_, rfl⟩, rfl⟩ := h'
    rfl
  all_goals simp_all

theorem read_other {p : Packet} {c : Option Conn} (e : s.inner.next = (.item p c, i)) (h1 : p ≠ .eof)
    (h2 : ∀ x, p ≠ .exception x) (h3 : ∀ x, p ≠ .progress x) (h4 : ∀ x, p ≠ .profileInfo x) (h5 : ∀ x, p ≠ .block x) :
    s.read h = (.err .unexpectedPacket, { s with inner := i }, h) := by
  rw [BStream.read]; split <;> rename_i h' <;> rw [e] at h' <;> simp_all

end

/-- A stream that is being read. -/
def reading (c : Conn) (idx : Nat) (skip : Bool) : BStream := ⟨⟨some c, false, false⟩, .reading, idx, skip⟩

/-- The blocks still to be shown. -/
def wantedFrom (skip : Bool) (idx : Nat) (l : List Inc) : List Block :=
  ((blocksOf l).drop (if skip ∧ idx = 0 then 1 else 0)).filter fun b => decide (b.columns ≠ [])

theorem wantedFrom_zero (skip : Bool) (l : List Inc) : wantedFrom skip 0 l = resultBlocks skip l := by
  simp [wantedFrom, resultBlocks]

theorem isEmpty_iff (b : Block) : b.isEmpty = decide (b.columns = []) := by
  unfold Block.isEmpty
  cases b.columns <;> simp

theorem wantedFrom_block {skip : Bool} {idx : Nat} {b : Block} {l : List Inc} :
    wantedFrom skip idx (.packet (.block b) :: l) =
      if (idx + 1 > 1 || !skip) && !b.isEmpty then b :: wantedFrom skip (idx + 1) l else wantedFrom skip (idx + 1) l := by
  cases skip <;> cases idx <;> by_cases hb : b.columns = [] <;> simp [wantedFrom, blocksOf, isEmpty_iff, hb]

theorem wantedFrom_other {skip : Bool} {idx : Nat} {x : Inc} {l : List Inc} (hx : ∀ b, x ≠ .packet (.block b)) :
    wantedFrom skip idx (x :: l) = wantedFrom skip idx l := by
  have : blocksOf (x :: l) = blocksOf l := by
    cases x with
    | packet p => cases p <;> first | rfl | exact absurd rfl (hx _)
    | _ => rfl
  unfold wantedFrom
  rw [this]

theorem next_reading {c : Conn} {idx : Nat} {skip : Bool} {h : Handle} :
    (reading c idx skip).next h = (reading c idx skip).read h := rfl

theorem reading_progress {c : Conn} {idx : Nat} {skip : Bool} {h : Handle} {p : Progress} {rest : List Inc}
    (hc : c.incoming = .packet (.progress p) :: rest) :
    (reading c idx skip).read h = (reading { c with incoming := rest } idx skip).read h :=
  read_progress (next_packet hc rfl)

theorem reading_profile {c : Conn} {idx : Nat} {skip : Bool} {h : Handle} {p : ProfileInfo} {rest : List Inc}
    (hc : c.incoming = .packet (.profileInfo p) :: rest) :
    (reading c idx skip).read h = (reading { c with incoming := rest } idx skip).read h :=
  read_profile (next_packet hc rfl)

theorem reading_block {c : Conn} {idx : Nat} {skip : Bool} {h : Handle} {b : Block} {rest : List Inc}
    (hc : c.incoming = .packet (.block b) :: rest) :
    (reading c idx skip).read h = if (idx + 1 > 1 || !skip) && !b.isEmpty then
      (.block b, reading { c with incoming := rest } (idx + 1) skip, h)
    else (reading { c with incoming := rest } (idx + 1) skip).read h :=
  read_block (next_packet hc rfl)

theorem run_congr {s s' : BStream} {h h' : Handle} (e : s.next h = s'.next h') (n : Nat) : run (n + 1) s h = run (n + 1) s' h' := by
  simp only [run, e]

theorem run_next {s s' : BStream} {h h' : Handle} {i : BItem} (e : s.next h = (i, s', h')) (n : Nat) :
    run (n + 1) s h = (i :: (run n s' h').1, (run n s' h').2) := by
  simp only [run, e]

theorem run_body {c : Conn} {idx : Nat} {skip : Bool} {h : Handle} {body tail : List Inc} (hc : c.incoming = body ++ tail)
    (hb : ∀ x ∈ body, Middle x) (n : Nat) :
    run ((wantedFrom skip idx body).length + (n + 1)) (reading c idx skip) h =
      ((wantedFrom skip idx body).map .block ++
        (run (n + 1) (reading { c with incoming := tail } (idx + (blocksOf body).length) skip) h).1,
       (run (n + 1) (reading { c with incoming := tail } (idx + (blocksOf body).length) skip) h).2) := by
  induction body generalizing c idx with
  | nil =>
    simp only [List.nil_append] at hc
    subst hc
    simp [wantedFrom, blocksOf]
  | cons x xs ih =>
    have ih' := fun idx => ih (c := { c with incoming := xs ++ tail }) (idx := idx) rfl (fun y hy => hb y (by simp [hy]))
    cases hb x (by simp) with
    | progress p =>
      rw [wantedFrom_other (by simp)]
      rw [show (wantedFrom skip idx xs).length + (n + 1) = ((wantedFrom skip idx xs).length + n) + 1 by omega]
      rw [run_congr (s' := reading { c with incoming := xs ++ tail } idx skip) (h' := h)
        (by rw [next_reading, next_reading]; exact reading_progress hc)]
      exact ih' idx
    | profileInfo p =>
      rw [wantedFrom_other (by simp)]
      rw [show (wantedFrom skip idx xs).length + (n + 1) = ((wantedFrom skip idx xs).length + n) + 1 by omega]
      rw [run_congr (s' := reading { c with incoming := xs ++ tail } idx skip) (h' := h)
        (by rw [next_reading, next_reading]; exact reading_profile hc)]
      exact ih' idx
    | block b =>
      rw [wantedFrom_block]
      have hr := reading_block (idx := idx) (skip := skip) (h := h) hc
      have hbl : idx + 1 + (blocksOf xs).length = idx + (blocksOf (.packet (.block b) :: xs)).length := by
        simp [blocksOf]; omega
      have ih'' := ih' (idx + 1)
      rw [hbl] at ih''
      split
      · next hw =>
        rw [if_pos hw, ← next_reading] at hr
        rw [show (b :: wantedFrom skip (idx + 1) xs).length + (n + 1) = ((wantedFrom skip (idx + 1) xs).length + (n + 1)) + 1 by
          simp; omega]
        rw [run_next (s' := reading { c with incoming := xs ++ tail } (idx + 1) skip) (h' := h) hr]
        rw [ih'']
        rfl
      · next hw =>
        rw [if_neg hw, ← next_reading, ← next_reading] at hr
        rw [show (wantedFrom skip (idx + 1) xs).length + (n + 1) = ((wantedFrom skip (idx + 1) xs).length + n) + 1 by omega]
        rw [run_congr (s' := reading { c with incoming := xs ++ tail } (idx + 1) skip) (h' := h) hr]
        exact ih''

theorem run_finished {s : BStream} {h : Handle} (hs : s.state = .finished) (n : Nat) : run n s h = (List.replicate n .ended, s, h) := by
  induction n with
  | zero => rfl
  | succ n ih =>
    rw [run_next (s' := s) (h' := h) (i := .ended) (by simp [BStream.next, hs]), ih]
    rfl

theorem run_error {s : BStream} {h : Handle} (hs : s.state = .error) (n : Nat) :
    run n s h = (List.replicate n (.err .readBroken), s, h) := by
  induction n with
  | zero => rfl
  | succ n ih =>
    rw [run_next (s' := s) (h' := h) (i := .err .readBroken) (by simp [BStream.next, hs]), ih]
    rfl

/-- What one read of a stream does to it and to the handle: it goes on, breaks, ends with an error, loses the connection to an
unexpected packet, or ends and gives the connection back. -/
inductive ReadTo (c : Conn) (l : List Inc) (idx : Nat) (skip : Bool) (h : Handle) : BItem → BStream → Handle → Prop where
  | goesOn (i : BItem) (pre : List Inc) (c' : Conn) (idx' : Nat) : l = pre ++ c'.incoming → c'.server = c.server →
      wantedFrom skip idx l = (match i with | .block b => [b] | _ => []) ++ wantedFrom skip idx' c'.incoming →
      ReadTo c l idx skip h i (reading c' idx' skip) h
  | breaks (i : BItem) (s' : BStream) : (∀ b, i ≠ .block b) → s'.state = .error → ReadTo c l idx skip h i s' h
  | fails (i : BItem) (s' : BStream) : (∀ b, i ≠ .block b) → s'.state = .finished → ReadTo c l idx skip h i s' h
  | loses (i : BItem) (s' : BStream) : (∀ b, i ≠ .block b) → s'.state = .reading → s'.inner.conn = none → ReadTo c l idx skip h i s' h
  | ends (i : BItem) (s' : BStream) (h' : Handle) (pre rest : List Inc) : (∀ b, i ≠ .block b) → s'.inner.conn = none →
      h'.context = h.context → l = pre ++ .packet .eof :: rest → h'.inner = some { c with incoming := rest } →
      ReadTo c l idx skip h i s' h'

theorem ReadTo.cons {c : Conn} {x : Inc} {xs : List Inc} {idx idx' : Nat} {skip : Bool} {h h' : Handle} {i : BItem} {s' : BStream}
    (hr : ReadTo { c with incoming := xs } xs idx' skip h i s' h')
    (hw : wantedFrom skip idx (x :: xs) = wantedFrom skip idx' xs) : ReadTo c (x :: xs) idx skip h i s' h' := by
  cases hr with
  | goesOn pre c' i2 h1 h2 h3 => exact .goesOn _ (x :: pre) c' i2 (by simp [← h1]) h2 (by rw [hw]; exact h3)
  | breaks _ h1 h2 => exact .breaks _ _ h1 h2
  | fails _ h1 h2 => exact .fails _ _ h1 h2
  | loses _ h1 h2 h3 => exact .loses _ _ h1 h2 h3
  | ends _ _ pre rest h1 h2 h3 h4 h5 => exact .ends _ _ _ (x :: pre) rest h1 h2 h3 (by simp [← h4]) h5

theorem read_any {c : Conn} {idx : Nat} {skip : Bool} {h h' : Handle} {i : BItem} {s' : BStream}
    (e : (reading c idx skip).read h = (i, s', h')) : ReadTo c c.incoming idx skip h i s' h' := by
  generalize hl : c.incoming = l at *
  induction l generalizing c idx with
  | nil =>
    rw [read_waits (next_nil hl)] at e
    simp only [Prod.mk.injEq] at e
    obtain ⟨rfl, rfl, rfl⟩ := e
    exact .goesOn _ [] c idx (by simp [hl]) rfl (by simp [hl])
  | cons x xs ih =>
    cases x with
    | closed =>
      rw [read_ended (next_closed hl)] at e
      simp only [Prod.mk.injEq] at e
      obtain ⟨rfl, rfl, rfl⟩ := e
      exact .breaks _ _ (by simp) rfl
    | error er =>
      rw [read_error (next_err hl)] at e
      simp only [Prod.mk.injEq] at e
      obtain ⟨rfl, rfl, rfl⟩ := e
      exact .goesOn _ [.error er] { c with incoming := xs } idx (by simp) rfl (by simp [wantedFrom_other])
    | packet p =>
      cases p with
      | eof =>
        rw [read_eof (next_taken hl rfl)] at e
        split at e
        · simp only [Prod.mk.injEq] at e
          obtain ⟨rfl, rfl, rfl⟩ := e
          exact .ends _ _ _ [] xs (by simp) rfl rfl rfl rfl
        · split at e
          · simp only [Prod.mk.injEq] at e
            obtain ⟨rfl, rfl, rfl⟩ := e
            exact .ends _ _ _ [] xs (by simp) rfl rfl rfl rfl
          · simp only [Prod.mk.injEq] at e
            obtain ⟨rfl, rfl, rfl⟩ := e
            exact .ends _ _ _ [] xs (by simp) rfl rfl rfl rfl
      | progress p =>
        rw [read_progress (next_packet hl rfl)] at e
        exact (ih e rfl).cons (wantedFrom_other (by simp))
      | profileInfo p =>
        rw [read_profile (next_packet hl rfl)] at e
        exact (ih e rfl).cons (wantedFrom_other (by simp))
      | exception x =>
        rw [read_exception (next_packet hl rfl)] at e
        simp only [Prod.mk.injEq] at e
        obtain ⟨rfl, rfl, rfl⟩ := e
        exact .fails _ _ (by simp) rfl
      | block b =>
        rw [reading_block hl] at e
        have hw := wantedFrom_block (skip := skip) (idx := idx) (b := b) (l := xs)
        split at e
        · next hc =>
          rw [if_pos hc] at hw
          simp only [Prod.mk.injEq] at e
          obtain ⟨rfl, rfl, rfl⟩ := e
          exact .goesOn _ [.packet (.block b)] { c with incoming := xs } (idx + 1) (by simp) rfl (by simp [hw])
        · next hc =>
          rw [if_neg hc] at hw
          exact (ih e rfl).cons hw
      | hello x =>
        rw [read_other (next_taken hl rfl) (by simp) (by simp) (by simp) (by simp) (by simp)] at e
        simp only [Prod.mk.injEq] at e
        obtain ⟨rfl, rfl, rfl⟩ := e
        exact .loses _ _ (by simp) rfl rfl
      | pong =>
        rw [read_other (next_taken hl rfl) (by simp) (by simp) (by simp) (by simp) (by simp)] at e
        simp only [Prod.mk.injEq] at e
        obtain ⟨rfl, rfl, rfl⟩ := e
        exact .loses _ _ (by simp) rfl rfl
      | tableColumns a b =>
        rw [read_other (next_packet hl rfl) (by simp) (by simp) (by simp) (by simp) (by simp)] at e
        simp only [Prod.mk.injEq] at e
        obtain ⟨rfl, rfl, rfl⟩ := e
        exact .goesOn _ [.packet (.tableColumns a b)] { c with incoming := xs } idx (by simp) rfl (by simp [wantedFrom_other])

/-- The states of a stream in a session: being read on a connection with an answer that ends, or never to give a block again. -/
def StreamTidy (I : Query → Prop) (s : BStream) : Prop :=
  (∃ c idx skip, s = reading c idx skip ∧ Ends c.incoming ∧ Orderly I c.server) ∨ s.inner.conn = none ∨ s.state = .finished ∨
    s.state = .error

theorem next_quiet {s : BStream} {h : Handle} (hs : s.inner.conn = none ∨ s.state = .finished ∨ s.state = .error) :
    (s.next h).2.2 = h ∧ ((s.next h).2.1.inner.conn = none ∨ (s.next h).2.1.state = .finished ∨ (s.next h).2.1.state = .error) ∧
      ∀ b, (s.next h).1 ≠ .block b := by
  unfold BStream.next
  split
  · next hr =>
    rcases hs with hs | hs | hs
    · obtain ⟨⟨conn, f, rb⟩, st, idx, skip⟩ := s
      simp only at hs
      subst hs
      rw [read_ended next_none]
      simp
    · rw [hs] at hr; simp at hr
    · rw [hs] at hr; simp at hr
  · next hr => simp [hr]
  · next hr => simp [hr]

theorem blocksGot_other {i : BItem} {l : List BItem} (hi : ∀ b, i ≠ .block b) : blocksGot (i :: l) = blocksGot l := by
  cases i with
  | block b => exact absurd rfl (hi b)
  | _ => rfl

theorem run_quiet {s : BStream} {h : Handle} (hs : s.inner.conn = none ∨ s.state = .finished ∨ s.state = .error) (n : Nat) :
    (run n s h).2.2 = h ∧ blocksGot (run n s h).1 = [] ∧
      ((run n s h).2.1.inner.conn = none ∨ (run n s h).2.1.state = .finished ∨ (run n s h).2.1.state = .error) := by
  induction n generalizing s h with
  | zero => exact ⟨rfl, rfl, hs⟩
  | succ n ih =>
    have hq := next_quiet (h := h) hs
    rw [run_next (i := (s.next h).1) (s' := (s.next h).2.1) (h' := (s.next h).2.2) rfl]
    have := ih (s := (s.next h).2.1) (h := (s.next h).2.2) hq.2.1
    refine ⟨this.1.trans hq.1, ?_, this.2.2⟩
    simp only
    rw [blocksGot_other hq.2.2]
    exact this.2.1

/-- However a stream is read, the blocks it gives are the first of those it should give. -/
theorem run_prefix {c : Conn} {idx : Nat} {skip : Bool} {h : Handle} (n : Nat) :
    blocksGot (run n (reading c idx skip) h).1 <+: wantedFrom skip idx c.incoming := by
  induction n generalizing c idx h with
  | zero => simp [run, blocksGot]
  | succ n ih =>
    generalize he : (reading c idx skip).read h = x
    obtain ⟨i, s', h'⟩ := x
    rw [run_next (i := i) (s' := s') (h' := h') (by rw [next_reading]; exact he)]
    simp only
    have quiet : (∀ b, i ≠ .block b) → (s'.inner.conn = none ∨ s'.state = .finished ∨ s'.state = .error) →
        blocksGot (i :: (run n s' h').1) <+: wantedFrom skip idx c.incoming := by
      intro h1 h2
      have h3 := (run_quiet (h := h') h2 n).2.1
      rw [blocksGot_other h1, h3]
      exact List.nil_prefix
    cases read_any he with
    | goesOn pre c' idx' h1 h2 h3 =>
      rw [h3]
      have := ih (c := c') (idx := idx') (h := h)
      cases i with
      | block b =>
        have h4 : blocksGot (.block b :: (run n (reading c' idx' skip) h).1) = b :: blocksGot (run n (reading c' idx' skip) h).1 := rfl
        simp only
        rw [h4]
        simpa using this
      | _ => exact this
    | breaks _ h1 h2 => exact quiet h1 (.inr (.inr h2))
    | fails _ h1 h2 => exact quiet h1 (.inr (.inl h2))
    | loses _ h1 h2 h3 => exact quiet h1 (.inl h3)
    | ends _ _ pre rest h1 h2 h3 h4 h5 => exact quiet h1 (.inl h2)

theorem run_tidy {s : BStream} {h : Handle} (hs : StreamTidy I s) (ht : TidyH I h) (n : Nat) :
    StreamTidy I (run n s h).2.1 ∧ TidyH I (run n s h).2.2 ∧ (run n s h).2.2.context = h.context := by
  induction n generalizing s h with
  | zero => exact ⟨hs, ht, rfl⟩
  | succ n ih =>
    rcases hs with ⟨c, idx, skip, rfl, he, ho⟩ | hs
    · generalize hx : (reading c idx skip).read h = x
      obtain ⟨i, s', h'⟩ := x
      rw [run_next (i := i) (s' := s') (h' := h') (by rw [next_reading]; exact hx)]
      simp only
      cases read_any hx with
      | goesOn pre c' idx' h1 h2 h3 => exact ih (.inl ⟨c', idx', skip, rfl, (h1 ▸ he).tail, h2 ▸ ho⟩) ht
      | breaks _ h1 h2 => exact ih (.inr (.inr (.inr h2))) ht
      | fails _ h1 h2 => exact ih (.inr (.inr (.inl h2))) ht
      | loses _ h1 h2 h3 => exact ih (.inr (.inl h3)) ht
      | ends _ _ pre rest h1 h2 h3 h4 h5 =>
        have := ih (s := s') (h := h') (.inr (.inl h2)) (by
          intro c' hc'
          rw [h5] at hc'
          simp only [Option.some.injEq] at hc'
          subst hc'
          have : rest = [] := he pre .eof rest h4 .eof
          subst this
          exact ⟨fun _ => rfl, ends_nil, ho⟩)
        exact ⟨this.1, this.2.1, this.2.2.trans h3⟩
    · have := run_quiet (h := h) hs (n + 1)
      rw [this.1]
      exact ⟨.inr this.2.2, ht, rfl⟩

theorem drop_tidy {s : BStream} {h h' : Handle} (hs : StreamTidy I s) (ht : TidyH I h) (e : s.drop h = some h') :
    TidyH I h' ∧ h'.context = h.context := by
  unfold BStream.drop at e
  split at e
  · next hr =>
    split at e
    · simp at e
    · next b hb =>
      split at e
      · next c hc =>
        simp only [Option.some.injEq] at e
        subst e
        refine ⟨?_, rfl⟩
        intro c' hc'
        simp only [Option.some.injEq] at hc'
        subst hc'
        rcases hs with ⟨c1, idx, skip, rfl, he, ho⟩ | hs | hs | hs
        · simp only [reading, Option.some.injEq] at hc
          subst hc
          exact ⟨by simp, he, ho⟩
        · rw [hs] at hc; simp at hc
        · rw [hs] at hr; simp at hr
        · rw [hs] at hr; simp at hr
      · simp only [Option.some.injEq] at e
        subst e
        exact ⟨ht, rfl⟩
  · simp only [Option.some.injEq] at e
    subst e
    exact ⟨ht, rfl⟩

theorem openStream_spec {h h' : Handle} {q : Query} {skip : Bool} {w w' : World} {r : OpRes BStream} (ht : TidyH I h)
    (hw : FreshWorld I w) (hp : h.context.options.pingBeforeQuery = true) (e : h.openStream q skip w = (r, h', w')) :
    h'.context = h.context ∧ TidyH I h' ∧ ∀ s, r = .ok s →
      ∃ c, s = reading c 0 skip ∧ Orderly I c.server ∧ c.incoming = c.server c.sent ∧
        ∃ old, c.sent = old ++ [.sendQuery q h.context] := by
  unfold Handle.openStream at e
  generalize hx : h.precheck w = x at e
  obtain ⟨r1, g, w1⟩ := x
  have hs := precheck_spec ht hw hx
  cases r1 with
  | ok _ =>
    simp only at e
    obtain ⟨c, hc, hi⟩ := hs.2.2.1 hp rfl
    split at e
    · simp only [Prod.mk.injEq] at e
      obtain ⟨rfl, rfl, rfl⟩ := e
      exact ⟨hs.1, hs.2.1, by simp⟩
    · rw [hc] at e
      simp only [Prod.mk.injEq] at e
      obtain ⟨rfl, rfl, rfl⟩ := e
      refine ⟨hs.1, fun c hc => by simp at hc, ?_⟩
      intro s h1
      simp only [OpRes.ok.injEq] at h1
      subst h1
      refine ⟨{ c with incoming := c.incoming ++ c.server (c.sent ++ [.sendQuery q g.context]), sent := c.sent ++ [.sendQuery q g.context] },
        rfl, hi.2.2, ?_, c.sent, ?_⟩
      · simp [hi.1]
      · simp [hs.1]
  | _ =>
    simp only [Prod.mk.injEq] at e
    obtain ⟨rfl, rfl, rfl⟩ := e
    exact ⟨hs.1, hs.2.1, by simp⟩

theorem session_tidy {numeric : Char → Bool} {cast : Block → Block → Out Block} {h : Handle} (hs : Session I numeric cast h) :
    TidyH I h ∧ h.context.options.pingBeforeQuery = true := by
  induction hs with
  | start hf hp => exact ⟨IdleH.tidy ⟨_, rfl, hf⟩, hp⟩
  | ping _ ih => exact ⟨ping_tidy ih.1, by rw [ping_context.1]; exact ih.2⟩
  | execute _ hw ih => exact ⟨(execute_spec ih.1 hw).2, by rw [(execute_spec ih.1 hw).1]; exact ih.2⟩
  | insert _ hw hm hq ih => exact ⟨(insert_spec ih.1 hw hm hq).2, by rw [(insert_spec ih.1 hw hm hq).1]; exact ih.2⟩
  | query _ hw ho hd ih =>
    have h1 := openStream_spec ih.1 hw ih.2 ho
    obtain ⟨c, rfl, h2, h3, old, h4⟩ := h1.2.2 _ rfl
    have h7 : ∀ skip, StreamTidy I (reading c 0 skip) := fun skip => .inl ⟨c, 0, skip, rfl, h3 ▸ h2.ends _, h2⟩
    have h5 := fun skip => run_tidy (h7 skip) h1.2.1
    have h6 := drop_tidy (h5 _ _).1 (h5 _ _).2.1 hd
    exact ⟨h6.1, by rw [h6.2, (h5 _ _).2.2, h1.1]; exact ih.2⟩
  | badQuery _ hw ho hn ih =>
    have h1 := openStream_spec ih.1 hw ih.2 ho
    exact ⟨h1.2.1, by rw [h1.1]; exact ih.2⟩

end CH
