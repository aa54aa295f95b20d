import Verif.Spec.Socket
import Verif.Lemmas.Client
import Verif.Props.Refine

/-!
Every operation over the socket gives what the operation of `Model/Client` gives.
-/

namespace CH.Socket
open CH CH.Spec

/-- Related results. -/
inductive SameRes {α β : Type} (R : α → β → Prop) : OpRes α → OpRes β → Prop where
  | ok {a b} (h : R a b) : SameRes R (.ok a) (.ok b)
  | err {e} : SameRes R (.err e) (.err e)
  | panic : SameRes R .panic .panic

/-- Related ends of loops. -/
inductive SameEnd {α β : Type} (R : α → β → Prop) : LoopEnd α → LoopEnd β → Prop where
  | fell {a b} (h : R a b) : SameEnd R (.fell a) (.fell b)
  | failed {e} : SameEnd R (.failed e) (.failed e)

/-- Related results of a loop's body. -/
inductive SameStep {α β : Type} (R : α → β → Prop) : α ⊕ OpErr → β ⊕ OpErr → Prop where
  | go {a b} (h : R a b) : SameStep R (.inl a) (.inl b)
  | stop {e} : SameStep R (.inr e) (.inr e)

/-- Related bodies: related connections are treated alike. -/
structure SameBody {κ κ' σ τ : Type} (K : κ → κ' → Prop) (R : σ → τ → Prop) (f : σ → Except Err (Packet × Option κ) → σ ⊕ OpErr)
    (g : τ → Except Err (Packet × Option κ') → τ ⊕ OpErr) : Prop where
  item : ∀ {v u} p {o o'}, R v u → Both K o o' → SameStep R (f v (.ok (p, o))) (g u (.ok (p, o')))
  error : ∀ {v u} e, R v u → SameStep R (f v (.error e)) (g u (.error e))

section
variable {κ κ' : Type} {K : κ → κ' → Prop}

theorem same_clear : SameBody K (Both K) clearBody clearBody where
  item p _ _ hv ho := by cases p <;> simp only [clearBody] <;> first | exact .stop | exact .go ho | exact .go hv
  error e _ := .stop

theorem same_execute : SameBody K (Both K) executeBody executeBody where
  item p _ _ hv ho := by cases p <;> simp only [executeBody] <;> first | exact .stop | exact .go ho | exact .go hv
  error e _ := .stop

theorem same_ping : SameBody K (Both K) pingBody pingBody where
  item p _ _ hv ho := by cases p <;> simp only [pingBody] <;> first | exact .stop | exact .go ho | exact .go hv
  error e _ := .stop

/-- The loop variables of `read_block`. -/
def BlockVars (K : κ → κ' → Prop) (v : Option κ × Option Block) (u : Option κ' × Option Block) : Prop := Both K v.1 u.1 ∧ v.2 = u.2

theorem same_readBlock : SameBody K (BlockVars K) readBlockBody readBlockBody where
  item p _ _ hv ho := by
    cases p <;> simp only [readBlockBody] <;> first | exact .stop | exact .go hv | exact .go ⟨ho, hv.2⟩ | exact .go ⟨hv.1, rfl⟩
  error e _ := .stop

end

/-! ### Awaiting a packet -/

theorem plain {env : Env} {s s' : PStream} {revs left : List ReadEv} {w w' : Writer} {r : PPoll} (h : AwaitsS env s revs w r s' left w') :
    Awaits env s revs w.evs r s' left w'.evs := by
  induction h with
  | ready h hr => exact .ready h hr
  | again h _ ih => exact .again h ih

theorem awaits_plain {env : Env} {s s' : PStream} {revs left : List ReadEv} {wevs wleft : List WriteEv} {r : PPoll}
    (h : Awaits env s revs wevs r s' left wleft) : ∀ out, ∃ out', AwaitsS env s revs ⟨wevs, out⟩ r s' left ⟨wleft, out'⟩ := by
  induction h with
  | ready h hr => exact fun out => ⟨_, AwaitsS.ready (w := ⟨_, out⟩) h hr⟩
  | @again _ _ _ _ _ _ _ _ _ _ o h _ ih =>
    intro out
    obtain ⟨out', hi⟩ := ih (out ++ o)
    exact ⟨out', .again (w := ⟨_, out⟩) h hi⟩

/-- What is still to be sent. -/
def owed (env : Env) (t : Transport) : Bytes := t.wr ++ cmdBytes env.codec t.cmds

/-- The bytes taken and those still to be sent stay the same together, wherever the connection goes. -/
theorem poll_owed {env : Env} {s s' : PStream} {r : PPoll} {out : Bytes} {revs left : List ReadEv} {wevs wleft : List WriteEv}
    {t : Transport} (hi : s.inner = some t) (h : s.pollNext env revs wevs = (r, out, s', left, wleft)) :
    (∀ t', s'.inner = some t' → out ++ owed env t' = owed env t) ∧ (∀ p t', r = .item p (some t') → out ++ owed env t' = owed env t) := by
  have hrec : ∀ {s s' : PStream} {t : Transport} {r : PPoll} {left : List ReadEv}, s.inner = some t → s.receive env revs = (r, s', left) →
      (∀ t', s'.inner = some t' → owed env t' = owed env t) ∧ (∀ p t', r = .item p (some t') → owed env t' = owed env t) := by
    intro s s' t r left hi h
    obtain ⟨used, t', _, _, h3, h4, _, _, h7⟩ := receive_spec hi h
    have ho : owed env t' = owed env t := by rw [owed, owed, h3, h4]
    rcases h7 with ⟨i1, i2, _⟩ | ⟨i1, _, p, i2, _⟩
    · refine ⟨fun t1 h1 => (by rw [i1] at h1; cases h1; exact ho), fun p t1 hr => by rw [hr] at i2; cases i2⟩
    · refine ⟨fun t1 h1 => (by rw [i1] at h1; cases h1), fun p1 t1 hr => by rw [hr] at i2; cases i2; exact ho⟩
  obtain ⟨inner, st, b⟩ := s
  simp only at hi
  subst hi
  cases st with
  | ask =>
    simp only [PStream.pollNext] at h
    generalize hs : t.send env.codec wevs = q at h
    obtain ⟨u, o, t1, w1⟩ := q
    have hsp : o ++ owed env t1 = owed env t := by
      have := (send_spec hs).1
      rw [List.append_assoc] at this
      exact this
    cases u with
    | sent =>
      simp only at h
      generalize hr : PStream.receive env ⟨some t1, .receive, b⟩ revs = q at h
      obtain ⟨r1, s1, l1⟩ := q
      simp only [Prod.mk.injEq] at h
      obtain ⟨rfl, rfl, rfl, -, rfl⟩ := h
      obtain ⟨r1, r2⟩ := hrec rfl hr
      exact ⟨fun t' ht => by rw [r1 t' ht, hsp], fun p t' ht => by rw [r2 p t' ht, hsp]⟩
    | _ =>
      simp only [Prod.mk.injEq] at h
      obtain ⟨rfl, rfl, rfl, -, rfl⟩ := h
      exact ⟨fun t' ht => by cases ht; exact hsp, nofun⟩
  | done =>
    simp only [PStream.pollNext, PStream.finish, Prod.mk.injEq] at h
    obtain ⟨rfl, rfl, rfl, -, rfl⟩ := h
    refine ⟨nofun, fun p t1 hr => ?_⟩
    simp only [PPoll.item.injEq, Option.some.injEq] at hr
    rw [hr.2]; rfl
  | receive =>
    simp only [PStream.pollNext] at h
    generalize hr : PStream.receive env ⟨some t, .receive, b⟩ revs = q at h
    obtain ⟨r1, s1, l1⟩ := q
    simp only [Prod.mk.injEq] at h
    obtain ⟨rfl, rfl, rfl, -, rfl⟩ := h
    exact hrec rfl hr
  | yield =>
    simp only [PStream.pollNext] at h
    generalize hr : PStream.receive env ⟨some t, .yield, b⟩ revs = q at h
    obtain ⟨r1, s1, l1⟩ := q
    simp only [Prod.mk.injEq] at h
    obtain ⟨rfl, rfl, rfl, -, rfl⟩ := h
    exact hrec rfl hr

theorem poll_none {env : Env} {s s' : PStream} {r : PPoll} {out : Bytes} {revs left : List ReadEv} {wevs wleft : List WriteEv}
    (hi : s.inner = none) (h : s.pollNext env revs wevs = (r, out, s', left, wleft)) : s'.inner = none ∧ r = .ended ∧ out = [] := by
  obtain ⟨inner, st, b⟩ := s
  simp only at hi
  subst hi
  rw [PStream.pollNext] at h
  cases st <;> simp [PStream.receive, PStream.finish] at h <;> exact ⟨by rw [← h.2.2.1], h.1.symm, h.2.1⟩

theorem poll_pending_inner {env : Env} {s s' : PStream} {out : Bytes} {revs left : List ReadEv} {wevs wleft : List WriteEv} {t : Transport}
    (hi : s.inner = some t) (h : s.pollNext env revs wevs = (.pending, out, s', left, wleft)) : ∃ t', s'.inner = some t' := by
  have hrec : ∀ {s s' : PStream} {t : Transport} {left : List ReadEv}, s.inner = some t → s.receive env revs = (.pending, s', left) →
      ∃ t', s'.inner = some t' := by
    intro s s' t left hi h
    obtain ⟨used, t', _, _, h3, h4, _, _, h7⟩ := receive_spec hi h
    rcases h7 with ⟨i1, i2, _⟩ | ⟨i1, _, p, i2, _⟩
    · exact ⟨t', i1⟩
    · cases i2
  obtain ⟨inner, st, b⟩ := s
  simp only at hi
  subst hi
  cases st with
  | ask =>
    simp only [PStream.pollNext] at h
    generalize hs : t.send env.codec wevs = q at h
    obtain ⟨u, o, t1, w1⟩ := q
    cases u with
    | sent =>
      simp only at h
      generalize hr : PStream.receive env ⟨some t1, .receive, b⟩ revs = q at h
      obtain ⟨r1, s1, l1⟩ := q
      simp only [Prod.mk.injEq] at h
      obtain ⟨rfl, rfl, rfl, -, rfl⟩ := h
      exact hrec rfl hr
    | pending =>
      simp only [Prod.mk.injEq] at h
      obtain ⟨-, -, rfl, -, -⟩ := h
      exact ⟨_, rfl⟩
    | _ => simp at h
  | done => simp [PStream.pollNext, PStream.finish] at h
  | receive =>
    simp only [PStream.pollNext] at h
    generalize hr : PStream.receive env ⟨some t, .receive, b⟩ revs = q at h
    obtain ⟨r1, s1, l1⟩ := q
    simp only [Prod.mk.injEq] at h
    obtain ⟨rfl, rfl, rfl, -, rfl⟩ := h
    exact hrec rfl hr
  | yield =>
    simp only [PStream.pollNext] at h
    generalize hr : PStream.receive env ⟨some t, .yield, b⟩ revs = q at h
    obtain ⟨r1, s1, l1⟩ := q
    simp only [Prod.mk.injEq] at h
    obtain ⟨rfl, rfl, rfl, -, rfl⟩ := h
    exact hrec rfl hr

theorem await_owed {env : Env} {s s' : PStream} {revs left : List ReadEv} {w w' : Writer} {r : PPoll} (h : AwaitsS env s revs w r s' left w') :
    ∀ {t}, s.inner = some t → (∀ t', s'.inner = some t' → w'.out ++ owed env t' = w.out ++ owed env t) ∧
      (∀ p t', r = .item p (some t') → w'.out ++ owed env t' = w.out ++ owed env t) := by
  induction h with
  | ready h hr =>
    intro t hi
    obtain ⟨h1, h2⟩ := poll_owed hi h
    exact ⟨fun t' ht => by rw [← h1 t' ht, List.append_assoc], fun p t' ht => by rw [← h2 p t' ht, List.append_assoc]⟩
  | again h _ ih =>
    intro t hi
    obtain ⟨t1, hi1⟩ := poll_pending_inner hi h
    have e := (poll_owed hi h).1 t1 hi1
    obtain ⟨h1, h2⟩ := ih hi1
    exact ⟨fun t' ht => by rw [h1 t' ht, ← e, List.append_assoc], fun p t' ht => by rw [h2 p t' ht, ← e, List.append_assoc]⟩

theorem await_none {env : Env} {s s' : PStream} {revs left : List ReadEv} {w w' : Writer} {r : PPoll} (h : AwaitsS env s revs w r s' left w')
    (hi : s.inner = none) : s'.inner = none ∧ r = .ended := by
  induction h with
  | ready h hr => exact ⟨(poll_none hi h).1, (poll_none hi h).2.1⟩
  | again h _ ih => exact absurd (poll_none hi h).2.1 (by intro x; cases x)

/-- The connection in a stream says nothing more upon commands, and what its socket has taken and what is still to be sent are the
commands sent. -/
structure Mute (env : Env) (s : PStream) (w : Writer) (cs : CStream) : Prop where
  mute : ∀ c, cs.conn = some c → ∀ log, c.server log = []
  told : ∀ t c, s.inner = some t → cs.conn = some c → w.out ++ owed env t = cmdBytes env.codec c.sent

/-- The same for a connection handed out. -/
def MuteConn (env : Env) (w : Writer) (t : Transport) (c : Conn) : Prop :=
  (∀ log, c.server log = []) ∧ w.out ++ owed env t = cmdBytes env.codec c.sent

theorem next_conn {cs : CStream} : (∀ c, cs.next.2.conn = some c → ∃ d, cs.conn = some d ∧ c.server = d.server ∧ c.sent = d.sent) ∧
    ∀ p c, cs.next.1 = .item p (some c) → ∃ d, cs.conn = some d ∧ c.server = d.server ∧ c.sent = d.sent := by
  obtain ⟨conn, fin, rb⟩ := cs
  cases conn with
  | none => rw [next_none]; exact ⟨nofun, nofun⟩
  | some c =>
    cases fin with
    | true =>
      rw [next_finished]
      exact ⟨nofun, by intro p c' x; cases x; exact ⟨_, rfl, rfl, rfl⟩⟩
    | false =>
      cases hi : c.incoming with
      | nil => rw [next_nil hi]; exact ⟨by intro d x; cases x; exact ⟨_, rfl, rfl, rfl⟩, by intro _ _ x; cases x⟩
      | cons x rest =>
        cases x with
        | packet p =>
          cases hp : p.takesConn with
          | true => rw [next_taken hi hp]; exact ⟨(by intro _ x; cases x), by intro p c' x; cases x; exact ⟨_, rfl, rfl, rfl⟩⟩
          | false => rw [next_packet hi hp]; exact ⟨by intro _ x; cases x; exact ⟨_, rfl, rfl, rfl⟩, by intro p c' x; cases x⟩
        | error e => rw [next_err hi]; exact ⟨by intro _ x; cases x; exact ⟨_, rfl, rfl, rfl⟩, by intro p c' x; cases x⟩
        | closed => rw [next_closed hi]; exact ⟨by intro _ x; cases x; exact ⟨_, rfl, rfl, rfl⟩, by intro p c' x; cases x⟩

theorem mute_next {env : Env} {s s' : PStream} {revs left : List ReadEv} {w w' : Writer} {r : PPoll} {cs : CStream} (h : Mute env s w cs)
    (ha : AwaitsS env s revs w r s' left w') :
    Mute env s' w' cs.next.2 ∧ ∀ p t p' c, r = .item p (some t) → cs.next.1 = .item p' (some c) → MuteConn env w' t c := by
  obtain ⟨n1, n2⟩ := next_conn (cs := cs)
  cases hi : s.inner with
  | none =>
    obtain ⟨h1, rfl⟩ := await_none ha hi
    refine ⟨⟨?_, fun t c ht => by rw [h1] at ht; cases ht⟩, fun _ _ _ _ x => by cases x⟩
    intro c hc
    obtain ⟨d, hd, e1, e2⟩ := n1 c hc
    rw [e1]; exact h.mute d hd
  | some t0 =>
    obtain ⟨h1, h2⟩ := await_owed ha hi
    refine ⟨⟨?_, ?_⟩, ?_⟩
    · intro c hc
      obtain ⟨d, hd, e1, e2⟩ := n1 c hc
      rw [e1]; exact h.mute d hd
    · intro t c ht hc
      obtain ⟨d, hd, e1, e2⟩ := n1 c hc
      rw [e2, h1 t ht]; exact h.told t0 d hi hd
    · intro p t p' c hr hc
      obtain ⟨d, hd, e1, e2⟩ := n2 p' c hc
      refine ⟨by rw [e1]; exact h.mute d hd, ?_⟩
      rw [e2, h2 p t hr]; exact h.told t0 d hi hd

/-- A connection bound to a packet. -/
theorem agree_conn {env : Env} {left : List ReadEv} {wleft : Writer} {p p' : Packet} {t : Option Transport} {c : Option Conn}
    (h : Agree env left (.item p t) (.item p' c)) (hl : Lasting left) (hw : LastingW wleft.evs)
    (hm : ∀ t' c', t = some t' → c = some c' → MuteConn env wleft t' c') : p = p' ∧ Both (IsConn env) (t.map (Sock.mk · left wleft)) c := by
  cases h with
  | packet => exact ⟨rfl, .none⟩
  | last h he =>
    obtain ⟨h1, h2⟩ := hm _ _ rfl rfl
    exact ⟨rfl, .some ⟨h, he, h1, hl, hw, by rw [List.append_assoc]; exact h2⟩⟩

theorem loop_same {env : Env} {σ τ : Type} {R : σ → τ → Prop} {f : σ → Except Err (Packet × Option Sock) → σ ⊕ OpErr}
    {g : τ → Except Err (Packet × Option Conn) → τ ⊕ OpErr} (hb : SameBody (IsConn env) R f g) {v : σ} {u : τ} {s : PStream}
    {cs : CStream} {revs : List ReadEv} {wevs : Writer} {r : LoopEnd σ} (h : LoopS env f v s revs wevs r)
    (ht : Tracks env revs s cs) (hl : Lasting revs) (hw : LastingW wevs.evs) (hm : Mute env s wevs cs) (hv : R v u) :
    SameEnd R r (cs.loop g u) := by
  induction h generalizing u cs with
  | ended ha =>
    obtain ⟨g1, -, -, -⟩ := Props.C70_next env _ _ cs _ _ _ _ _ ht hl hw (plain ha)
    cases hn : cs.next with
    | mk x cs' =>
      rw [hn] at g1
      cases g1
      rw [loop_ended hn]
      exact .fell hv
  | item ha hf _ ih =>
    obtain ⟨g1, g2, g3, g4⟩ := Props.C70_next env _ _ cs _ _ _ _ _ ht hl hw (plain ha)
    obtain ⟨m1, m2⟩ := mute_next hm ha
    cases hn : cs.next with
    | mk x cs' =>
      rw [hn] at g1 g2 m1 m2
      cases x with
      | item p c =>
        obtain ⟨hpp, ho⟩ := agree_conn g1 g3 g4 (fun t' c' ht hc => m2 _ t' _ c' (by rw [ht]) (by rw [hc]))
        rw [hpp] at hf
        rw [loop_item hn]
        have := hb.item p hv ho
        rw [hf] at this
        cases hg : g u (.ok (p, c)) <;> rw [hg] at this <;> cases this
        exact ih g2 g3 g4 m1 (by assumption)
      | _ => cases g1
  | itemStop ha hf =>
    obtain ⟨g1, g2, g3, g4⟩ := Props.C70_next env _ _ cs _ _ _ _ _ ht hl hw (plain ha)
    obtain ⟨m1, m2⟩ := mute_next hm ha
    cases hn : cs.next with
    | mk x cs' =>
      rw [hn] at g1 g2 m1 m2
      cases x with
      | item p c =>
        obtain ⟨hpp, ho⟩ := agree_conn g1 g3 g4 (fun t' c' ht hc => m2 _ t' _ c' (by rw [ht]) (by rw [hc]))
        rw [hpp] at hf
        rw [loop_item hn]
        have := hb.item p hv ho
        rw [hf] at this
        cases hg : g u (.ok (p, c)) <;> rw [hg] at this <;> cases this
        exact .failed
      | _ => cases g1
  | @bad _ _ _ _ _ _ _ _ e _ ha hf _ ih =>
    obtain ⟨g1, g2, g3, g4⟩ := Props.C70_next env _ _ cs _ _ _ _ _ ht hl hw (plain ha)
    obtain ⟨m1, m2⟩ := mute_next hm ha
    cases hn : cs.next with
    | mk x cs' =>
      rw [hn] at g1 g2 m1 m2
      cases g1
      rw [loop_error hn]
      have := hb.error e hv
      rw [hf] at this
      cases hg : g u (.error e) <;> rw [hg] at this <;> cases this
      exact ih g2 g3 g4 m1 (by assumption)
  | @badStop _ _ _ _ _ _ _ e _ ha hf =>
    obtain ⟨g1, g2, g3, g4⟩ := Props.C70_next env _ _ cs _ _ _ _ _ ht hl hw (plain ha)
    cases hn : cs.next with
    | mk x cs' =>
      rw [hn] at g1
      cases g1
      rw [loop_error hn]
      have := hb.error e hv
      rw [hf] at this
      cases hg : g u (.error e) <;> rw [hg] at this <;> cases this
      exact .failed
  | broken e ha _ _ _ =>
    obtain ⟨g1, -, -, -⟩ := Props.C70_next env _ _ cs _ _ _ _ _ ht hl hw (plain ha)
    cases hn : cs.next with
    | mk x cs' => rw [hn] at g1; cases g1
  | brokenStop e ha _ =>
    obtain ⟨g1, -, -, -⟩ := Props.C70_next env _ _ cs _ _ _ _ _ ht hl hw (plain ha)
    cases hn : cs.next with
    | mk x cs' => rw [hn] at g1; cases g1

/-- One result after another. -/
def andThen {α β : Type} (x : OpRes α) (f : α → OpRes β) : OpRes β :=
  match x with
  | .ok a => f a
  | .err e => .err e
  | .panic => .panic
  | .waits => .waits

theorem then_same {α α' β β' : Type} {R : α → α' → Prop} {S : β → β' → Prop} {P : OpRes α → Prop} {Q : α → OpRes β → Prop} {x : OpRes α'}
    {f : α' → OpRes β'} (h1 : ∀ r, P r → SameRes R r x) (h2 : ∀ a b r, R a b → Q a r → SameRes S r (f b)) {r : OpRes β}
    (h : Then P Q r) : SameRes S r (andThen x f) := by
  cases h with
  | ok h hq =>
    have := h1 _ h
    cases this with
    | ok hr => exact h2 _ _ _ hr hq
  | err h =>
    have := h1 _ h
    cases this with
    | err => exact .err
  | panic h =>
    have := h1 _ h
    cases this with
    | panic => exact .panic

/-- `unwrap()` after a loop. -/
def unwrapEnd {κ : Type} : LoopEnd (Option κ) → OpRes κ
  | .fell (some c) => .ok c
  | .fell none => .panic
  | .failed e => .err e
  | .waits => .waits

theorem unwrap_same {κ κ' : Type} {K : κ → κ' → Prop} {P : LoopEnd (Option κ) → Prop} {x : LoopEnd (Option κ')}
    (h1 : ∀ r, P r → SameEnd (Both K) r x) {r : OpRes κ} (h : Unwrap P r) : SameRes K r (unwrapEnd x) := by
  cases h with
  | some h =>
    have := h1 _ h
    cases this with
    | fell hb => cases hb with
      | some hk => exact .ok hk
  | none h =>
    have := h1 _ h
    cases this with
    | fell hb => cases hb; exact .panic
  | failed h =>
    have := h1 _ h
    cases this
    exact .err

theorem call_tracks {env : Env} {k : Sock} {c : Conn} {cmd : Cmd} (h : IsConn env k c) (hc : ∃ b, cmd.encode env.codec = .ok b) :
    Tracks env k.revs (k.t.call cmd) (c.call cmd) ∧ Mute env (k.t.call cmd) k.writer (c.call cmd) := by
  obtain ⟨xs, i, rest, hx, hd, hm⟩ := h.carries.coming
  constructor
  · have := Props.C70_call env k.t c cmd k.revs [] h.encodable hc h.carries.opened h.carries.marked xs [] i i rest rest hx hd
      (by rw [h.mute]; rfl) (by simpa [received] using Decodes.done) hm
    simpa using this
  · refine ⟨fun c' e log => ?_, fun t' c' e1 e2 => ?_⟩
    · simp only [Conn.call, Option.some.injEq] at e
      subst e
      exact h.mute log
    · simp only [Conn.call, Option.some.injEq] at e2
      simp only [Transport.call, Option.some.injEq] at e1
      subst e1 e2
      simp only [owed, cmdBytes_append, ← h.written, List.append_assoc]

theorem query_encodes (env : Env) (q : Query) (ctx : Context) : ∃ b, (Cmd.sendQuery q ctx).encode env.codec = .ok b := by
  simp only [Cmd.encode, encodeQuery]
  cases hc : ctx.options.compression <;> exact ⟨_, rfl⟩

theorem clear_eq (c : Conn) : c.clear = if c.inconsistent then
    andThen (unwrapEnd ((c.call .cancel).loop clearBody none)) fun c => .ok { c with inconsistent := false }
    else .ok c := by
  rw [Conn.clear]
  cases c.inconsistent with
  | false => rfl
  | true =>
    simp only [Bool.not_true, Bool.false_eq_true, if_false, if_true]
    cases (c.call .cancel).loop clearBody none with
    | fell v => cases v <;> rfl
    | failed e => rfl
    | waits => rfl

theorem clear_same {env : Env} {k : Sock} {c : Conn} {r : OpRes Sock} (h : IsConn env k c) (hr : ClearS env k r) :
    SameRes (IsConn env) r c.clear := by
  rw [clear_eq, h.carries.marked]
  rw [ClearS] at hr
  split at hr
  · next hi =>
    rw [if_pos hi]
    obtain ⟨ht, hm⟩ := call_tracks (cmd := .cancel) h ⟨_, rfl⟩
    refine then_same (R := IsConn env) (fun r hr => unwrap_same (fun r hr => loop_same same_clear hr ht h.reads h.writes hm .none) hr) ?_ hr
    rintro a b r ⟨⟨o, mk, cm⟩, en, mu, re, wr, wn⟩ rfl
    exact .ok ⟨⟨o, rfl, cm⟩, en, mu, re, wr, wn⟩
  · next hi =>
    rw [if_neg hi, hr]
    exact .ok h

theorem execute_eq (c : Conn) (q : Query) (ctx : Context) : c.execute q ctx =
    andThen c.clear fun c => unwrapEnd ((c.call (.sendQuery q ctx)).loop executeBody none) := by
  rw [Conn.execute]
  cases c.clear with
  | ok c =>
    simp only [andThen]
    cases (c.call (.sendQuery q ctx)).loop executeBody none with
    | fell v => cases v <;> rfl
    | failed e => rfl
    | waits => rfl
  | _ => rfl

theorem execute_same {env : Env} {k : Sock} {c : Conn} {r : OpRes Sock} {q : Query} {ctx : Context} (h : IsConn env k c)
    (hr : ExecuteS env k q ctx r) : SameRes (IsConn env) r (c.execute q ctx) := by
  rw [execute_eq]
  refine then_same (R := IsConn env) (fun r hr => clear_same h hr) ?_ hr
  intro a b r hab hr
  obtain ⟨ht, hm⟩ := call_tracks (cmd := .sendQuery q ctx) hab (query_encodes env q ctx)
  exact unwrap_same (fun r hr => loop_same same_execute hr ht hab.reads hab.writes hm .none) hr

/-- A connection with the block read. -/
def WithBlock (env : Env) {α : Type} (x : Sock × α) (y : Conn × α) : Prop := IsConn env x.1 y.1 ∧ x.2 = y.2

theorem tracks_readBlock {env : Env} {revs : List ReadEv} {s : PStream} {cs : CStream} (h : Tracks env revs s cs) :
    Tracks env revs { s with readBlock := true } { cs with readBlock := true } := by
  cases h with
  | gone => exact .gone
  | has hc he hf => exact .has hc he hf

theorem readOne_same {env : Env} {k : Sock} {c : Conn} {cmd : Cmd} {r : OpRes (Sock × Option Block)} (h : IsConn env k c)
    (hc : ∃ b, cmd.encode env.codec = .ok b) (hr : ReadOneS env k cmd r) : SameRes (WithBlock env) r (c.call cmd).readOneBlock := by
  obtain ⟨ht, hm⟩ := call_tracks h hc
  have key : ∀ r, LoopS env readBlockBody (none, none) { k.t.call cmd with readBlock := true } k.revs k.writer r →
      SameEnd (BlockVars (IsConn env)) r (CStream.loop readBlockBody (none, none) { c.call cmd with readBlock := true }) := fun r hr =>
    loop_same same_readBlock hr (tracks_readBlock ht) h.reads h.writes ⟨hm.mute, hm.told⟩ ⟨.none, rfl⟩
  rw [CStream.readOneBlock]
  cases hr with
  | done h =>
    have := key _ h
    generalize CStream.loop readBlockBody (none, none) { c.call cmd with readBlock := true } = x at this
    cases this with
    | @fell _ b hb =>
      obtain ⟨b1, b2⟩ := b
      obtain ⟨h1, h2⟩ := hb
      cases h1 with
      | some hk => exact .ok ⟨hk, h2⟩
  | lost h =>
    have := key _ h
    generalize CStream.loop readBlockBody (none, none) { c.call cmd with readBlock := true } = x at this
    cases this with
    | @fell _ b hb =>
      obtain ⟨b1, b2⟩ := b
      obtain ⟨h1, h2⟩ := hb
      cases h1 with
      | none => exact .panic
  | failed h =>
    have := key _ h
    generalize CStream.loop readBlockBody (none, none) { c.call cmd with readBlock := true } = x at this
    cases this
    exact .err

theorem sendInsert_eq (c : Conn) (ctx : Context) (q : Query) : c.sendInsertQuery ctx q =
    andThen (c.call (.sendQuery q ctx)).readOneBlock fun x =>
      match x with
      | (c, some b) => .ok (c, b)
      | (_, none) => .panic := by
  rw [Conn.sendInsertQuery]
  cases (c.call (.sendQuery q ctx)).readOneBlock with
  | ok x => obtain ⟨c, b⟩ := x; cases b <;> rfl
  | _ => rfl

theorem sendInsert_same {env : Env} {k : Sock} {c : Conn} {ctx : Context} {q : Query} {r : OpRes (Sock × Block)} (h : IsConn env k c)
    (hr : SendInsertS env k ctx q r) : SameRes (WithBlock env) r (c.sendInsertQuery ctx q) := by
  rw [sendInsert_eq]
  refine then_same (R := WithBlock env) (fun r hr => readOne_same h (query_encodes env q ctx) hr) ?_ hr
  rintro ⟨a, o⟩ ⟨b, o'⟩ r ⟨hab, ho⟩ rfl
  simp only at ho
  subst ho
  cases o with
  | none => exact .panic
  | some d => exact .ok ⟨hab, rfl⟩

theorem insertBlock_eq (c : Conn) (ctx : Context) (b : Block) : c.insertBlock ctx b =
    andThen (c.call (.union (.sendData b ctx) (.sendData Block.new ctx))).readOneBlock fun x => .ok x.1 := by
  rw [Conn.insertBlock]
  cases (c.call (.union (.sendData b ctx) (.sendData Block.new ctx))).readOneBlock <;> rfl

theorem insertBlock_same {env : Env} {k : Sock} {c : Conn} {ctx : Context} {b : Block} {r : OpRes Sock} (h : IsConn env k c)
    (hb : ∃ x, (Cmd.union (.sendData b ctx) (.sendData Block.new ctx)).encode env.codec = .ok x)
    (hr : InsertBlockS env k ctx b r) : SameRes (IsConn env) r (c.insertBlock ctx b) := by
  rw [insertBlock_eq]
  refine then_same (R := WithBlock env) (fun r hr => readOne_same h hb hr) ?_ hr
  rintro ⟨a, o⟩ ⟨b, o'⟩ r ⟨hab, ho⟩ rfl
  exact .ok hab

theorem insertTail_eq (c : Conn) (ctx : Context) (q : Query) (b : Block) (bs : List Block) : c.insertTail ctx q (b :: bs) =
    andThen (c.sendInsertQuery ctx q) fun x => andThen (x.1.insertBlock ctx b) fun c => c.insertTail ctx q bs := by
  rw [Conn.insertTail]
  cases c.sendInsertQuery ctx q with
  | ok x =>
    obtain ⟨c, d⟩ := x
    simp only [andThen]
    cases c.insertBlock ctx b <;> rfl
  | _ => rfl

theorem insertTail_same {env : Env} {ctx : Context} {q : Query} (bs : List Block)
    (hb : ∀ b ∈ bs, ∃ x, (Cmd.union (.sendData b ctx) (.sendData Block.new ctx)).encode env.codec = .ok x) :
    ∀ {k : Sock} {c : Conn} {r : OpRes Sock}, IsConn env k c → InsertTailS env ctx q bs k r →
      SameRes (IsConn env) r (c.insertTail ctx q bs) := by
  induction bs with
  | nil =>
    intro k c r h hr
    rw [InsertTailS] at hr
    rw [hr, Conn.insertTail]
    exact .ok h
  | cons b bs ih =>
    intro k c r h hr
    rw [insertTail_eq]
    rw [InsertTailS] at hr
    refine then_same (R := WithBlock env) (fun r hr => sendInsert_same h hr) ?_ hr
    intro x y r hxy hr
    refine then_same (R := IsConn env) (fun r hr => insertBlock_same hxy.1 (hb b (.head _)) hr) ?_ hr
    intro x y r hxy hr
    exact ih (fun b hm => hb b (.tail _ hm)) hxy hr

theorem insert_eq (cast : Block → Block → Out Block) (c : Conn) (q : Query) (ctx : Context) (b : Block) : c.insert cast q ctx b =
    andThen c.clear fun c => andThen (c.sendInsertQuery ctx q) fun x =>
      match cast b x.2 with
      | .err e => .err (.other e)
      | .panic => .panic
      | .ok b =>
        match insertChunks b with
        | .ok (ch :: chs) => andThen (x.1.insertBlock ctx ch) fun c => c.insertTail ctx q chs
        | _ => .panic := by
  rw [Conn.insert]
  cases c.clear with
  | ok c =>
    simp only [andThen]
    cases c.sendInsertQuery ctx q with
    | ok x =>
      obtain ⟨c, d⟩ := x
      simp only
      cases cast b d with
      | ok b =>
        simp only
        cases insertChunks b with
        | ok chs =>
          cases chs with
          | nil => rfl
          | cons ch chs =>
            simp only
            cases c.insertBlock ctx ch <;> rfl
        | _ => rfl
      | _ => rfl
    | _ => rfl
  | _ => rfl

theorem insert_same {env : Env} {cast : Block → Block → Out Block} {k : Sock} {c : Conn} {ctx : Context} {q t : Query} {b : Block}
    {r : OpRes Sock} (h : IsConn env k c) (hb : DataEncodes env cast ctx (.insert t b)) (hr : InsertS env cast k q ctx b r) :
    SameRes (IsConn env) r (c.insert cast q ctx b) := by
  rw [insert_eq]
  refine then_same (R := IsConn env) (fun r hr => clear_same h hr) ?_ hr
  intro k c r hkc hr
  refine then_same (R := WithBlock env) (fun r hr => sendInsert_same hkc hr) ?_ hr
  rintro ⟨k, d⟩ ⟨c, d'⟩ r ⟨hkc, hd⟩ hr
  simp only at hd hr ⊢
  subst hd
  cases hca : cast b d with
  | err e => rw [hca] at hr; rw [show r = _ from hr]; exact .err
  | panic => rw [hca] at hr; rw [show r = _ from hr]; exact .panic
  | ok b' =>
    rw [hca] at hr
    simp only at hr ⊢
    cases hch : insertChunks b' with
    | err e => rw [hch] at hr; rw [show r = _ from hr]; exact .panic
    | panic => rw [hch] at hr; rw [show r = _ from hr]; exact .panic
    | ok chs =>
      rw [hch] at hr
      cases chs with
      | nil => rw [show r = _ from hr]; exact .panic
      | cons ch chs =>
        simp only at hr ⊢
        have he := fun ch => hb d b' _ ch hca hch
        refine then_same (R := IsConn env) (fun r hr => insertBlock_same hkc (he ch (.head _)) hr) ?_ hr
        intro x y r hxy hr
        exact insertTail_same chs (fun b hm => he b (.tail _ hm)) hxy hr

/-! ### Handles -/

/-- What an operation leaves in the handle. -/
def putC (h : Handle) : OpRes Conn → OpRes Unit × Handle
  | .ok c => (.ok (), { h with inner := some c })
  | .err e => (.err e, { h with inner := none })
  | .panic => (.panic, { h with inner := none })
  | .waits => (.waits, { h with inner := none })

theorem put_same {env : Env} {h h' : HandleS} {hc : Handle} {P : OpRes Sock → Prop} {x : OpRes Conn} {r : OpRes Unit}
    (hh : IsHandle env h hc) (h1 : ∀ r, P r → SameRes (IsConn env) r x) (hp : PutBack h P r h') :
    ∃ hc', putC hc x = (r, hc') ∧ IsHandle env h' hc' := by
  cases hp with
  | ok hp =>
    have := h1 _ hp
    cases this with
    | ok hk => exact ⟨_, rfl, .some hk, hh.context, hh.binding⟩
  | err hp =>
    have := h1 _ hp
    cases this with
    | err => exact ⟨_, rfl, .none, hh.context, hh.binding⟩
  | panic hp =>
    have := h1 _ hp
    cases this with
    | panic => exact ⟨_, rfl, .none, hh.context, hh.binding⟩

/-- The end of `ping`. -/
def pingEnd {κ : Type} : LoopEnd (Option κ) → OpRes κ
  | .fell (some c) => .ok c
  | .fell none => .err .broken
  | .failed e => .err e
  | .waits => .waits

theorem pingEnd_same {κ κ' : Type} {K : κ → κ' → Prop} {P : LoopEnd (Option κ) → Prop} {x : LoopEnd (Option κ')}
    (h1 : ∀ r, P r → SameEnd (Both K) r x) {r : OpRes κ} (h : PingEnd P r) : SameRes K r (pingEnd x) := by
  cases h with
  | some h =>
    have := h1 _ h
    cases this with
    | fell hb => cases hb with
      | some hk => exact .ok hk
  | none h =>
    have := h1 _ h
    cases this with
    | fell hb => cases hb; exact .err
  | failed h =>
    have := h1 _ h
    cases this
    exact .err

/-- `ping` of a connection. -/
def pingC (c : Conn) : OpRes Conn := andThen c.clear fun c => pingEnd ((c.call .ping).loop pingBody none)

theorem ping_eq {c : Conn} {ctx : Context} {b : Binding} (hx : pingC c ≠ .waits) :
    (Handle.mk (some c) ctx b).ping = putC ⟨some c, ctx, b⟩ (pingC c) := by
  rw [pingC] at hx ⊢
  simp only [Handle.ping]
  cases hc : c.clear with
  | ok c1 =>
    rw [hc] at hx
    simp only [andThen] at hx ⊢
    cases hl : (c1.call .ping).loop pingBody none with
    | fell v => cases v <;> rfl
    | failed e => rfl
    | waits => rw [hl] at hx; exact absurd rfl hx
  | err e => rfl
  | panic => rfl
  | waits => rw [hc] at hx; exact absurd rfl hx

theorem SameRes.not_waits {α β : Type} {R : α → β → Prop} {r : OpRes α} {x : OpRes β} (h : SameRes R r x) : x ≠ .waits := by
  cases h <;> nofun

theorem ping_same {env : Env} {h h' : HandleS} {hc : Handle} {r : OpRes Unit} (hh : IsHandle env h hc) (hp : PingS env h r h') :
    ∃ hc', hc.ping = (r, hc') ∧ IsHandle env h' hc' := by
  obtain ⟨inner, ctx, b⟩ := h
  obtain ⟨inner', ctx', b'⟩ := hc
  rw [PingS] at hp
  cases hh.inner with
  | none =>
    obtain ⟨rfl, rfl⟩ := hp
    exact ⟨_, rfl, hh⟩
  | @some k c hk =>
    have key : ∀ r, Then (ClearS env k) (fun k => PingEnd (LoopS env pingBody none (k.t.call .ping) k.revs k.writer)) r →
        SameRes (IsConn env) r (pingC c) := by
      intro r hr
      refine then_same (R := IsConn env) (fun r hr => clear_same hk hr) ?_ hr
      intro k c r hkc hr
      obtain ⟨ht, hm⟩ := call_tracks (cmd := .ping) hkc ⟨_, rfl⟩
      exact pingEnd_same (fun r hr => loop_same same_ping hr ht hkc.reads hkc.writes hm .none) hr
    obtain ⟨hc', e, hh'⟩ := put_same hh key hp
    refine ⟨hc', ?_, hh'⟩
    rw [ping_eq ?_, e]
    cases hp with
    | ok hp => exact (key _ hp).not_waits
    | err hp => exact (key _ hp).not_waits
    | panic hp => exact (key _ hp).not_waits

theorem attempt_same {env : Env} {skip : Bool} {h h' : HandleS} {hc : Handle} {r : OpRes Unit} (hh : IsHandle env h hc)
    (hp : AttemptS env skip h r h') :
    ∃ hc', (if skip then (OpRes.err OpErr.connect, hc) else hc.ping) = (r, hc') ∧ IsHandle env h' hc' := by
  rw [AttemptS] at hp
  cases skip with
  | true =>
    obtain ⟨rfl, rfl⟩ := hp
    exact ⟨hc, rfl, hh⟩
  | false => exact ping_same hh hp

theorem retry_same {env : Env} {pooled skip : Bool} {max a : Nat} {h h' : HandleS} {w w' : WorldS} {r : OpRes Unit}
    (hr : RetryS env pooled max a skip h w r h' w') : ∀ {hc : Handle} {wc : World}, IsHandle env h hc → IsWorld env w wc →
      ∃ hc' wc', retryLoop pooled max a skip hc wc = (r, hc', wc') ∧ IsHandle env h' hc' ∧ IsWorld env w' wc' := by
  induction hr with
  | ok ha =>
    intro hc wc hh hw
    obtain ⟨hc', e, hh'⟩ := attempt_same hh ha
    exact ⟨hc', wc, by rw [retryLoop_eq, e], hh', hw⟩
  | panic ha =>
    intro hc wc hh hw
    obtain ⟨hc', e, hh'⟩ := attempt_same hh ha
    exact ⟨hc', wc, by rw [retryLoop_eq, e], hh', hw⟩
  | last ha hm =>
    intro hc wc hh hw
    obtain ⟨hc', e, hh'⟩ := attempt_same hh ha
    exact ⟨hc', wc, by rw [retryLoop_eq, e]; simp [hm], hh', hw⟩
  | @refused a skip h w h' e ha hs hm =>
    intro hc wc hh hw
    obtain ⟨hc', e, hh'⟩ := attempt_same hh ha
    cases hw with
    | cons hk hw =>
      cases hk
      refine ⟨hc', _, ?_, hh', hw⟩
      have : skip = true := hs.resolve_right (by omega)
      subst this
      rw [retryLoop_eq, e]
      simp [hm]
  | @again a skip h w h' e _ _ _ ha hm _ ih =>
    intro hc wc hh hw
    obtain ⟨hc', e, hh'⟩ := attempt_same hh ha
    cases hw with
    | cons hk hw =>
      cases hk
      obtain ⟨hc2, wc2, e2, g1, g2⟩ := ih hh' hw
      refine ⟨hc2, wc2, ?_, g1, g2⟩
      rw [retryLoop_eq, e]
      have hn : ¬ max ≤ a := by omega
      simp [hn, e2]
  | @reconnected a skip h w h' e k _ _ _ ha hs _ ih =>
    intro hc wc hh hw
    obtain ⟨hc', e, hh'⟩ := attempt_same hh ha
    cases hw with
    | @cons _ _ _ u hk hw =>
      cases hk with
      | @some _ c hk =>
        obtain ⟨hc2, wc2, e2, g1, g2⟩ := ih (hc := { hc' with inner := some c, binding := if pooled then .attached else .none })
          ⟨.some hk, hh'.context, rfl⟩ hw
        refine ⟨hc2, wc2, ?_, g1, g2⟩
        rw [retryLoop_eq, e]
        have hn : (!skip && decide (max ≤ a)) = false := by
          rcases hs with hs | hs
          · simp [hs]
          · have : ¬ max ≤ a := by omega
            simp [this]
        simp [hn, e2]

theorem precheck_same {env : Env} {h h' : HandleS} {w w' : WorldS} {r : OpRes Unit} {hc : Handle} {wc : World}
    (hp : PrecheckS env h w r h' w') (hh : IsHandle env h hc) (hw : IsWorld env w wc) :
    ∃ hc' wc', hc.precheck wc = (r, hc', wc') ∧ IsHandle env h' hc' ∧ IsWorld env w' wc' := by
  rw [Handle.precheck, ← hh.context]
  cases hp with
  | off hp => exact ⟨hc, wc, by rw [hp]; rfl, hh, hw⟩
  | unbound hp hb =>
    refine ⟨{ hc with binding := .none }, wc, ?_, ⟨hh.inner, hh.context, rfl⟩, hw⟩
    rw [if_pos hp, Handle.checkConnection, ← hh.binding, hb]
  | @ok b h1 _ hp hb hr =>
    obtain ⟨hc', wc', e, g1, g2⟩ := retry_same hr (hc := { hc with binding := b }) ⟨hh.inner, hh.context, rfl⟩ hw
    refine ⟨{ hc' with binding := if hc'.binding = .detached then .attached else hc'.binding }, wc', ?_, ⟨g1.inner, g1.context, ?_⟩, g2⟩
    · rw [hh.context] at e
      rw [if_pos hp, Handle.checkConnection, ← hh.binding, hb]
      simp only [retryGuard, e]
    · rw [g1.binding]
  | @failed b _ h1 _ hp hb hn hr =>
    obtain ⟨hc', wc', e, g1, g2⟩ := retry_same hr (hc := { hc with binding := b }) ⟨hh.inner, hh.context, rfl⟩ hw
    refine ⟨hc', wc', ?_, g1, g2⟩
    rw [hh.context] at e
    rw [if_pos hp, Handle.checkConnection, ← hh.binding, hb]
    simp only [retryGuard, e]
    cases r with
    | ok u => exact absurd rfl hn
    | _ => rfl

theorem put_context {h h' : HandleS} {P : OpRes Sock → Prop} {r : OpRes Unit} (hp : PutBack h P r h') : h'.context = h.context := by
  cases hp <;> rfl

theorem ping_context {env : Env} {h h' : HandleS} {r : OpRes Unit} (hp : PingS env h r h') : h'.context = h.context := by
  rw [PingS] at hp
  split at hp
  · rw [hp.2]
  · exact put_context hp

theorem attempt_context {env : Env} {skip : Bool} {h h' : HandleS} {r : OpRes Unit} (hp : AttemptS env skip h r h') :
    h'.context = h.context := by
  rw [AttemptS] at hp
  split at hp
  · rw [hp.2]
  · exact ping_context hp

theorem retry_context {env : Env} {pooled skip : Bool} {max a : Nat} {h h' : HandleS} {w w' : WorldS} {r : OpRes Unit}
    (hr : RetryS env pooled max a skip h w r h' w') : h'.context = h.context := by
  induction hr with
  | ok ha => exact attempt_context ha
  | panic ha => exact attempt_context ha
  | last ha hm => exact attempt_context ha
  | refused ha hs hm => exact attempt_context ha
  | again ha hm _ ih => rw [ih, attempt_context ha]
  | reconnected ha hs _ ih => rw [ih, attempt_context ha]

theorem precheck_context {env : Env} {h h' : HandleS} {w w' : WorldS} {r : OpRes Unit} (hp : PrecheckS env h w r h' w') :
    h'.context = h.context := by
  cases hp with
  | off hp => rfl
  | unbound hp hb => rfl
  | ok hp hb hr => exact (retry_context hr :)
  | failed hp hb hn hr => exact (retry_context hr :)

/-- An operation with its check beforehand. -/
def checkedC (F : Conn → Context → OpRes Conn) (h : Handle) (w : World) : OpRes Unit × Handle × World :=
  match h.precheck w with
  | (.ok (), h, w) =>
    match h.inner with
    | none => (.err .broken, h, w)
    | some c => ((putC h (F c h.context)).1, (putC h (F c h.context)).2, w)
  | r => r

theorem checked_same {env : Env} {P : Sock → Context → OpRes Sock → Prop} {F : Conn → Context → OpRes Conn} {h h' : HandleS} {hc : Handle}
    {w w' : WorldS} {wc : World} {r : OpRes Unit}
    (hP : ∀ k c r, IsConn env k c → P k h.context r → SameRes (IsConn env) r (F c h.context)) (hh : IsHandle env h hc)
    (hw : IsWorld env w wc) (hr : Checked env P h w r h' w') :
    ∃ hc' wc', checkedC F hc wc = (r, hc', wc') ∧ IsHandle env h' hc' ∧ IsWorld env w' wc' := by
  cases hr with
  | failed hp hn =>
    obtain ⟨hc', wc', e, g1, g2⟩ := precheck_same hp hh hw
    refine ⟨hc', wc', ?_, g1, g2⟩
    rw [checkedC, e]
    cases r with
    | ok u => exact absurd rfl hn
    | _ => rfl
  | gone hp hi =>
    obtain ⟨hc', wc', e, g1, g2⟩ := precheck_same hp hh hw
    refine ⟨hc', wc', ?_, g1, g2⟩
    have := g1.inner
    rw [hi] at this
    rw [checkedC, e]
    simp only
    cases hin : hc'.inner with
    | none => rfl
    | some c => rw [hin] at this; cases this
  | @done h1 _ k _ _ hp hi hd =>
    obtain ⟨hc1, wc', e, g1, g2⟩ := precheck_same hp hh hw
    have hctx := precheck_context hp
    have := g1.inner
    rw [hi] at this
    cases hin : hc1.inner with
    | none => rw [hin] at this; cases this
    | some c =>
      rw [hin] at this
      cases this with
      | some hk =>
        have hcc : hc1.context = h.context := by rw [← g1.context, hctx]
        obtain ⟨hc', e', hh'⟩ := put_same (x := F c h.context) g1 (fun r hr => hP k c r hk (by rw [hctx] at hr; exact hr)) hd
        refine ⟨hc', wc', ?_, hh', g2⟩
        rw [checkedC, e]
        simp only [hin, hcc, e']

theorem execute_checked (h : Handle) (q : Query) (w : World) : h.execute q w = checkedC (fun c ctx => c.execute q ctx) h w := by
  rw [Handle.execute, checkedC]
  rcases h.precheck w with ⟨r, h, w⟩
  cases r with
  | ok u =>
    simp only
    cases h.inner with
    | none => rfl
    | some c => simp only; cases c.execute q h.context <;> rfl
  | _ => rfl

theorem handle_execute_same {env : Env} {h h' : HandleS} {hc : Handle} {w w' : WorldS} {wc : World} {q : Query} {r : OpRes Unit}
    (hh : IsHandle env h hc) (hw : IsWorld env w wc) (hr : h.execute env q w r h' w') :
    ∃ hc' wc', hc.execute q wc = (r, hc', wc') ∧ IsHandle env h' hc' ∧ IsWorld env w' wc' := by
  rw [execute_checked]
  exact checked_same (fun k c r hk hr => execute_same hk hr) hh hw hr

theorem insert_checked (numeric : Char → Bool) (cast : Block → Block → Out Block) (h : Handle) (t : Query) (b : Block) (w : World) :
    h.insert numeric cast t b w =
      match makeQuery numeric t b with
      | .err e => (.err (.other e), h, w)
      | .panic => (.panic, h, w)
      | .ok q => checkedC (fun c ctx => c.insert cast q ctx b) h w := by
  rw [Handle.insert]
  cases makeQuery numeric t b with
  | ok q =>
    simp only [checkedC]
    rcases h.precheck w with ⟨r, h, w⟩
    cases r with
    | ok u =>
      simp only
      cases h.inner with
      | none => rfl
      | some c => simp only; cases c.insert cast q h.context b <;> rfl
    | _ => rfl
  | _ => rfl

theorem handle_insert_same {env : Env} {numeric : Char → Bool} {cast : Block → Block → Out Block} {h h' : HandleS} {hc : Handle}
    {w w' : WorldS} {wc : World} {t : Query} {b : Block} {r : OpRes Unit} (hh : IsHandle env h hc) (hw : IsWorld env w wc)
    (hb : DataEncodes env cast h.context (.insert t b)) (hr : h.insert env numeric cast t b w r h' w') :
    ∃ hc' wc', hc.insert numeric cast t b wc = (r, hc', wc') ∧ IsHandle env h' hc' ∧ IsWorld env w' wc' := by
  rw [insert_checked]
  rw [HandleS.insert] at hr
  cases hq : makeQuery numeric t b with
  | ok q =>
    rw [hq] at hr
    exact checked_same (fun k c r hk hr => insert_same (t := t) hk hb hr) hh hw hr
  | err e =>
    rw [hq] at hr
    obtain ⟨rfl, rfl, rfl⟩ := hr
    exact ⟨hc, wc, rfl, hh, hw⟩
  | panic =>
    rw [hq] at hr
    obtain ⟨rfl, rfl, rfl⟩ := hr
    exact ⟨hc, wc, rfl, hh, hw⟩

/-! ### Query streams -/

/-- A stream of blocks over the socket and the other. -/
structure IsStream (env : Env) (s : BStreamS) (b : BStream) : Prop where
  tracks : Tracks env s.revs s.inner b.inner
  mute : Mute env s.inner s.writer b.inner
  reads : Lasting s.revs
  writes : LastingW s.writer.evs
  state : s.state = b.state
  index : s.blockIndex = b.blockIndex
  skip : s.skipFirst = b.skipFirst

theorem open_same {env : Env} {h h' : HandleS} {hc : Handle} {w w' : WorldS} {wc : World} {q : Query} {skip : Bool} {r : OpRes BStreamS}
    (hh : IsHandle env h hc) (hw : IsWorld env w wc) (hr : OpenS env h q skip w r h' w') :
    ∃ x hc' wc', hc.openStream q skip wc = (x, hc', wc') ∧ SameRes (IsStream env) r x ∧ IsHandle env h' hc' ∧ IsWorld env w' wc' := by
  cases hr with
  | failed hp =>
    obtain ⟨hc', wc', e, g1, g2⟩ := precheck_same hp hh hw
    exact ⟨_, hc', wc', by rw [Handle.openStream, e], .err, g1, g2⟩
  | panic hp =>
    obtain ⟨hc', wc', e, g1, g2⟩ := precheck_same hp hh hw
    exact ⟨_, hc', wc', by rw [Handle.openStream, e], .panic, g1, g2⟩
  | unbound hp hb =>
    obtain ⟨hc', wc', e, g1, g2⟩ := precheck_same hp hh hw
    rw [g1.binding] at hb
    exact ⟨_, { hc' with binding := .none }, wc', by rw [Handle.openStream, e]; simp only [hb], .panic, ⟨g1.inner, g1.context, rfl⟩, g2⟩
  | @gone _ _ bd hp hb hi =>
    obtain ⟨hc', wc', e, g1, g2⟩ := precheck_same hp hh hw
    rw [g1.binding] at hb
    have hin : hc'.inner = none := by
      have := g1.inner
      rw [hi] at this
      cases hin : hc'.inner with
      | none => rfl
      | some c => rw [hin] at this; cases this
    exact ⟨_, ⟨none, hc'.context, bd⟩, wc', by rw [Handle.openStream, e]; simp only [hb, hin], .err, ⟨by rw [hi]; exact .none, g1.context, rfl⟩, g2⟩
  | @opened h1 _ b k hp hb hi =>
    obtain ⟨hc1, wc', e, g1, g2⟩ := precheck_same hp hh hw
    rw [g1.binding] at hb
    have := g1.inner
    rw [hi] at this
    cases hin : hc1.inner with
    | none => rw [hin] at this; cases this
    | some c =>
      rw [hin] at this
      cases this with
      | some hk =>
        obtain ⟨ht, hm⟩ := call_tracks (cmd := .sendQuery q hc1.context) hk (query_encodes env q _)
        refine ⟨_, ⟨none, hc1.context, b⟩, wc', by rw [Handle.openStream, e]; simp only [hb, hin]; rfl, .ok ⟨?_, ?_, hk.reads, hk.writes, rfl, rfl, rfl⟩,
          ⟨.none, g1.context, rfl⟩, g2⟩
        · rw [g1.context]
          exact ht
        · rw [g1.context]
          exact hm

/-- What awaiting gives in terms of the stream of messages. -/
theorem await_same {env : Env} {s : BStreamS} {b : BStream} (hs : IsStream env s b) {r : PPoll} {i : PStream} {l : List ReadEv}
    {wl : Writer} (ha : AwaitsS env s.inner s.revs s.writer r i l wl) :
    ∃ x j, b.inner.next = (x, j) ∧ Agree env l r x ∧ Tracks env l i j ∧ Mute env i wl j ∧ Lasting l ∧ LastingW wl.evs ∧
      ∀ p t p' c, r = .item p (some t) → x = .item p' (some c) → MuteConn env wl t c := by
  obtain ⟨g1, g2, g3, g4⟩ := Props.C70_next env _ _ b.inner _ _ _ _ _ hs.tracks hs.reads hs.writes (plain ha)
  obtain ⟨m1, m2⟩ := mute_next hs.mute ha
  exact ⟨_, _, rfl, g1, g2, m1, g3, g4, m2⟩

theorem read_same {env : Env} {s s' : BStreamS} {h h' : HandleS} {it : BItem} (hr : ReadS env s h it s' h') :
    ∀ {b : BStream} {hc : Handle}, IsStream env s b → IsHandle env h hc →
      ∃ b' hc', b.read hc = (it, b', hc') ∧ IsStream env s' b' ∧ IsHandle env h' hc' := by
  induction hr with
  | ended ha =>
    intro b hc hs hh
    obtain ⟨x, j, e, g1, g2, g3, g4, g5, -⟩ := await_same hs ha
    cases g1
    exact ⟨_, hc, read_ended e, ⟨g2, g3, g4, g5, rfl, hs.index, hs.skip⟩, hh⟩
  | bad ha =>
    intro b hc hs hh
    obtain ⟨x, j, e, g1, g2, g3, g4, g5, -⟩ := await_same hs ha
    cases g1
    exact ⟨_, hc, read_error e, ⟨g2, g3, g4, g5, hs.state, hs.index, hs.skip⟩, hh⟩
  | broken ha =>
    intro b hc hs hh
    obtain ⟨x, j, e, g1, -⟩ := await_same hs ha
    cases g1
  | @eof s h i l wl t ha hb =>
    intro b hc hs hh
    obtain ⟨x, j, e, g1, g2, g3, g4, g5, g6⟩ := await_same hs ha
    cases x with
    | item p c =>
      obtain ⟨rfl, ho⟩ := agree_conn g1 g4 g5 (fun t' c' ht hc => g6 _ t' _ c' (by rw [ht]) (by rw [hc]))
      refine ⟨{ b with inner := j, state := .finished }, { hc with inner := c }, ?_, ⟨g2, g3, g4, g5, rfl, hs.index, hs.skip⟩,
        ⟨ho, hh.context, hh.binding⟩⟩
      rw [read_eof e, if_pos (by rw [← hh.binding]; exact hb)]
    | _ => cases g1
  | @eofAttach s h i l wl t bd ha hb hat =>
    intro b hc hs hh
    obtain ⟨x, j, e, g1, g2, g3, g4, g5, g6⟩ := await_same hs ha
    cases x with
    | item p c =>
      obtain ⟨rfl, ho⟩ := agree_conn g1 g4 g5 (fun t' c' ht hc => g6 _ t' _ c' (by rw [ht]) (by rw [hc]))
      refine ⟨{ b with inner := j, state := .finished }, ⟨c, hc.context, bd⟩, ?_, ⟨g2, g3, g4, g5, rfl, hs.index, hs.skip⟩,
        ⟨ho, hh.context, rfl⟩⟩
      rw [hh.binding] at hb hat
      rw [read_eof e, if_neg hb, hat]
    | _ => cases g1
  | @eofPanic s h i l wl t ha hb hat =>
    intro b hc hs hh
    obtain ⟨x, j, e, g1, g2, g3, g4, g5, g6⟩ := await_same hs ha
    cases x with
    | item p c =>
      obtain ⟨rfl, ho⟩ := agree_conn g1 g4 g5 (fun t' c' ht hc => g6 _ t' _ c' (by rw [ht]) (by rw [hc]))
      refine ⟨{ b with inner := j }, ⟨c, hc.context, .none⟩, ?_, ⟨g2, g3, g4, g5, hs.state, hs.index, hs.skip⟩,
        ⟨ho, hh.context, rfl⟩⟩
      rw [hh.binding] at hb hat
      rw [read_eof e, if_neg hb, hat]
    | _ => cases g1
  | profile ha _ ih =>
    intro b hc hs hh
    obtain ⟨x, j, e, g1, g2, g3, g4, g5, g6⟩ := await_same hs ha
    cases x with
    | item p c =>
      obtain ⟨rfl, ho⟩ := agree_conn g1 g4 g5 (fun t' c' ht hc => g6 _ t' _ c' (by rw [ht]) (by rw [hc]))
      rw [read_profile e]
      exact ih ⟨g2, g3, g4, g5, hs.state, hs.index, hs.skip⟩ hh
    | _ => cases g1
  | progress ha _ ih =>
    intro b hc hs hh
    obtain ⟨x, j, e, g1, g2, g3, g4, g5, g6⟩ := await_same hs ha
    cases x with
    | item p c =>
      obtain ⟨rfl, ho⟩ := agree_conn g1 g4 g5 (fun t' c' ht hc => g6 _ t' _ c' (by rw [ht]) (by rw [hc]))
      rw [read_progress e]
      exact ih ⟨g2, g3, g4, g5, hs.state, hs.index, hs.skip⟩ hh
    | _ => cases g1
  | exception ha =>
    intro b hc hs hh
    obtain ⟨x, j, e, g1, g2, g3, g4, g5, g6⟩ := await_same hs ha
    cases x with
    | item p c =>
      obtain ⟨rfl, ho⟩ := agree_conn g1 g4 g5 (fun t' c' ht hc => g6 _ t' _ c' (by rw [ht]) (by rw [hc]))
      exact ⟨_, hc, read_exception e, ⟨g2, g3, g4, g5, rfl, hs.index, hs.skip⟩, hh⟩
    | _ => cases g1
  | @block s h i l wl t bl ha hk =>
    intro b hc hs hh
    obtain ⟨x, j, e, g1, g2, g3, g4, g5, g6⟩ := await_same hs ha
    cases x with
    | item p c =>
      obtain ⟨rfl, ho⟩ := agree_conn g1 g4 g5 (fun t' c' ht hc => g6 _ t' _ c' (by rw [ht]) (by rw [hc]))
      rw [hs.index, hs.skip] at hk
      refine ⟨{ b with inner := j, blockIndex := b.blockIndex + 1 }, hc, ?_,
        ⟨g2, g3, g4, g5, hs.state, by simp only [hs.index], hs.skip⟩, hh⟩
      rw [read_block e, if_pos hk]
    | _ => cases g1
  | @skipped s h i l wl t bl _ _ _ ha hk _ ih =>
    intro b hc hs hh
    obtain ⟨x, j, e, g1, g2, g3, g4, g5, g6⟩ := await_same hs ha
    cases x with
    | item p c =>
      obtain ⟨rfl, ho⟩ := agree_conn g1 g4 g5 (fun t' c' ht hc => g6 _ t' _ c' (by rw [ht]) (by rw [hc]))
      rw [hs.index, hs.skip] at hk
      rw [read_block e, if_neg (by rw [hk]; simp)]
      exact ih ⟨g2, g3, g4, g5, hs.state, by simp only [hs.index], hs.skip⟩ hh
    | _ => cases g1
  | unexpected ha h1 h2 h3 h4 h5 =>
    intro b hc hs hh
    obtain ⟨x, j, e, g1, g2, g3, g4, g5, g6⟩ := await_same hs ha
    cases x with
    | item p c =>
      obtain ⟨rfl, ho⟩ := agree_conn g1 g4 g5 (fun t' c' ht hc => g6 _ t' _ c' (by rw [ht]) (by rw [hc]))
      exact ⟨_, hc, read_other e h1 h4 h3 h2 h5, ⟨g2, g3, g4, g5, hs.state, hs.index, hs.skip⟩, hh⟩
    | _ => cases g1

theorem next_same {env : Env} {s s' : BStreamS} {h h' : HandleS} {it : BItem} {b : BStream} {hc : Handle} (hr : NextS env s h it s' h')
    (hs : IsStream env s b) (hh : IsHandle env h hc) :
    ∃ b' hc', b.next hc = (it, b', hc') ∧ IsStream env s' b' ∧ IsHandle env h' hc' := by
  rw [NextS, hs.state] at hr
  rw [BStream.next]
  cases hb : b.state with
  | reading => rw [hb] at hr; exact read_same hr hs hh
  | finished =>
    rw [hb] at hr
    obtain ⟨rfl, rfl, rfl⟩ := hr
    exact ⟨b, hc, rfl, hs, hh⟩
  | error =>
    rw [hb] at hr
    obtain ⟨rfl, rfl, rfl⟩ := hr
    exact ⟨b, hc, rfl, hs, hh⟩

theorem run_same {env : Env} {n : Nat} {s s' : BStreamS} {h h' : HandleS} {is : List BItem} (hr : RunS env n s h is s' h') :
    ∀ {b : BStream} {hc : Handle}, IsStream env s b → IsHandle env h hc →
      ∃ b' hc', run n b hc = (is, b', hc') ∧ IsStream env s' b' ∧ IsHandle env h' hc' := by
  induction hr with
  | zero => intro b hc hs hh; exact ⟨b, hc, rfl, hs, hh⟩
  | succ hn _ ih =>
    intro b hc hs hh
    obtain ⟨b1, hc1, e1, hs1, hh1⟩ := next_same hn hs hh
    obtain ⟨b2, hc2, e2, hs2, hh2⟩ := ih hs1 hh1
    exact ⟨b2, hc2, by rw [run, e1]; simp only [e2], hs2, hh2⟩

theorem drop_same {env : Env} {s : BStreamS} {h h' : HandleS} {b : BStream} {hc : Handle} (hd : s.drop h = some h')
    (hs : IsStream env s b) (hh : IsHandle env h hc) : ∃ hc', b.drop hc = some hc' ∧ IsHandle env h' hc' := by
  rw [BStreamS.drop, hs.state, hh.binding] at hd
  rw [BStream.drop]
  cases hb : b.state with
  | reading =>
    rw [hb] at hd
    simp only at hd ⊢
    cases hat : (if hc.binding = .attached then some Binding.attached else hc.binding.attach) with
    | none => rw [hat] at hd; simp at hd
    | some bd =>
      rw [hat] at hd
      simp only at hd ⊢
      obtain ⟨inner, revs, wevs, st, ix, sk⟩ := s
      obtain ⟨binner, bst, bix, bsk⟩ := b
      have ht := hs.tracks
      simp only at ht hd ⊢
      cases ht with
      | gone =>
        simp only [Option.some.injEq] at hd
        subst hd
        exact ⟨_, rfl, ⟨hh.inner, hh.context, rfl⟩⟩
      | @has t c _ _ _ hca he hf =>
        simp only [Option.some.injEq] at hd
        subst hd
        refine ⟨_, rfl, ⟨.some ⟨⟨hca.opened, rfl, hca.coming⟩, he, hs.mute.mute c rfl, hs.reads, hs.writes, ?_⟩, hh.context, rfl⟩⟩
        have := hs.mute.told t c rfl rfl
        rw [List.append_assoc]
        exact this
  | finished => rw [hb] at hd; simp only [Option.some.injEq] at hd; subst hd; exact ⟨hc, rfl, hh⟩
  | error => rw [hb] at hd; simp only [Option.some.injEq] at hd; subst hd; exact ⟨hc, rfl, hh⟩

/-- A user's program over the socket gives what it gives on the other handle. -/
theorem ask_same {env : Env} {numeric : Char → Bool} {cast : Block → Block → Out Block} {h h' : HandleS} {w : WorldS} {a : Wish}
    {r : Reply} {hc : Handle} {wc : World} (ha : AskS env numeric cast h w a r h') (hh : IsHandle env h hc) (hw : IsWorld env w wc)
    (he : DataEncodes env cast h.context a) : ∃ hc', askW numeric cast hc wc a = some (r, hc') ∧ IsHandle env h' hc' := by
  cases ha with
  | ping hp =>
    obtain ⟨hc', e, g⟩ := ping_same hh hp
    exact ⟨hc', by simp [askW, e], g⟩
  | pingErr hp =>
    obtain ⟨hc', e, g⟩ := ping_same hh hp
    exact ⟨hc', by simp [askW, e], g⟩
  | execute hx =>
    obtain ⟨hc', wc', e, g, -⟩ := handle_execute_same hh hw hx
    exact ⟨hc', by simp [askW, e], g⟩
  | executeErr hx =>
    obtain ⟨hc', wc', e, g, -⟩ := handle_execute_same hh hw hx
    exact ⟨hc', by simp [askW, e], g⟩
  | select ho hr hd =>
    obtain ⟨x, hc1, wc', e, hx, g, -⟩ := open_same hh hw ho
    cases hx with
    | ok hs =>
      obtain ⟨b', hc2, e2, hs2, hh2⟩ := run_same hr hs g
      obtain ⟨hc3, e3, hh3⟩ := drop_same hd hs2 hh2
      exact ⟨hc3, by simp [askW, e, e2, e3], hh3⟩
  | selectErr ho =>
    obtain ⟨x, hc1, wc', e, hx, g, -⟩ := open_same hh hw ho
    cases hx
    exact ⟨hc1, by simp [askW, e], g⟩
  | insert hi =>
    obtain ⟨hc', wc', e, g, -⟩ := handle_insert_same hh hw he hi
    exact ⟨hc', by simp [askW, e], g⟩
  | insertErr hi =>
    obtain ⟨hc', wc', e, g, -⟩ := handle_insert_same hh hw he hi
    exact ⟨hc', by simp [askW, e], g⟩

end CH.Socket
