import Verif.Lemmas.Feed

/-!
If the socket takes enough bytes, every operation over the socket comes to its end.
-/

namespace CH.Progress
open CH CH.Spec CH.Socket CH.Feed

theorem flush_load {env : Env} {t t' : Transport} {r : SPoll} {out : Bytes} {evs left : List WriteEv} (hl : LastingW evs)
    (he : ∀ c ∈ t.cmds, ∃ b, c.encode env.codec = .ok b) (h : Transport.send.flush env.codec t evs = (r, out, t', left)) :
    accepts evs + unsent env t' ≤ accepts left + unsent env t + (if t.wr = [] then 1 else 0) := by
  induction evs generalizing t r out t' left with
  | nil =>
    simp only [Transport.send.flush, Prod.mk.injEq] at h
    obtain ⟨rfl, rfl, rfl, rfl⟩ := h
    omega
  | cons e evs ih =>
    have hl' : LastingW evs := fun e he => hl e (List.mem_cons_of_mem _ he)
    cases e with
    | pending =>
      simp only [Transport.send.flush, Prod.mk.injEq] at h
      obtain ⟨rfl, rfl, rfl, rfl⟩ := h
      simp only [accepts]
      omega
    | fail => exact absurd rfl (hl .fail (by simp))
    | wrote n =>
      have step : ∀ t1 : Transport, (∀ c ∈ t1.cmds, ∃ b, c.encode env.codec = .ok b) → ∀ o,
          (let r := Transport.send.flush env.codec t1 evs; (r.1, o ++ r.2.1, r.2.2)) = (r, out, t', left) →
          accepts evs + unsent env t' ≤ accepts left + unsent env t1 + (if t1.wr = [] then 1 else 0) := by
        intro t1 h1 o h
        cases hf : Transport.send.flush env.codec t1 evs with
        | mk r1 rest =>
          obtain ⟨o1, t2, l2⟩ := rest
          simp only [hf, Prod.mk.injEq] at h
          obtain ⟨rfl, _, rfl, rfl⟩ := h
          exact ih hl' h1 hf
      have hacc : accepts (.wrote n :: evs) ≤ accepts evs + (if n = 0 then 0 else 1) := by
        cases n <;> simp [accepts]
      have hwr : (t.wr.drop n).length + (if n = 0 then 0 else 1) ≤ t.wr.length + (if t.wr = [] then 1 else 0) := by
        rw [List.length_drop]
        cases n with
        | zero => simp
        | succ n =>
          cases hw : t.wr with
          | nil => simp
          | cons a l => simp
      rw [Transport.send.flush] at h
      simp only at h
      split at h
      · next hnil =>
        split at h
        · next hcm =>
          have hcm' : t.cmds = [] := hcm
          simp only [Prod.mk.injEq] at h
          obtain ⟨rfl, rfl, rfl, rfl⟩ := h
          simp only [unsent]
          omega
        · next c cs hcm =>
          have hcm' : t.cmds = c :: cs := hcm
          obtain ⟨b, hb⟩ := he c (by rw [hcm']; simp)
          simp only [hb] at h
          have := step _ (fun d hd => he d (by rw [hcm']; exact List.mem_cons_of_mem _ hd)) _ h
          have hu : unsent env t = t.wr.length + (b.length + 1 + (cs.map (cost env)).sum) := by
            rw [unsent, hcm', List.map_cons, List.sum_cons, show cost env c = b.length + 1 by rw [cost, hb]]
          have hle : (if b = [] then 1 else 0) ≤ 1 := by split <;> omega
          simp only [unsent] at this hu ⊢
          rw [hu]
          omega
      · next hne =>
        have hne' : t.wr.drop n ≠ [] := hne
        have := step { t with wr := t.wr.drop n } he _ h
        simp only [unsent, if_neg hne'] at this ⊢
        omega

theorem send_load {env : Env} {t t' : Transport} {r : SPoll} {out : Bytes} {evs left : List WriteEv} (hl : LastingW evs)
    (he : ∀ c ∈ t.cmds, ∃ b, c.encode env.codec = .ok b) (h : t.send env.codec evs = (r, out, t', left)) :
    accepts evs + unsent env t' ≤ accepts left + unsent env t := by
  rw [Transport.send] at h
  split at h
  · split at h
    · simp only [Prod.mk.injEq] at h
      obtain ⟨rfl, rfl, rfl, rfl⟩ := h
      omega
    · next c cs hcm =>
      obtain ⟨b, hb⟩ := he c (by rw [hcm]; simp)
      simp only [hb] at h
      have := flush_load hl (fun d hd => he d (by rw [hcm]; exact List.mem_cons_of_mem _ hd)) h
      have hle : (if b = [] then 1 else 0) ≤ 1 := by split <;> omega
      have hu : unsent env t = t.wr.length + (b.length + 1 + (cs.map (cost env)).sum) := by
        rw [unsent, hcm, List.map_cons, List.sum_cons, show cost env c = b.length + 1 by rw [cost, hb]]
      simp only [unsent] at this hu ⊢
      rw [hu]
      omega
  · next hne =>
    have := flush_load hl he h
    rw [if_neg hne] at this
    omega

/-- The socket will take more than what a stream has to send and `m` writes beyond. -/
def Eased (env : Env) (m : Nat) (s : PStream) (wevs : List WriteEv) : Prop :=
  m + (match s.inner with | some t => unsent env t | none => 0) < accepts wevs

theorem receive_eased {env : Env} {m : Nat} {t : Transport} {st : PState} {b : Bool} {s' : PStream} {r : PPoll} {revs left : List ReadEv}
    {wevs : List WriteEv} (hm : m + unsent env t < accepts wevs) (h : PStream.receive env ⟨some t, st, b⟩ revs = (r, s', left)) :
    Eased env m s' wevs ∧ ∀ p t', r = .item p (some t') → m + unsent env t' < accepts wevs := by
  obtain ⟨used, t', _, _, h3, h4, _, _, h7⟩ := receive_spec (s := ⟨some t, st, b⟩) rfl h
  have hu : unsent env t' = unsent env t := by rw [unsent, unsent, h3, h4]
  rcases h7 with ⟨i1, i2, _⟩ | ⟨i1, _, p, i2, _⟩
  · refine ⟨?_, ?_⟩
    · rw [Eased, i1]; simp only; omega
    · intro p t1 hr
      rw [hr] at i2
      cases i2
  · refine ⟨?_, ?_⟩
    · rw [Eased, i1]; simp only; omega
    · intro p1 t1 hr
      rw [hr] at i2
      cases i2
      omega

theorem poll_eased {env : Env} {m : Nat} {s s' : PStream} {cs : CStream} {r : PPoll} {out : Bytes} {revs left : List ReadEv}
    {wevs wleft : List WriteEv} (hw : LastingW wevs) (ht : Tracks env revs s cs) (hm : Eased env m s wevs)
    (h : s.pollNext env revs wevs = (r, out, s', left, wleft)) :
    Eased env m s' wleft ∧ ∀ p t, r = .item p (some t) → m + unsent env t < accepts wleft := by
  cases ht with
  | @gone st f b =>
    have h2 : s' = ⟨none, .done, b⟩ ∧ r = .ended ∧ wleft = wevs := by
      rw [PStream.pollNext] at h
      cases st <;> simp [PStream.receive, PStream.finish] at h <;> exact ⟨h.2.2.1.symm, h.1.symm, h.2.2.2.2.symm⟩
    obtain ⟨rfl, rfl, rfl⟩ := h2
    exact ⟨hm, nofun⟩
  | @has t c st f b hc he hf =>
    have hm' : m + unsent env t < accepts wevs := hm
    cases st with
    | ask =>
      simp only [PStream.pollNext] at h
      generalize hs : t.send env.codec wevs = q at h
      obtain ⟨u, o, t1, w1⟩ := q
      have hlo := send_load hw he hs
      have hm1 : m + unsent env t1 < accepts w1 := by omega
      cases u with
      | sent =>
        simp only at h
        generalize hr : PStream.receive env ⟨some t1, .receive, b⟩ revs = q at h
        obtain ⟨r1, s1, l1⟩ := q
        simp only [Prod.mk.injEq] at h
        obtain ⟨rfl, -, rfl, -, rfl⟩ := h
        exact receive_eased hm1 hr
      | pending =>
        simp only [Prod.mk.injEq] at h
        obtain ⟨rfl, -, rfl, -, rfl⟩ := h
        exact ⟨hm1, nofun⟩
      | fail =>
        simp only [Prod.mk.injEq] at h
        obtain ⟨rfl, -, rfl, -, rfl⟩ := h
        exact ⟨hm1, nofun⟩
      | panic =>
        simp only [Prod.mk.injEq] at h
        obtain ⟨rfl, -, rfl, -, rfl⟩ := h
        exact ⟨hm1, nofun⟩
    | done =>
      simp only [PStream.pollNext, PStream.finish, Prod.mk.injEq] at h
      obtain ⟨rfl, -, rfl, -, rfl⟩ := h
      refine ⟨?_, ?_⟩
      · simp only [Eased]; omega
      · intro p t1 hr
        simp only [PPoll.item.injEq, Option.some.injEq] at hr
        rw [← hr.2]; exact hm'
    | receive =>
      simp only [PStream.pollNext] at h
      generalize hr : PStream.receive env ⟨some t, .receive, b⟩ revs = q at h
      obtain ⟨r1, s1, l1⟩ := q
      simp only [Prod.mk.injEq] at h
      obtain ⟨rfl, -, rfl, -, rfl⟩ := h
      exact receive_eased hm' hr
    | yield =>
      simp only [PStream.pollNext] at h
      generalize hr : PStream.receive env ⟨some t, .yield, b⟩ revs = q at h
      obtain ⟨r1, s1, l1⟩ := q
      simp only [Prod.mk.injEq] at h
      obtain ⟨rfl, -, rfl, -, rfl⟩ := h
      exact receive_eased hm' hr

/-- Awaiting the next packet of a stream. -/
theorem await_progress {env : Env} {m : Nat} {s : PStream} {cs : CStream} {revs : List ReadEv} {wevs : List WriteEv}
    (ht : Tracks env revs s cs) (hl : Lasting revs) (hw : LastingW wevs) (hm : Eased env m s wevs) (hc : cs.next.1 ≠ .waits) :
    ∃ r s' left wleft, Awaits env s revs wevs r s' left wleft ∧ Eased env m s' wleft ∧
      ∀ p t, r = .item p (some t) → m + unsent env t < accepts wleft := by
  have keep : ∀ {s revs wevs r s' left wleft}, Awaits env s revs wevs r s' left wleft → Tracks env revs s cs → Lasting revs →
      LastingW wevs → Eased env m s wevs → Eased env m s' wleft ∧ ∀ p t, r = .item p (some t) → m + unsent env t < accepts wleft := by
    intro s revs wevs r s' left wleft ha
    induction ha with
    | ready h hr => intro ht hl hw hm; exact poll_eased hw ht hm h
    | again h _ ih =>
      intro ht hl hw hm
      obtain ⟨g1, g2, g3⟩ := poll_tracks hl hw ht h
      rcases g3 with ⟨_, g3, _⟩ | ⟨g3, _⟩
      · exact ih g3 g1 g2 (poll_eased hw ht hm h).1
      · exact absurd rfl g3
  have pollsKeep : ∀ n {s revs wevs rs out s' left wleft}, polls env n s revs wevs = (rs, out, s', left, wleft) → Tracks env revs s cs →
      Lasting revs → LastingW wevs → Eased env m s wevs →
      (∃ r s' left wleft, Awaits env s revs wevs r s' left wleft) ∨ Eased env m s' wleft := by
    intro n
    induction n with
    | zero =>
      intro s revs wevs rs out s' left wleft h ht hl hw hm
      simp only [polls, Prod.mk.injEq] at h
      obtain ⟨-, -, rfl, -, rfl⟩ := h
      exact .inr hm
    | succ n ih =>
      intro s revs wevs rs out s' left wleft h ht hl hw hm
      simp only [polls] at h
      cases hp : s.pollNext env revs wevs with
      | mk r rest =>
        obtain ⟨o, s1, l1, w1⟩ := rest
        rw [hp] at h
        simp only at h
        obtain ⟨g1, g2, g3⟩ := poll_tracks hl hw ht hp
        rcases g3 with ⟨rfl, g3, _⟩ | ⟨g3, _⟩
        · generalize hq : polls env n s1 l1 w1 = q at h
          obtain ⟨a1, a2, a3, a4, a5⟩ := q
          simp only [Prod.mk.injEq] at h
          obtain ⟨-, -, rfl, rfl, rfl⟩ := h
          rcases ih hq g3 g1 g2 (poll_eased hw ht hm hp).1 with ⟨r, s', l, w, ha⟩ | ha
          · exact .inl ⟨r, s', l, w, .again hp ha⟩
          · exact .inr ha
        · exact .inl ⟨r, s1, l1, w1, .ready hp g3⟩
  have : ∃ r s' left wleft, Awaits env s revs wevs r s' left wleft := by
    rcases Props.C70_progress env s cs revs wevs ht hl hw hc with h | ⟨n, rs, out, s', left, h, _⟩
    · exact h
    · rcases pollsKeep n h ht hl hw hm with h | h
      · exact h
      · simp only [Eased, accepts] at h
        exact absurd h (by omega)
  obtain ⟨r, s', left, wleft, ha⟩ := this
  exact ⟨r, s', left, wleft, ha, keep ha ht hl hw hm⟩

/-- The same with the bytes taken. -/
theorem awaitS_progress {env : Env} {m : Nat} {s : PStream} {cs : CStream} {revs : List ReadEv} {w : Writer}
    (ht : Tracks env revs s cs) (hl : Lasting revs) (hw : LastingW w.evs) (hm : Eased env m s w.evs) (hc : cs.next.1 ≠ .waits) :
    ∃ r s' left w', AwaitsS env s revs w r s' left w' ∧ Eased env m s' w'.evs ∧
      ∀ p t, r = .item p (some t) → m + unsent env t < accepts w'.evs := by
  obtain ⟨r, s', left, wleft, ha, h1, h2⟩ := await_progress ht hl hw hm hc
  obtain ⟨out, ha⟩ := awaits_plain ha w.out
  exact ⟨r, s', left, ⟨wleft, out⟩, ha, h1, h2⟩

/-- A connection whose socket will take what it has to send, and `m` writes beyond. -/
structure Free (env : Env) (m : Nat) (k : Sock) (c : Conn) : Prop where
  is : IsConn env k c
  free : m + unsent env k.t < accepts k.writer.evs

theorem loop_progress {env : Env} {m : Nat} {σ τ : Type} {R : σ → τ → Prop} {f : σ → Except Err (Packet × Option Sock) → σ ⊕ OpErr}
    {g : τ → Except Err (Packet × Option Conn) → τ ⊕ OpErr} (hb : SameBody (Free env m) R f g) (n : Nat) :
    ∀ {v : σ} {u : τ} {s : PStream} {cs : CStream} {revs : List ReadEv} {wevs : Writer}, cs.fuel = n → Tracks env revs s cs →
      Lasting revs → LastingW wevs.evs → Mute env s wevs cs → Eased env m s wevs.evs → R v u → cs.loop g u ≠ .waits →
      ∃ r, LoopS env f v s revs wevs r ∧ SameEnd R r (cs.loop g u) := by
  induction n using Nat.strongRecOn with
  | _ n ih =>
    intro v u s cs revs wevs hf ht hl hw hm he hv hnw
    have hne : cs.next.1 ≠ .waits := by
      intro hx
      apply hnw
      cases hn : cs.next with
      | mk i cs' => rw [hn] at hx; exact loop_waits (by rw [hn]; exact congrArg (·, cs') hx)
    obtain ⟨r, s', left, wleft, ha, e1, e2⟩ := awaitS_progress ht hl hw he hne
    obtain ⟨g1, g2, g3, g4⟩ := Props.C70_next env _ _ cs _ _ _ _ _ ht hl hw (plain ha)
    obtain ⟨m1, m2⟩ := mute_next hm ha
    cases hn : cs.next with
    | mk x cs' =>
      rw [hn] at g1 g2 m1 m2
      simp only at g1 g2 m1 m2
      cases x with
      | item p c =>
        have hr : ∃ t, r = .item p t := by
          cases g1 with
          | packet => exact ⟨_, rfl⟩
          | last _ _ => exact ⟨_, rfl⟩
        obtain ⟨t, rfl⟩ := hr
        have ho : Both (Free env m) (t.map (Sock.mk · left wleft)) c := by
          obtain ⟨-, ho⟩ := agree_conn (wleft := wleft) g1 g3 g4 (fun t' c' ht hc => m2 _ t' _ c' (by rw [ht]) (by rw [hc]))
          cases t with
          | none => cases ho; exact .none
          | some t => cases ho with
            | some ho => exact .some ⟨ho, e2 p t rfl⟩
        rw [loop_item hn] at hnw ⊢
        have hs := hb.item p hv ho
        cases h1 : f v (.ok (p, t.map (Sock.mk · left wleft))) with
        | inl v' =>
          rw [h1] at hs
          cases h2 : g u (.ok (p, c)) with
          | inl u' =>
            rw [h2] at hs hnw
            cases hs with
            | go hvu =>
              obtain ⟨r, hr1, hr2⟩ := ih _ (by rw [← hf]; exact CStream.next_item hn) rfl g2 g3 g4 m1 e1 hvu hnw
              exact ⟨r, .item ha h1 hr1, hr2⟩
          | inr _ => rw [h2] at hs; cases hs
        | inr er =>
          rw [h1] at hs
          cases h2 : g u (.ok (p, c)) with
          | inl u' => rw [h2] at hs; cases hs
          | inr _ => rw [h2] at hs; cases hs; exact ⟨_, .itemStop ha h1, .failed⟩
      | error e =>
        cases g1
        rw [loop_error hn] at hnw ⊢
        have hs := hb.error e hv
        cases h1 : f v (.error e) with
        | inl v' =>
          rw [h1] at hs
          cases h2 : g u (.error e) with
          | inl u' =>
            rw [h2] at hs hnw
            cases hs with
            | go hvu =>
              obtain ⟨r, hr1, hr2⟩ := ih _ (by rw [← hf]; exact CStream.next_error hn) rfl g2 g3 g4 m1 e1 hvu hnw
              exact ⟨r, .bad ha h1 hr1, hr2⟩
          | inr _ => rw [h2] at hs; cases hs
        | inr er =>
          rw [h1] at hs
          cases h2 : g u (.error e) with
          | inl u' => rw [h2] at hs; cases hs
          | inr _ => rw [h2] at hs; cases hs; exact ⟨_, .badStop ha h1, .failed⟩
      | ended =>
        cases g1
        rw [loop_ended hn]
        exact ⟨_, .ended ha, .fell hv⟩
      | waits => cases g1

/-! ### Operations on a connection -/

/-- `OpS` comes to an end on every socket that takes enough: for any number of writes to be left over there is a number of writes
that is enough. -/
def Lives {α β : Type} (env : Env) (OpS : Sock → OpRes α → Prop) (R : Nat → α → β → Prop) (c : Conn) (x : OpRes β) : Prop :=
  ∀ m, ∃ n, ∀ k, Free env n k c → ∃ r, OpS k r ∧ SameRes (R m) r x

/-- A connection with something else. -/
def With (env : Env) {α : Type} (m : Nat) (x : Sock × α) (y : Conn × α) : Prop := Free env m x.1 y.1 ∧ x.2 = y.2

theorem lives_then {α α' β β' : Type} {env : Env} {P : Sock → OpRes α → Prop} {Q : α → OpRes β → Prop} {R : Nat → α → α' → Prop}
    {S : Nat → β → β' → Prop} {c : Conn} {x : OpRes α'} {y : α' → OpRes β'} (h1 : x ≠ .waits → Lives env P R c x)
    (h2 : ∀ b, x = .ok b → ∀ m, ∃ n, ∀ a, R n a b → ∃ r, Q a r ∧ SameRes (S m) r (y b)) (hw : andThen x y ≠ .waits) :
    Lives env (fun k => Then (P k) Q) S c (andThen x y) := by
  have h1 := h1 (by intro hx; apply hw; rw [hx]; rfl)
  intro m
  cases x with
  | ok b =>
    obtain ⟨n', h2⟩ := h2 b rfl m
    obtain ⟨n, h1⟩ := h1 n'
    refine ⟨n, fun k hk => ?_⟩
    obtain ⟨r, g1, g2⟩ := h1 k hk
    cases g2 with
    | ok hab =>
      obtain ⟨r, g3, g4⟩ := h2 _ hab
      exact ⟨r, .ok g1 g3, g4⟩
  | err e =>
    obtain ⟨n, h1⟩ := h1 0
    refine ⟨n, fun k hk => ?_⟩
    obtain ⟨r, g1, g2⟩ := h1 k hk
    cases g2
    exact ⟨_, .err g1, .err⟩
  | panic =>
    obtain ⟨n, h1⟩ := h1 0
    refine ⟨n, fun k hk => ?_⟩
    obtain ⟨r, g1, g2⟩ := h1 k hk
    cases g2
    exact ⟨_, .panic g1, .panic⟩
  | waits => exact absurd rfl hw

/-- The second step is an operation on the connection that the first gives. -/
theorem step {β β' : Type} {env : Env} {Q : Sock → OpRes β → Prop} {S : Nat → β → β' → Prop} {c : Conn} {y : OpRes β'}
    (h : Lives env Q S c y) : ∀ m, ∃ n, ∀ a, Free env n a c → ∃ r, Q a r ∧ SameRes (S m) r y := h

theorem call_eased {env : Env} {n : Nat} {k : Sock} {c : Conn} {cmd : Cmd} (h : Free env n k c) (hn : m + cost env cmd ≤ n) :
    Eased env m (k.t.call cmd) k.writer.evs := by
  have := h.free
  simp only [Eased, Transport.call, unsent, List.map_append, List.map_cons, List.map_nil, List.sum_append, List.sum_cons, List.sum_nil] at this ⊢
  omega

theorem lives_unwrap {env : Env} {c : Conn} (cmd : Cmd) (hc : ∃ b, cmd.encode env.codec = .ok b)
    {f : Option Sock → Except Err (Packet × Option Sock) → Option Sock ⊕ OpErr}
    {g : Option Conn → Except Err (Packet × Option Conn) → Option Conn ⊕ OpErr} (hb : ∀ K : Sock → Conn → Prop, SameBody K (Both K) f g)
    (hw : unwrapEnd ((c.call cmd).loop g none) ≠ .waits) :
    Lives env (fun k => Unwrap (LoopS env f none (k.t.call cmd) k.revs k.writer)) (Free env) c (unwrapEnd ((c.call cmd).loop g none)) := by
  intro m
  refine ⟨m + cost env cmd, fun k hk => ?_⟩
  obtain ⟨ht, hm⟩ := call_tracks (cmd := cmd) hk.is hc
  obtain ⟨r, h1, h2⟩ := loop_progress (hb (Free env m)) _ rfl ht hk.is.reads hk.is.writes hm (call_eased hk (Nat.le_refl _)) .none
    (by intro hx; apply hw; rw [hx]; rfl)
  generalize (c.call cmd).loop g none = x at h2
  cases h2 with
  | fell h => cases h with
    | none => exact ⟨_, .none h1, .panic⟩
    | some h => exact ⟨_, .some h1, .ok h⟩
  | failed => exact ⟨_, .failed h1, .err⟩

theorem lives_pingEnd {env : Env} {c : Conn} (hw : pingEnd ((c.call .ping).loop pingBody none) ≠ .waits) :
    Lives env (fun k => PingEnd (LoopS env pingBody none (k.t.call .ping) k.revs k.writer)) (Free env) c
      (pingEnd ((c.call .ping).loop pingBody none)) := by
  intro m
  refine ⟨m + cost env .ping, fun k hk => ?_⟩
  obtain ⟨ht, hm⟩ := call_tracks (cmd := .ping) hk.is ⟨_, rfl⟩
  obtain ⟨r, h1, h2⟩ := loop_progress (same_ping (K := Free env m)) _ rfl ht hk.is.reads hk.is.writes hm
    (call_eased hk (Nat.le_refl _)) .none (by intro hx; apply hw; rw [hx]; rfl)
  generalize (c.call .ping).loop pingBody none = x at h2
  cases h2 with
  | fell h => cases h with
    | none => exact ⟨_, .none h1, .err⟩
    | some h => exact ⟨_, .some h1, .ok h⟩
  | failed => exact ⟨_, .failed h1, .err⟩

theorem lives_clear {env : Env} {c : Conn} (hw : c.clear ≠ .waits) : Lives env (ClearS env) (Free env) c c.clear := by
  rw [clear_eq] at hw ⊢
  cases hi : c.inconsistent with
  | true =>
    simp only [hi, if_true] at hw ⊢
    have hl := lives_then (env := env) (S := Free env) (R := Free env) (c := c)
      (P := fun k => Unwrap (LoopS env clearBody none (k.t.call .cancel) k.revs k.writer))
      (Q := fun k r => r = .ok { k with t := { k.t with inconsistent := false } })
      (x := unwrapEnd ((c.call .cancel).loop clearBody none)) (y := fun c => .ok { c with inconsistent := false })
      (lives_unwrap .cancel ⟨_, rfl⟩ (fun K => same_clear))
      (fun b _ m => ⟨m, fun a ha => ⟨.ok { a with t := { a.t with inconsistent := false } }, rfl, .ok ⟨⟨⟨ha.is.carries.opened, rfl, ha.is.carries.coming⟩, ha.is.encodable, ha.is.mute,
        ha.is.reads, ha.is.writes, ha.is.written⟩, ha.free⟩⟩⟩) hw
    intro m
    obtain ⟨n, hl⟩ := hl m
    refine ⟨n, fun k hk => ?_⟩
    obtain ⟨r, h1, h2⟩ := hl k hk
    refine ⟨r, ?_, h2⟩
    have : k.t.inconsistent = true := by rw [← hk.is.carries.marked, hi]
    rw [ClearS, if_pos this]
    exact h1
  | false =>
    simp only [hi, Bool.false_eq_true, if_false] at hw ⊢
    intro m
    refine ⟨m, fun k hk => ⟨_, ?_, .ok hk⟩⟩
    have : ¬ k.t.inconsistent = true := by rw [← hk.is.carries.marked, hi]; simp
    rw [ClearS, if_neg this]

theorem ne_waits {α β : Type} {x : OpRes α} {y : α → OpRes β} {a : α} (hw : andThen x y ≠ .waits) (hx : x = .ok a) : y a ≠ .waits := by
  rw [hx] at hw; exact hw

theorem lives_execute {env : Env} {c : Conn} {q : Query} {ctx : Context} (hw : c.execute q ctx ≠ .waits) :
    Lives env (fun k => ExecuteS env k q ctx) (Free env) c (c.execute q ctx) := by
  rw [execute_eq] at hw ⊢
  exact lives_then (R := Free env) (fun h => lives_clear h)
    (fun b hb => step (lives_unwrap _ (query_encodes env q ctx) (fun K => same_execute) (ne_waits hw hb :))) hw

/-- `ping` up to its end. -/
def PingConnS (env : Env) (k : Sock) : OpRes Sock → Prop :=
  Then (ClearS env k) fun k => PingEnd (LoopS env pingBody none (k.t.call .ping) k.revs k.writer)

theorem lives_ping {env : Env} {c : Conn} (hw : pingC c ≠ .waits) : Lives env (PingConnS env) (Free env) c (pingC c) := by
  rw [pingC] at hw ⊢
  exact lives_then (R := Free env) (fun h => lives_clear h) (fun b hb => step (lives_pingEnd (ne_waits hw hb :))) hw

theorem lives_readOne {env : Env} {c : Conn} (cmd : Cmd) (hc : ∃ b, cmd.encode env.codec = .ok b) (hw : (c.call cmd).readOneBlock ≠ .waits) :
    Lives env (fun k => ReadOneS env k cmd) (With env) c (c.call cmd).readOneBlock := by
  intro m
  refine ⟨m + cost env cmd, fun k hk => ?_⟩
  obtain ⟨ht, hm⟩ := call_tracks (cmd := cmd) hk.is hc
  simp only [CStream.readOneBlock] at hw ⊢
  obtain ⟨r, h1, h2⟩ := loop_progress (same_readBlock (K := Free env m)) _ rfl (tracks_readBlock ht) hk.is.reads hk.is.writes ⟨hm.mute, hm.told⟩
    (call_eased hk (Nat.le_refl _)) (⟨.none, rfl⟩ : BlockVars (Free env m) (none, none) (none, none)) (by intro hx; apply hw; rw [hx])
  generalize CStream.loop readBlockBody (none, none) { c.call cmd with readBlock := true } = x at h2
  cases h2 with
  | @fell a b h =>
    obtain ⟨a1, a2⟩ := a
    obtain ⟨b1, b2⟩ := b
    obtain ⟨k1, k2⟩ := h
    simp only at k1 k2
    cases k1 with
    | none => exact ⟨_, .lost h1, .panic⟩
    | some h => exact ⟨_, .done h1, .ok ⟨h, k2⟩⟩
  | failed => exact ⟨_, .failed h1, .err⟩

theorem lives_sendInsert {env : Env} {c : Conn} {ctx : Context} {q : Query} (hw : c.sendInsertQuery ctx q ≠ .waits) :
    Lives env (fun k => SendInsertS env k ctx q) (With env) c (c.sendInsertQuery ctx q) := by
  rw [sendInsert_eq] at hw ⊢
  refine lives_then (R := With env) (fun h => lives_readOne _ (query_encodes env q ctx) h) (fun b hb m => ⟨m, fun a ha => ⟨_, rfl, ?_⟩⟩) hw
  obtain ⟨c1, o⟩ := b
  obtain ⟨k1, o'⟩ := a
  obtain ⟨h1, h2⟩ := ha
  simp only at h1 h2
  subst h2
  cases o' with
  | none => exact .panic
  | some b => exact .ok ⟨h1, rfl⟩

theorem lives_insertBlock {env : Env} {c : Conn} {ctx : Context} {b : Block}
    (hb : ∃ x, (Cmd.union (.sendData b ctx) (.sendData Block.new ctx)).encode env.codec = .ok x) (hw : c.insertBlock ctx b ≠ .waits) :
    Lives env (fun k => InsertBlockS env k ctx b) (Free env) c (c.insertBlock ctx b) := by
  rw [insertBlock_eq] at hw ⊢
  exact lives_then (R := With env) (fun h => lives_readOne _ hb h) (fun b hb m => ⟨m, fun a ha => ⟨_, rfl, .ok ha.1⟩⟩) hw

theorem lives_insertTail {env : Env} {ctx : Context} {q : Query} (bs : List Block)
    (hb : ∀ b ∈ bs, ∃ x, (Cmd.union (.sendData b ctx) (.sendData Block.new ctx)).encode env.codec = .ok x) :
    ∀ {c : Conn}, c.insertTail ctx q bs ≠ .waits →
      Lives env (InsertTailS env ctx q bs) (Free env) c (c.insertTail ctx q bs) := by
  induction bs with
  | nil => intro c _ m; exact ⟨m, fun k hk => ⟨_, rfl, .ok hk⟩⟩
  | cons b bs ih =>
    intro c hw
    rw [insertTail_eq] at hw ⊢
    refine lives_then (R := With env) (P := fun k => SendInsertS env k ctx q)
      (Q := fun x => Then (InsertBlockS env x.1 ctx b) (InsertTailS env ctx q bs)) (fun h => lives_sendInsert h) (fun x hx => ?_) hw
    have hw1 := ne_waits hw hx
    have := lives_then (R := Free env) (S := Free env) (P := fun k => InsertBlockS env k ctx b) (Q := InsertTailS env ctx q bs)
      (y := fun c => c.insertTail ctx q bs)
      (fun h => lives_insertBlock (hb b (.head _)) h) (fun y hy => step (ih (fun b hm => hb b (.tail _ hm)) (ne_waits hw1 hy :))) hw1
    intro m
    obtain ⟨n, h⟩ := this m
    exact ⟨n, fun a ha => h a.1 ha.1⟩

theorem lives_insert {env : Env} {cast : Block → Block → Out Block} {c : Conn} {ctx : Context} {q t : Query} {b : Block}
    (hb : DataEncodes env cast ctx (.insert t b)) (hw : c.insert cast q ctx b ≠ .waits) :
    Lives env (fun k => InsertS env cast k q ctx b) (Free env) c (c.insert cast q ctx b) := by
  rw [insert_eq] at hw ⊢
  refine lives_then (R := Free env) (P := fun k => ClearS env k) (Q := fun k => Then (SendInsertS env k ctx q) fun x r =>
    match cast b x.2 with
    | .err e => r = .err (.other e)
    | .panic => r = .panic
    | .ok b =>
      match insertChunks b with
      | .ok (ch :: chs) => Then (InsertBlockS env x.1 ctx ch) (InsertTailS env ctx q chs) r
      | _ => r = .panic) (fun h => lives_clear h) (fun c1 hc1 => ?_) hw
  have hw1 := ne_waits hw hc1
  refine step (lives_then (R := With env) (P := fun k => SendInsertS env k ctx q) (fun h => lives_sendInsert h) (fun x hx => ?_) hw1)
  have hw2 := ne_waits hw1 hx
  obtain ⟨c2, d⟩ := x
  simp only at hw2 ⊢
  cases hca : cast b d with
  | err e =>
    refine fun m => ⟨m, fun a ha => ⟨.err (.other e), ?_, .err⟩⟩
    rw [show d = a.2 from ha.2.symm] at hca
    simp only [hca]
  | panic =>
    refine fun m => ⟨m, fun a ha => ⟨.panic, ?_, .panic⟩⟩
    rw [show d = a.2 from ha.2.symm] at hca
    simp only [hca]
  | ok b' =>
    simp only [hca] at hw2 ⊢
    cases hch : insertChunks b' with
    | err e =>
      refine fun m => ⟨m, fun a ha => ⟨.panic, ?_, .panic⟩⟩
      rw [show d = a.2 from ha.2.symm] at hca
      simp only [hca, hch]
    | panic =>
      refine fun m => ⟨m, fun a ha => ⟨.panic, ?_, .panic⟩⟩
      rw [show d = a.2 from ha.2.symm] at hca
      simp only [hca, hch]
    | ok chs =>
      cases chs with
      | nil =>
        refine fun m => ⟨m, fun a ha => ⟨.panic, ?_, .panic⟩⟩
        rw [show d = a.2 from ha.2.symm] at hca
        simp only [hca, hch]
      | cons ch chs =>
        simp only [hch] at hw2 ⊢
        have he := fun ch => hb d b' _ ch hca hch
        have := lives_then (R := Free env) (S := Free env) (P := fun k => InsertBlockS env k ctx ch) (Q := InsertTailS env ctx q chs)
          (y := fun c => c.insertTail ctx q chs)
          (fun h => lives_insertBlock (he ch (.head _)) h)
          (fun y hy => step (lives_insertTail chs (fun b hm => he b (.tail _ hm)) (ne_waits hw2 hy :))) hw2
        intro m
        obtain ⟨n, h⟩ := this m
        refine ⟨n, fun a ha => ?_⟩
        obtain ⟨r, g1, g2⟩ := h a.1 ha.1
        refine ⟨r, ?_, g2⟩
        have hca' := hca
        rw [show d = a.2 from ha.2.symm] at hca'
        simp only [hca', hch]
        exact g1

/-! ### Handles -/

theorem precheck_progress {env : Env} {c : Conn} {ctx : Context} {b : Binding} {h1 : Handle} {w1 : World}
    (h : (Handle.mk (some c) ctx b).precheck [] = (.ok (), h1, w1)) :
    ∃ c1 b1, h1 = ⟨some c1, ctx, b1⟩ ∧ ∀ m, ∃ n, ∀ k, Free env n k c →
      ∃ k1, PrecheckS env ⟨some k, ctx, b⟩ [] (.ok ()) ⟨some k1, ctx, b1⟩ [] ∧ Free env m k1 c1 := by
  cases hp : ctx.options.pingBeforeQuery with
  | false =>
    simp only [Handle.precheck, hp, Bool.false_eq_true, if_false, Prod.mk.injEq, true_and] at h
    exact ⟨c, b, h.1.symm, fun m => ⟨m, fun k hk => ⟨k, .off hp, hk⟩⟩⟩
  | true =>
    simp only [Handle.precheck, hp, if_true, Handle.checkConnection] at h
    cases hd : b.detach with
    | none => rw [hd] at h; simp at h
    | some b' =>
      rw [hd] at h
      simp only [retryGuard] at h
      rw [retryLoop_eq] at h
      simp only [Bool.false_eq_true, if_false] at h
      generalize hq : (Handle.mk (some c) ctx b').ping = q at h
      obtain ⟨r, g⟩ := q
      cases r with
      | ok u =>
        simp only [Prod.mk.injEq, true_and] at h
        obtain ⟨c', e1, rfl⟩ := ping_ok_iff hq
        refine ⟨c', if b' = .detached then .attached else b', h.1.symm, fun m => ?_⟩
        have hl := lives_ping (env := env) (c := c) (by rw [e1]; exact nofun)
        obtain ⟨n, hl⟩ := hl m
        refine ⟨n, fun k hk => ?_⟩
        obtain ⟨r, g1, g2⟩ := hl k hk
        rw [e1] at g2
        cases g2 with
        | @ok k1 _ hk1 =>
          refine ⟨k1, ?_, hk1⟩
          exact .ok (h' := ⟨some k1, ctx, b'⟩) hp hd (.ok (by
            rw [AttemptS]
            simp only [Bool.false_eq_true, if_false, PingS]
            exact .ok g1))
      | err e =>
        simp only at h
        split at h
        · rename_i heq
          split at heq <;> simp at heq
        · rename_i hne
          split at h <;> simp at h
      | panic => simp at h
      | waits => simp at h

/-- Handles, as `IsHandle`, with a socket that takes enough. -/
structure FreeHandle (env : Env) (m : Nat) (h : HandleS) (c : Handle) : Prop where
  inner : Both (Free env m) h.inner c.inner
  context : h.context = c.context
  binding : h.binding = c.binding

/-- Result streams, as `IsStream`, with a socket that takes enough. -/
structure FreeStream (env : Env) (m : Nat) (s : BStreamS) (b : BStream) : Prop where
  is : IsStream env s b
  free : Eased env m s.inner s.writer.evs

theorem reads_on {env : Env} {m : Nat} (n : Nat) : ∀ {s : BStreamS} {b : BStream} {h : HandleS} {hc : Handle}, b.inner.fuel = n →
    FreeStream env m s b → FreeHandle env m h hc → (b.read hc).1 ≠ .waits →
    ∃ s' h', ReadS env s h (b.read hc).1 s' h' ∧ FreeStream env m s' (b.read hc).2.1 ∧ FreeHandle env m h' (b.read hc).2.2 := by
  induction n using Nat.strongRecOn with
  | _ n ih =>
    intro s b h hc hn hs hh hw
    obtain ⟨bi, bs, bx, bk⟩ := b
    have hne : bi.next.1 ≠ .waits := by
      intro hx
      apply hw
      cases hq : bi.next with
      | mk i cs' =>
        rw [hq] at hx
        simp only at hx
        subst hx
        rw [read_waits (s := ⟨bi, bs, bx, bk⟩) hq]
    obtain ⟨r, i, l, wl, ha, e1, e2⟩ := awaitS_progress hs.is.tracks hs.is.reads hs.is.writes hs.free hne
    obtain ⟨x, j, hx, g1, g2, g3, g4, g5, g6⟩ := await_same hs.is ha
    simp only at hx
    have hstr : ∀ {st ix}, FreeStream env m { s with inner := i, revs := l, writer := wl, state := st, blockIndex := ix } ⟨j, st, ix, bk⟩ :=
      ⟨⟨g2, g3, g4, g5, rfl, rfl, hs.is.skip⟩, e1⟩
    have hst : s.state = bs := hs.is.state
    have hix : s.blockIndex = bx := hs.is.index
    have hsk : s.skipFirst = bk := hs.is.skip
    have hstr0 : FreeStream env m { s with inner := i, revs := l, writer := wl } ⟨j, bs, bx, bk⟩ :=
      ⟨⟨g2, g3, g4, g5, hst, hix, hsk⟩, e1⟩
    have less : ∀ {p c}, x = .item p c → j.fuel < n := by
      intro p c hpx
      subst hpx
      rw [← hn]; exact CStream.next_item hx
    cases x with
    | waits => cases g1
    | ended =>
      cases g1
      rw [read_ended (s := ⟨bi, bs, bx, bk⟩) hx]
      exact ⟨_, _, .ended ha, ⟨⟨g2, g3, g4, g5, rfl, hix, hsk⟩, e1⟩, hh⟩
    | error e =>
      cases g1
      rw [read_error (s := ⟨bi, bs, bx, bk⟩) hx]
      exact ⟨_, _, .bad ha, hstr0, hh⟩
    | item p c =>
      have hr : ∃ t, r = .item p t := by
        cases g1 with
        | packet => exact ⟨_, rfl⟩
        | last _ _ => exact ⟨_, rfl⟩
      obtain ⟨t, rfl⟩ := hr
      have ho : Both (Free env m) (t.map (Sock.mk · l wl)) c := by
        obtain ⟨-, ho⟩ := agree_conn (wleft := wl) g1 g4 g5 (fun t' c' ht hc => g6 _ t' _ c' (by rw [ht]) (by rw [hc]))
        cases t with
        | none => cases ho; exact .none
        | some t => cases ho with
          | some ho => exact .some ⟨ho, e2 p t rfl⟩
      cases p with
      | eof =>
        rw [read_eof (s := ⟨bi, bs, bx, bk⟩) hx, ← hh.binding]
        have hfin : FreeStream env m { s with inner := i, revs := l, writer := wl, state := .finished } ⟨j, .finished, bx, bk⟩ :=
          ⟨⟨g2, g3, g4, g5, rfl, hix, hsk⟩, e1⟩
        by_cases hb : h.binding = .attached
        · rw [if_pos hb]
          exact ⟨_, _, .eof ha hb, hfin, ⟨ho, hh.context, rfl⟩⟩
        · rw [if_neg hb]
          cases hat : h.binding.attach with
          | none => exact ⟨_, _, .eofPanic ha hb hat, hstr0, ⟨ho, hh.context, rfl⟩⟩
          | some b => exact ⟨_, _, .eofAttach ha hb hat, hfin, ⟨ho, hh.context, rfl⟩⟩
      | profileInfo q =>
        rw [read_profile (s := ⟨bi, bs, bx, bk⟩) hx] at hw ⊢
        obtain ⟨s', h', r1, r2, r3⟩ := ih _ (less rfl) rfl hstr0 hh hw
        exact ⟨s', h', .profile ha r1, r2, r3⟩
      | progress q =>
        rw [read_progress (s := ⟨bi, bs, bx, bk⟩) hx] at hw ⊢
        obtain ⟨s', h', r1, r2, r3⟩ := ih _ (less rfl) rfl hstr0 hh hw
        exact ⟨s', h', .progress ha r1, r2, r3⟩
      | exception q =>
        rw [read_exception (s := ⟨bi, bs, bx, bk⟩) hx]
        exact ⟨_, _, .exception ha, ⟨⟨g2, g3, g4, g5, rfl, hix, hsk⟩, e1⟩, hh⟩
      | block blk =>
        rw [read_block (s := ⟨bi, bs, bx, bk⟩) hx] at hw ⊢
        simp only at hw ⊢
        have hinc : FreeStream env m { s with inner := i, revs := l, writer := wl, blockIndex := s.blockIndex + 1 } ⟨j, bs, bx + 1, bk⟩ :=
          ⟨⟨g2, g3, g4, g5, hst, by rw [hix], hsk⟩, e1⟩
        split
        · rename_i hcond
          exact ⟨_, _, .block ha (by rw [hix, hsk]; exact hcond), hinc, hh⟩
        · rename_i hcond
          rw [if_neg hcond] at hw
          obtain ⟨s', h', r1, r2, r3⟩ := ih _ (less rfl) rfl hinc hh hw
          exact ⟨s', h', .skipped ha (by rw [hix, hsk]; simpa using hcond) r1, r2, r3⟩
      | _ =>
        rw [read_other (s := ⟨bi, bs, bx, bk⟩) hx (by exact nofun) (by exact nofun) (by exact nofun) (by exact nofun) (by exact nofun)]
        exact ⟨_, _, .unexpected ha (by exact nofun) (by exact nofun) (by exact nofun) (by exact nofun) (by exact nofun), hstr0, hh⟩

theorem run_progress {env : Env} {m : Nat} (n : Nat) : ∀ {s : BStreamS} {b : BStream} {h : HandleS} {hc : Handle},
    FreeStream env m s b → FreeHandle env m h hc → BItem.waits ∉ (run n b hc).1 →
    ∃ s' h', RunS env n s h (run n b hc).1 s' h' ∧ FreeStream env m s' (run n b hc).2.1 ∧ FreeHandle env m h' (run n b hc).2.2 := by
  induction n with
  | zero => intro s b h hc hs hh _; exact ⟨s, h, .zero, hs, hh⟩
  | succ n ih =>
    intro s b h hc hs hh hw
    have hstep : BItem.waits ≠ (b.next hc).1 ∧ BItem.waits ∉ (run n (b.next hc).2.1 (b.next hc).2.2).1 := by
      simp only [run, List.mem_cons, not_or] at hw
      exact hw
    have h1 : ∃ s' h', NextS env s h (b.next hc).1 s' h' ∧ FreeStream env m s' (b.next hc).2.1 ∧ FreeHandle env m h' (b.next hc).2.2 := by
      have hst := hs.is.state
      have hne := hstep.1
      simp only [BStream.next, NextS] at hne ⊢
      rw [hst]
      cases hss : b.state with
      | reading =>
        rw [hss] at hne
        exact reads_on _ rfl hs hh (Ne.symm hne)
      | finished => exact ⟨s, h, ⟨rfl, rfl, rfl⟩, hs, hh⟩
      | error => exact ⟨s, h, ⟨rfl, rfl, rfl⟩, hs, hh⟩
    obtain ⟨s1, h1, a1, a2, a3⟩ := h1
    obtain ⟨s2, h2, b1, b2, b3⟩ := ih a2 a3 hstep.2
    refine ⟨s2, h2, ?_, b2, b3⟩
    simp only [run]
    exact .succ a1 b1

theorem drop_progress {env : Env} {m : Nat} {s : BStreamS} {b : BStream} {h : HandleS} {hc hc' : Handle} (hs : FreeStream env m s b)
    (hh : FreeHandle env m h hc) (hd : b.drop hc = some hc') : ∃ h', s.drop h = some h' ∧ FreeHandle env m h' hc' := by
  rw [BStream.drop] at hd
  rw [BStreamS.drop, hs.is.state, hh.binding]
  cases hss : b.state with
  | reading =>
    rw [hss] at hd
    simp only at hd ⊢
    cases hat : (if hc.binding = .attached then some Binding.attached else hc.binding.attach) with
    | none => rw [hat] at hd; simp at hd
    | some bd =>
      rw [hat] at hd
      simp only at hd ⊢
      have ht := hs.is.tracks
      have hmu := hs.is.mute
      have hre := hs.is.reads
      have hwr := hs.is.writes
      have hfr := hs.free
      obtain ⟨si, srevs, swevs, ss, sx, sk⟩ := s
      obtain ⟨bi, bs, bx, bk⟩ := b
      simp only at ht hd hmu hre hwr hfr ⊢
      cases ht with
      | gone =>
        simp only [Option.some.injEq] at hd
        subst hd
        exact ⟨_, rfl, ⟨hh.inner, hh.context, rfl⟩⟩
      | @has t c _ _ _ hca he hf =>
        simp only [Option.some.injEq] at hd
        subst hd
        exact ⟨_, rfl, ⟨.some ⟨⟨⟨hca.opened, rfl, hca.coming⟩, he, hmu.mute c rfl, hre, hwr, by rw [List.append_assoc]; exact hmu.told t c rfl rfl⟩, hfr⟩, hh.context, rfl⟩⟩
  | finished => rw [hss] at hd; simp only [Option.some.injEq] at hd; subst hd; exact ⟨h, rfl, hh⟩
  | error => rw [hss] at hd; simp only [Option.some.injEq] at hd; subst hd; exact ⟨h, rfl, hh⟩

/-- An operation that succeeds on a connection with the messages succeeds over a socket that delivers them and takes enough. -/
theorem ask_progress {env : Env} {numeric : Char → Bool} {cast : Block → Block → Out Block} {c : Conn} {ctx : Context} {b : Binding}
    {a : Wish} {o : List BItem} {c' : Conn} {ctx' : Context} {b' : Binding}
    (h : ask numeric cast ⟨some c, ctx, b⟩ a = some (o, ⟨some c', ctx', b'⟩)) (hw : BItem.waits ∉ o) (he : DataEncodes env cast ctx a) :
    ∀ m, ∃ n, ∀ k, Free env n k c →
      ∃ k', AskS env numeric cast ⟨some k, ctx, b⟩ [] a (.items o) ⟨some k', ctx', b'⟩ ∧ Free env m k' c' := by
  have checked : ∀ {F : Conn → Context → OpRes Conn} {P : Sock → Context → OpRes Sock → Prop} {G : Handle} (r : World),
      (∀ c, F c ctx ≠ .waits → Lives env (fun k => P k ctx) (Free env) c (F c ctx)) →
      checkedC F ⟨some c, ctx, b⟩ [] = (.ok (), G, r) → G = ⟨some c', ctx', b'⟩ →
      ∀ m, ∃ n, ∀ k, Free env n k c → ∃ k', Checked env P ⟨some k, ctx, b⟩ [] (.ok ()) ⟨some k', ctx', b'⟩ [] ∧ Free env m k' c' := by
    intro F P G r hF hc hG m
    rw [checkedC] at hc
    generalize hp : (Handle.mk (some c) ctx b).precheck [] = q at hc
    obtain ⟨u, h1, w1⟩ := q
    cases u with
    | ok u =>
      obtain ⟨c1, b1, rfl, p1⟩ := precheck_progress (env := env) hp
      simp only at hc
      cases hf : F c1 ctx with
      | ok d =>
        rw [hf] at hc
        simp only [putC, Prod.mk.injEq, true_and] at hc
        rw [← hc.1] at hG
        simp only [Handle.mk.injEq, Option.some.injEq] at hG
        obtain ⟨rfl, rfl, rfl⟩ := hG
        obtain ⟨n1, h1⟩ := hF c1 (by rw [hf]; exact nofun) m
        obtain ⟨n, h2⟩ := p1 n1
        refine ⟨n, fun k hk => ?_⟩
        obtain ⟨k1, g1, g2⟩ := h2 k hk
        obtain ⟨r, g3, g4⟩ := h1 k1 g2
        rw [hf] at g4
        cases g4 with
        | @ok k2 _ hk2 => exact ⟨k2, .done g1 rfl (.ok g3), hk2⟩
      | err e => rw [hf] at hc; simp [putC] at hc
      | panic => rw [hf] at hc; simp [putC] at hc
      | waits => rw [hf] at hc; simp [putC] at hc
    | err e => simp at hc
    | panic => simp at hc
    | waits => simp at hc
  cases a with
  | ping =>
    simp only [ask] at h
    generalize hp : (Handle.mk (some c) ctx b).ping = q at h
    obtain ⟨u, h1⟩ := q
    cases u with
    | ok u =>
      obtain ⟨c1, p1, rfl⟩ := ping_ok_iff hp
      simp only [Option.some.injEq, Prod.mk.injEq, Handle.mk.injEq] at h
      obtain ⟨rfl, rfl, rfl, rfl⟩ := h
      intro m
      obtain ⟨n, hl⟩ := lives_ping (env := env) (c := c) (by rw [p1]; exact nofun) m
      refine ⟨n, fun k hk => ?_⟩
      obtain ⟨r, g1, g2⟩ := hl k hk
      rw [p1] at g2
      cases g2 with
      | @ok k1 _ hk1 =>
        refine ⟨k1, .ping ?_, hk1⟩
        simp only [PingS]
        exact .ok g1
    | err e => simp at h
    | panic => simp at h
    | waits => simp at h
  | execute q =>
    simp only [ask, execute_checked] at h
    generalize hz : checkedC (fun c ctx => c.execute q ctx) ⟨some c, ctx, b⟩ [] = z at h
    obtain ⟨u, h1, w1⟩ := z
    cases u with
    | ok u =>
      simp only [Option.some.injEq, Prod.mk.injEq] at h
      obtain ⟨rfl, hg⟩ := h
      intro m
      obtain ⟨n, hn⟩ := checked (P := fun k ctx => ExecuteS env k q ctx) w1 (fun c hc => lives_execute hc) hz hg m
      refine ⟨n, fun k hk => ?_⟩
      obtain ⟨k', g1, g2⟩ := hn k hk
      exact ⟨k', .execute g1, g2⟩
    | err e => simp at h
    | panic => simp at h
    | waits => simp at h
  | insert tb blk =>
    simp only [ask] at h
    rw [insert_checked] at h
    cases hm : makeQuery numeric tb blk with
    | err e => rw [hm] at h; simp at h
    | panic => rw [hm] at h; simp at h
    | ok q =>
      rw [hm] at h
      simp only at h
      generalize hz : checkedC (fun c ctx => c.insert cast q ctx blk) ⟨some c, ctx, b⟩ [] = z at h
      obtain ⟨u, h1, w1⟩ := z
      cases u with
      | ok u =>
        simp only [Option.some.injEq, Prod.mk.injEq] at h
        obtain ⟨rfl, hg⟩ := h
        intro m
        obtain ⟨n, hn⟩ := checked (P := fun k ctx => InsertS env cast k q ctx blk) w1 (fun c hc => lives_insert he hc) hz hg m
        refine ⟨n, fun k hk => ?_⟩
        obtain ⟨k', g1, g2⟩ := hn k hk
        refine ⟨k', .insert (w' := []) ?_, g2⟩
        simp only [HandleS.insert, hm]
        exact g1
      | err e => simp at h
      | panic => simp at h
      | waits => simp at h
  | select q skip n =>
    simp only [ask, Handle.openStream] at h
    generalize hp : (Handle.mk (some c) ctx b).precheck [] = z at h
    obtain ⟨u, h1, w1⟩ := z
    cases u with
    | ok u =>
      obtain ⟨c1, b1, rfl, p1⟩ := precheck_progress (env := env) hp
      simp only at h
      cases hd : b1.detach with
      | none => rw [hd] at h; simp at h
      | some b2 =>
        rw [hd] at h
        simp only at h
        generalize hr : run n (BStream.new (c1.call (.sendQuery q ctx)) skip) ⟨none, ctx, b2⟩ = z at h
        obtain ⟨is, s', h'⟩ := z
        simp only [Option.map_eq_some_iff, Prod.mk.injEq] at h
        obtain ⟨g, hdrop, rfl, rfl⟩ := h
        intro m
        obtain ⟨N, p1⟩ := p1 (m + cost env (.sendQuery q ctx))
        refine ⟨N, fun k hk => ?_⟩
        obtain ⟨k1, g1, g2⟩ := p1 k hk
        obtain ⟨ht, hm⟩ := call_tracks (cmd := .sendQuery q ctx) g2.is (query_encodes env q ctx)
        have hst : FreeStream env m ⟨k1.t.call (.sendQuery q ctx), k1.revs, k1.writer, .reading, 0, skip⟩
            (BStream.new (c1.call (.sendQuery q ctx)) skip) :=
          ⟨⟨ht, hm, g2.is.reads, g2.is.writes, rfl, rfl, rfl⟩, call_eased g2 (Nat.le_refl _)⟩
        obtain ⟨s2, h2, r1, r2, r3⟩ := run_progress n hst
          (⟨.none, rfl, rfl⟩ : FreeHandle env m ⟨none, ctx, b2⟩ ⟨none, ctx, b2⟩) (by rw [hr]; exact hw)
        rw [hr] at r1 r2 r3
        obtain ⟨h3, d1, d2⟩ := drop_progress r2 r3 hdrop
        obtain ⟨i3, c3, b3⟩ := h3
        obtain ⟨q1, q2, q3⟩ := d2
        simp only at q1 q2 q3
        subst q2 q3
        cases q1 with
        | @some k3 _ q1 => exact ⟨k3, .select (.opened g1 hd rfl) r1 d1, q1⟩
    | err e => simp at h
    | panic => simp at h
    | waits => simp at h

end CH.Progress
