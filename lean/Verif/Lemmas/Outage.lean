import Verif.Spec.Outage
import Verif.Lemmas.Socket

/-!
Every operation over a socket that may fail or end gives what the operation of `Model/Client` gives for some messages heard.
-/

namespace CH.Outage
open CH CH.Spec CH.Socket

theorem hears_mono {env : Env} {E E' : Prop} {n m : Nat} {i : TransportInfo} {bs : Bytes} {xs : List Inc} (h : Hears env E n i bs xs)
    (he : E → E') (hn : n ≤ m) : Hears env E' m i bs xs := by
  induction h generalizing m with
  | stop => exact .stop
  | packet h hk _ ih => exact .packet h hk (ih hn)
  | error h _ ih => exact .error h (ih hn)
  | failure e _ ih =>
    cases m with
    | zero => omega
    | succ m => exact .failure e (ih (by omega))
  | closed h _ ih => exact .closed (he h) (ih hn)

/-! ### What a poll uses up -/

theorem readToEnd_uses {start : Nat} {evs left : List ReadEv} {rd rd' : Bytes} {f : Fill} (h : readToEnd start evs rd = (f, rd', left)) :
    ∃ used, evs = used ++ left ∧ (f = .fail → .fail ∈ used) ∧ (∀ n, f = .ready n → .ready [] ∈ used) := by
  fun_induction readToEnd start evs rd with
  | case1 rd =>
    simp only [Prod.mk.injEq] at h
    obtain ⟨rfl, rfl, rfl⟩ := h
    exact ⟨[], rfl, nofun, nofun⟩
  | case2 evs rd =>
    simp only [Prod.mk.injEq] at h
    obtain ⟨rfl, rfl, rfl⟩ := h
    exact ⟨[.pending], rfl, nofun, nofun⟩
  | case3 evs rd =>
    simp only [Prod.mk.injEq] at h
    obtain ⟨rfl, rfl, rfl⟩ := h
    exact ⟨[.fail], rfl, fun _ => by simp, nofun⟩
  | case4 evs rd =>
    simp only [Prod.mk.injEq] at h
    obtain ⟨rfl, rfl, rfl⟩ := h
    exact ⟨[.ready []], rfl, nofun, fun _ _ => by simp⟩
  | case5 b evs rd hb ih =>
    obtain ⟨used, h1, h2, h3⟩ := ih h
    exact ⟨.ready b :: used, by rw [h1]; rfl, fun e => List.mem_cons_of_mem _ (h2 e), fun n e => List.mem_cons_of_mem _ (h3 n e)⟩

theorem fillLoop_uses {evs left : List ReadEv} {rd rd' : Bytes} {f : FillEnd} (h : fillLoop evs rd = (f, rd', left)) :
    ∃ used, evs = used ++ left ∧ (f = .broken → .fail ∈ used) ∧ (f = .closed → .ready [] ∈ used) := by
  fun_induction fillLoop evs rd with
  | case1 evs rd rd1 evs1 hr =>
    simp only [Prod.mk.injEq] at h
    obtain ⟨rfl, rfl, rfl⟩ := h
    obtain ⟨used, h1, _, h3⟩ := readToEnd_uses hr
    exact ⟨used, h1, nofun, fun _ => h3 _ rfl⟩
  | case2 evs rd n rd1 evs1 hr ih =>
    obtain ⟨used, h1, _, _⟩ := readToEnd_uses hr
    obtain ⟨used2, h2, h3, h4⟩ := ih h
    exact ⟨used ++ used2, by rw [h1, h2, List.append_assoc], fun e => List.mem_append_right _ (h3 e),
      fun e => List.mem_append_right _ (h4 e)⟩
  | case3 evs rd rd1 evs1 hr =>
    simp only [Prod.mk.injEq] at h
    obtain ⟨rfl, rfl, rfl⟩ := h
    obtain ⟨used, h1, h2, _⟩ := readToEnd_uses hr
    exact ⟨used, h1, fun _ => h2 rfl, nofun⟩
  | case4 evs rd rd1 evs1 hr =>
    simp only [Prod.mk.injEq] at h
    obtain ⟨rfl, rfl, rfl⟩ := h
    obtain ⟨used, h1, _, _⟩ := readToEnd_uses hr
    exact ⟨used, h1, nofun, nofun⟩

/-- What a poll has used of the socket, and what it leaves as it was. -/
def Uses (t : Transport) (evs : List ReadEv) (r : TPoll) (t' : Transport) (left : List ReadEv) : Prop :=
  ∃ used, evs = used ++ left ∧ (r = .broken → .fail ∈ used) ∧ (r = .closed → t.done = true ∨ .ready [] ∈ used) ∧
    (t'.done = true → t.done = true ∨ .ready [] ∈ used) ∧ t'.inconsistent = t.inconsistent

theorem fillAndParse_uses {env : Env} {t t' : Transport} {r : TPoll} {evs left : List ReadEv} (h : t.fillAndParse env evs = (r, t', left)) :
    Uses t evs r t' left := by
  rw [Transport.fillAndParse] at h
  split at h
  · next hd =>
    simp only [Prod.mk.injEq] at h
    obtain ⟨rfl, rfl, rfl⟩ := h
    exact ⟨[], rfl, nofun, fun _ => .inl hd, .inl, rfl⟩
  · split at h
    · next rd evs' hf =>
      simp only [Prod.mk.injEq] at h
      obtain ⟨rfl, rfl, rfl⟩ := h
      obtain ⟨used, h1, h2, _⟩ := fillLoop_uses hf
      exact ⟨used, h1, fun _ => h2 rfl, nofun, .inl, rfl⟩
    · next rd evs' hf =>
      simp only [Prod.mk.injEq] at h
      obtain ⟨rfl, rfl, rfl⟩ := h
      obtain ⟨used, h1, _, h2⟩ := fillLoop_uses hf
      exact ⟨used, h1, nofun, fun _ => .inr (h2 rfl), fun _ => .inr (h2 rfl), rfl⟩
    · next rd evs' hf =>
      obtain ⟨used, h1, _, _⟩ := fillLoop_uses hf
      split at h
      all_goals
        rename_i ht
        simp only [Prod.mk.injEq] at h
        obtain ⟨rfl, rfl, rfl⟩ := h
        obtain ⟨g1, g2, g3, g4, -⟩ := tryParse_same ht
        exact ⟨used, h1, fun e => absurd e g4, fun e => absurd e g3, fun e => .inl (g2 ▸ e), g1⟩

theorem pollNext_uses {env : Env} {t t' : Transport} {r : TPoll} {evs left : List ReadEv} (h : t.pollNext env evs = (r, t', left)) :
    Uses t evs r t' left := by
  rw [Transport.pollNext] at h
  split at h
  · split at h
    · next t1 ht =>
      obtain ⟨_, _, _, _, _, hp, _⟩ := tryParse_spec ht
      have he := (hp rfl).1
      subst he
      exact fillAndParse_uses h
    · next r1 t1 hne ht =>
      simp only [Prod.mk.injEq] at h
      obtain ⟨rfl, rfl, rfl⟩ := h
      obtain ⟨g1, g2, g3, g4, -⟩ := tryParse_same ht
      exact ⟨[], rfl, fun e => absurd e g4, fun e => absurd e g3, fun e => .inl (g2 ▸ e), g1⟩
  · exact fillAndParse_uses h

/-- What sending has used of the socket; it leaves commands that can be encoded. -/
theorem flush_uses {z : Codec} {t t' : Transport} {r : SPoll} {out : Bytes} {evs left : List WriteEv}
    (he : ∀ c ∈ t.cmds, ∃ b, c.encode z = .ok b) (h : Transport.send.flush z t evs = (r, out, t', left)) :
    (∃ used, evs = used ++ left ∧ (r = .fail → .fail ∈ used)) ∧ r ≠ .panic ∧ (∀ c ∈ t'.cmds, ∃ b, c.encode z = .ok b) := by
  induction evs generalizing t r out t' left with
  | nil =>
    simp only [Transport.send.flush, Prod.mk.injEq] at h
    obtain ⟨rfl, rfl, rfl, rfl⟩ := h
    exact ⟨⟨[], rfl, nofun⟩, nofun, he⟩
  | cons e evs ih =>
    cases e with
    | pending =>
      simp only [Transport.send.flush, Prod.mk.injEq] at h
      obtain ⟨rfl, rfl, rfl, rfl⟩ := h
      exact ⟨⟨[.pending], rfl, nofun⟩, nofun, he⟩
    | fail =>
      simp only [Transport.send.flush, Prod.mk.injEq] at h
      obtain ⟨rfl, rfl, rfl, rfl⟩ := h
      exact ⟨⟨[.fail], rfl, fun _ => by simp⟩, nofun, he⟩
    | wrote n =>
      have step : ∀ t1 : Transport, (∀ c ∈ t1.cmds, ∃ b, c.encode z = .ok b) → ∀ o,
          (let r := Transport.send.flush z t1 evs; (r.1, o ++ r.2.1, r.2.2)) = (r, out, t', left) →
          (∃ used, WriteEv.wrote n :: evs = used ++ left ∧ (r = .fail → .fail ∈ used)) ∧ r ≠ .panic ∧
            (∀ c ∈ t'.cmds, ∃ b, c.encode z = .ok b) := by
        intro t1 h1 o h
        cases hf : Transport.send.flush z t1 evs with
        | mk r1 q =>
          obtain ⟨o1, t2, l1⟩ := q
          rw [hf] at h
          simp only [Prod.mk.injEq] at h
          obtain ⟨rfl, -, rfl, rfl⟩ := h
          obtain ⟨⟨used, h2, h3⟩, h4, h5⟩ := ih h1 hf
          exact ⟨⟨.wrote n :: used, by rw [h2]; rfl, fun e => List.mem_cons_of_mem _ (h3 e)⟩, h4, h5⟩
      simp only [Transport.send.flush] at h
      split at h
      · split at h
        · next hc =>
          simp only [Prod.mk.injEq] at h
          obtain ⟨rfl, rfl, rfl, rfl⟩ := h
          exact ⟨⟨[.wrote n], rfl, nofun⟩, nofun, he⟩
        · next c cs hc =>
          obtain ⟨b, hb⟩ := he c (by rw [hc]; simp)
          rw [hb] at h
          exact step _ (fun d hd => he d (by rw [hc]; exact List.mem_cons_of_mem _ hd)) _ h
      · exact step { t with wr := t.wr.drop n } he _ h

theorem send_uses {z : Codec} {t t' : Transport} {r : SPoll} {out : Bytes} {evs left : List WriteEv}
    (he : ∀ c ∈ t.cmds, ∃ b, c.encode z = .ok b) (h : t.send z evs = (r, out, t', left)) :
    (∃ used, evs = used ++ left ∧ (r = .fail → .fail ∈ used)) ∧ r ≠ .panic ∧ (∀ c ∈ t'.cmds, ∃ b, c.encode z = .ok b) := by
  rw [Transport.send] at h
  split at h
  · split at h
    · next hc =>
      simp only [Prod.mk.injEq] at h
      obtain ⟨rfl, rfl, rfl, rfl⟩ := h
      exact ⟨⟨[], rfl, nofun⟩, nofun, he⟩
    · next c cs hc =>
      obtain ⟨b, hb⟩ := he c (by rw [hc]; simp)
      rw [hb] at h
      exact flush_uses (fun d hd => he d (by rw [hc]; exact List.mem_cons_of_mem _ hd)) h
  · exact flush_uses he h

/-! ### Awaiting a packet -/

/-- What may be heard on a connection whose socket will do `revs` and `wevs`. -/
def HearsT (env : Env) (t : Transport) (revs : List ReadEv) (wevs : List WriteEv) (xs : List Inc) : Prop :=
  Hears env (Closes t revs) (failures revs wevs) t.info (t.rd ++ received revs) xs

theorem count_append {used left : List ReadEv} : (used ++ left).count .fail = used.count .fail + left.count .fail := by
  rw [List.count_append]

theorem decodes_nil {env : Env} {i j : TransportInfo} {bs r : Bytes} (h : Decodes env i bs [] j r) : j = i ∧ r = bs := by
  cases h; exact ⟨rfl, rfl⟩

theorem decodes_packet {env : Env} {i j : TransportInfo} {bs r : Bytes} {p : Packet} (h : Decodes env i bs [.inl p] j r) :
    parsePacket env i bs = .ok p r ∧ Knows i p j := by
  cases h with
  | packet h hk t => cases t; exact ⟨h, hk⟩

theorem decodes_error {env : Env} {i j : TransportInfo} {bs r : Bytes} {e : Err} (h : Decodes env i bs [.inr e] j r) :
    parsePacket env i bs = .err e r ∧ j = i := by
  cases h with
  | error h t => cases t; exact ⟨h, rfl⟩

theorem transport_hears {env : Env} {t t' : Transport} {r : TPoll} {revs left : List ReadEv} {wevs : List WriteEv} {ys : List Inc} (e0 : Err)
    (h : t.pollNext env revs = (r, t', left)) (hy : HearsT env t' left wevs ys) :
    match r with
    | .pending => HearsT env t revs wevs ys
    | .item p => HearsT env t revs wevs (.packet p :: ys)
    | .bad e => HearsT env t revs wevs (.error e :: ys)
    | .broken => HearsT env t revs wevs (.error e0 :: ys)
    | .closed => HearsT env t revs wevs (.closed :: ys)
    | .panic => True := by
  obtain ⟨used, h1, h2, -⟩ := pollNext_spec h
  obtain ⟨used', h1', u1, u2, u3, -⟩ := pollNext_uses h
  have hu : used = used' := List.append_cancel_right (h1.symm.trans h1')
  subst hu
  have hcl : Closes t' left → Closes t revs := by
    intro hc
    rw [h1]
    rcases hc with hc | hc
    · exact (u3 hc).imp id (List.mem_append_left _)
    · exact .inr (List.mem_append_right _ hc)
  have hn : failures left wevs ≤ failures revs wevs := by
    rw [failures, failures, h1, count_append]; omega
  have hb : t.rd ++ received revs = (t.rd ++ received used) ++ received left := by rw [h1, received_append, List.append_assoc]
  have hy' := hears_mono hy hcl hn
  have h3 := h2.extend (received left)
  rw [← hb] at h3
  cases r with
  | pending =>
    obtain ⟨e1, e2⟩ := decodes_nil h3
    rw [e1, e2] at hy'
    exact hy'
  | item p =>
    obtain ⟨e1, e2⟩ := decodes_packet h3
    exact .packet e1 e2 hy'
  | bad e =>
    obtain ⟨e1, e2⟩ := decodes_error h3
    rw [e2] at hy'
    exact .error e1 hy'
  | broken =>
    obtain ⟨e1, e2⟩ := decodes_nil h3
    have hm := hears_mono hy hcl (Nat.le_refl _)
    rw [e1, e2] at hm
    have hc : failures left wevs + 1 ≤ failures revs wevs := by
      have := List.count_pos_iff.mpr (u1 rfl)
      rw [failures, failures, h1, count_append]; omega
    exact hears_mono (.failure e0 hm) id hc
  | closed =>
    obtain ⟨e1, e2⟩ := decodes_nil h3
    rw [e1, e2] at hy'
    refine .closed ?_ hy'
    rw [h1]
    exact (u2 rfl).imp id (List.mem_append_left _)
  | panic => trivial

/-- The connection on decoded messages in a stream. -/
def connT (t : Transport) (lg : List Cmd) (ys : List Inc) : Conn := ⟨ys, fun _ => [], t.inconsistent, lg⟩

/-- The stream over the socket and the stream on which `ys` come. -/
inductive Like (lg : List Cmd) (ys : List Inc) : PStream → CStream → Prop where
  | gone {st b f b'} : Like lg ys ⟨none, st, b⟩ ⟨none, f, b'⟩
  | has {t st b} : Like lg ys ⟨some t, st, b⟩ ⟨some (connT t lg ys), decide (st = .done), b⟩

theorem like_of {lg : List Cmd} {ys : List Inc} {t : Transport} {st : PState} {b f : Bool} {c : Conn} (h : c = connT t lg ys)
    (hf : f = decide (st = .done)) : Like lg ys ⟨some t, st, b⟩ ⟨some c, f, b⟩ := by
  subst h hf; exact .has

/-- The commands given to the connection in a stream. -/
def IssuedS (env : Env) (s : PStream) (w : Writer) (lg : List Cmd) : Prop :=
  ∀ t, s.inner = some t → Encodable env t ∧ w.out ++ owed env t = cmdBytes env.codec lg

/-- What may be heard on the connection in a stream. -/
def HearsS (env : Env) (s : PStream) (revs : List ReadEv) (wevs : List WriteEv) (xs : List Inc) : Prop :=
  ∀ t, s.inner = some t → HearsT env t revs wevs xs

/-- What may be heard after a result: on the connection handed out, or else on the one in the stream. -/
def HearsAfter (env : Env) (r : PPoll) (s : PStream) (revs : List ReadEv) (wevs : List WriteEv) (xs : List Inc) : Prop :=
  match handedBack r with
  | some t => HearsT env t revs wevs xs
  | none => HearsS env s revs wevs xs

/-- A result of the stream over the socket and one of the other. -/
inductive Meets (e0 : Err) (lg : List Cmd) (ys : List Inc) : PPoll → CItem → Prop where
  | packet {p} : Meets e0 lg ys (.item p none) (.item p none)
  | last {p t} : Meets e0 lg ys (.item p (some t)) (.item p (some (connT t lg ys)))
  | bad {e} : Meets e0 lg ys (.bad e) (.error e)
  | broken : Meets e0 lg ys .broken (.error e0)
  | ended : Meets e0 lg ys .ended .ended

/-- A result other than "not ready" is what the other stream gives when the right messages are heard. -/
def Follows (env : Env) (e0 : Err) (lg : List Cmd) (s : PStream) (revs : List ReadEv) (wevs : List WriteEv) (r : PPoll) (s' : PStream)
    (ys : List Inc) : Prop :=
  ∃ xs, HearsS env s revs wevs xs ∧ ∀ cs, Like lg xs s cs → ∃ x cs', cs.next = (x, cs') ∧ Like lg ys s' cs' ∧ Meets e0 lg ys r x

theorem receive_hears {env : Env} {t : Transport} {st : PState} {b : Bool} {r : PPoll} {s' : PStream} {revs left : List ReadEv}
    {wevs : List WriteEv} {lg : List Cmd} {ys : List Inc} (e0 : Err) (hst : st ≠ .done)
    (h : PStream.receive env ⟨some t, st, b⟩ revs = (r, s', left)) (hp : r ≠ .panic) (hy : HearsAfter env r s' left wevs ys) :
    (r = .pending → HearsT env t revs wevs ys ∧ ∀ cs, Like lg ys ⟨some t, st, b⟩ cs → Like lg ys s' cs) ∧
      (r ≠ .pending → Follows env e0 lg ⟨some t, st, b⟩ revs wevs r s' ys) := by
  have hd : decide (st = .done) = false := by simp [hst]
  simp only [PStream.receive] at h
  split at h
  · next p t1 evs hpoll =>
    obtain ⟨-, -, -, -, -, hin⟩ := pollNext_uses hpoll
    split at h
    · next hc =>
      simp only [Prod.mk.injEq] at h
      obtain ⟨rfl, rfl, rfl⟩ := h
      have := transport_hears e0 hpoll (show HearsT env t1 evs wevs ys from hy)
      refine ⟨nofun, fun _ => ⟨.packet p :: ys, fun t' e => by cases e; exact this, fun cs hl => ?_⟩⟩
      cases hl
      refine ⟨_, _, by rw [hd]; exact next_taken rfl hc, .gone, ?_⟩
      have := Meets.last (e0 := e0) (lg := lg) (ys := ys) (p := p) (t := t1)
      rw [connT, hin] at this
      exact this
    · next hc =>
      have hc' : p.takesConn = false := by simpa using hc
      split at h
      all_goals
        next hb =>
        simp only [Prod.mk.injEq] at h
        obtain ⟨rfl, rfl, rfl⟩ := h
        have := transport_hears e0 hpoll (hy _ rfl)
        refine ⟨nofun, fun _ => ⟨.packet p :: ys, fun t' e => by cases e; exact this, fun cs hl => ?_⟩⟩
        cases hl
        exact ⟨_, _, by rw [hd]; exact next_packet rfl hc', like_of (by simp [connT, hin]) (by simpa using hb), .packet⟩
  all_goals
    rename_i t1 evs hpoll
    obtain ⟨-, -, -, -, -, hin⟩ := pollNext_uses hpoll
    simp only [Prod.mk.injEq] at h
    obtain ⟨rfl, rfl, rfl⟩ := h
    first
    | exact absurd rfl hp
    | have := transport_hears e0 hpoll (hy _ rfl)
  · refine ⟨nofun, fun _ => ⟨_, fun t' e => by cases e; exact this, fun cs hl => ?_⟩⟩
    cases hl
    exact ⟨_, _, by rw [hd]; exact next_err rfl, like_of (by simp [connT, hin]) rfl, .bad⟩
  · refine ⟨nofun, fun _ => ⟨_, fun t' e => by cases e; exact this, fun cs hl => ?_⟩⟩
    cases hl
    exact ⟨_, _, by rw [hd]; exact next_err rfl, like_of (by simp [connT, hin]) rfl, .broken⟩
  · refine ⟨nofun, fun _ => ⟨_, fun t' e => by cases e; exact this, fun cs hl => ?_⟩⟩
    cases hl
    exact ⟨_, _, by rw [hd]; exact next_closed rfl, like_of (by simp [connT, hin]) rfl, .ended⟩
  · refine ⟨fun _ => ⟨this, fun cs hl => ?_⟩, fun e => absurd rfl e⟩
    cases hl
    rw [hd]
    exact like_of (by simp [connT, hin]) rfl

/-- One poll of a stream. -/
theorem poll_hears {env : Env} {s s' : PStream} {r : PPoll} {out : Bytes} {revs left : List ReadEv} {w : Writer} {wleft : List WriteEv}
    {lg : List Cmd} (h : s.pollNext env revs w.evs = (r, out, s', left, wleft)) (hi : IssuedS env s w lg) :
    (r ≠ .panic → ∀ e0 ys, HearsAfter env r s' left wleft ys →
      (r = .pending → HearsS env s revs w.evs ys ∧ ∀ cs, Like lg ys s cs → Like lg ys s' cs) ∧
      (r ≠ .pending → Follows env e0 lg s revs w.evs r s' ys)) ∧
    IssuedS env s' ⟨wleft, w.out ++ out⟩ lg ∧
    ∀ t, handedBack r = some t → Encodable env t ∧ (w.out ++ out) ++ owed env t = cmdBytes env.codec lg := by
  have hcarry : ∀ {t u : Transport} {st : PState} {b : Bool}, Encodable env u → PStream.receive env ⟨some u, st, b⟩ revs = (r, s', left) →
      (∀ t, s'.inner = some t → Encodable env t) ∧ ∀ t, handedBack r = some t → Encodable env t := by
    intro t u st b he hr
    obtain ⟨used, t', -, -, -, h4, -, -, h7⟩ := receive_spec rfl hr
    have he' : Encodable env t' := by rw [Encodable, h4]; exact he
    rcases h7 with ⟨i1, i2, -⟩ | ⟨i1, -, p, rfl, -⟩
    · exact ⟨fun t1 h1 => (by rw [i1] at h1; cases h1; exact he'), fun t1 h1 => by rw [i2] at h1; cases h1⟩
    · exact ⟨fun t1 h1 => (by rw [i1] at h1; cases h1), fun t1 h1 => by cases h1; exact he'⟩
  obtain ⟨inner, st, b⟩ := s
  cases inner with
  | none =>
    obtain ⟨s1, e, hn⟩ := pstream_poll_none (env := env) (s := ⟨none, st, b⟩) rfl revs w.evs
    rw [e] at h
    simp only [Prod.mk.injEq] at h
    obtain ⟨rfl, rfl, rfl, rfl, rfl⟩ := h
    obtain ⟨i1, st1, b1⟩ := s1
    simp only at hn
    subst hn
    refine ⟨fun _ e0 ys hy => ⟨nofun, fun _ => ⟨[], nofun, fun cs hl => ?_⟩⟩, nofun, nofun⟩
    cases hl
    exact ⟨_, _, next_none, .gone, .ended⟩
  | some t =>
    obtain ⟨he, hw⟩ := hi t rfl
    obtain ⟨o1, o2⟩ := poll_owed (s := ⟨some t, st, b⟩) rfl h
    have hout : ∀ t', out ++ owed env t' = owed env t → (w.out ++ out) ++ owed env t' = cmdBytes env.codec lg := by
      intro t' e; rw [List.append_assoc, e, hw]
    have hh : ∀ t', handedBack r = some t' → ∃ p, r = .item p (some t') := by
      intro t' e
      cases r <;> simp [handedBack] at e
      exact ⟨_, by rw [e]⟩
    suffices hmain : (r ≠ .panic → ∀ e0 ys, HearsAfter env r s' left wleft ys →
          (r = .pending → HearsS env ⟨some t, st, b⟩ revs w.evs ys ∧ ∀ cs, Like lg ys ⟨some t, st, b⟩ cs → Like lg ys s' cs) ∧
          (r ≠ .pending → Follows env e0 lg ⟨some t, st, b⟩ revs w.evs r s' ys)) ∧
        (∀ t, s'.inner = some t → Encodable env t) ∧ ∀ t, handedBack r = some t → Encodable env t by
      obtain ⟨m1, m2, m3⟩ := hmain
      refine ⟨m1, fun t' e => ⟨m2 t' e, hout t' (o1 t' e)⟩, fun t' e => ⟨m3 t' e, ?_⟩⟩
      obtain ⟨p, hr⟩ := hh t' e
      exact hout t' (o2 p t' hr)
    cases st with
    | done =>
      simp only [PStream.pollNext, PStream.finish, Prod.mk.injEq] at h
      obtain ⟨rfl, rfl, rfl, rfl, rfl⟩ := h
      refine ⟨fun _ e0 ys hy => ⟨nofun, fun _ => ⟨ys, fun t' e => by cases e; exact hy, fun cs hl => ?_⟩⟩, nofun, fun t' e => by cases e; exact he⟩
      cases hl
      exact ⟨_, _, next_finished, .gone, .last⟩
    | receive =>
      simp only [PStream.pollNext] at h
      generalize hr : PStream.receive env ⟨some t, .receive, b⟩ revs = q at h
      obtain ⟨r1, s1, l1⟩ := q
      simp only [Prod.mk.injEq] at h
      obtain ⟨rfl, rfl, rfl, rfl, rfl⟩ := h
      refine ⟨fun hp e0 ys hy => ?_, hcarry (t := t) he hr⟩
      obtain ⟨g1, g2⟩ := receive_hears (lg := lg) e0 (by simp) hr hp hy
      exact ⟨fun e => ⟨fun t' e' => by cases e'; exact (g1 e).1, (g1 e).2⟩, g2⟩
    | yield =>
      simp only [PStream.pollNext] at h
      generalize hr : PStream.receive env ⟨some t, .yield, b⟩ revs = q at h
      obtain ⟨r1, s1, l1⟩ := q
      simp only [Prod.mk.injEq] at h
      obtain ⟨rfl, rfl, rfl, rfl, rfl⟩ := h
      refine ⟨fun hp e0 ys hy => ?_, hcarry (t := t) he hr⟩
      obtain ⟨g1, g2⟩ := receive_hears (lg := lg) e0 (by simp) hr hp hy
      exact ⟨fun e => ⟨fun t' e' => by cases e'; exact (g1 e).1, (g1 e).2⟩, g2⟩
    | ask =>
      simp only [PStream.pollNext] at h
      generalize hs : t.send env.codec w.evs = q at h
      obtain ⟨u, o, t1, w1⟩ := q
      obtain ⟨⟨wused, hwu, hwf⟩, hnp, he1⟩ := send_uses he hs
      obtain ⟨-, -, -, g4, g5, g6, g7, g8⟩ := send_spec hs
      have hcl : ∀ {revs}, Closes t1 revs → Closes t revs := by
        intro revs hc
        rw [Closes, g7] at hc
        exact hc
      have hback : ∀ {xs n}, Hears env (Closes t1 revs) n t1.info (t1.rd ++ received revs) xs → n ≤ failures revs w.evs →
          HearsT env t revs w.evs xs := by
        intro xs n hx hn
        rw [g4, g5] at hx
        exact hears_mono hx hcl hn
      have hle : failures revs w1 ≤ failures revs w.evs := by
        rw [failures, failures, hwu, List.count_append]; omega
      cases u with
      | sent =>
        simp only at h
        generalize hr : PStream.receive env ⟨some t1, .receive, b⟩ revs = q at h
        obtain ⟨r1, s1, l1⟩ := q
        simp only [Prod.mk.injEq] at h
        obtain ⟨rfl, rfl, rfl, rfl, rfl⟩ := h
        refine ⟨fun hp e0 ys hy => ?_, hcarry (t := t) he1 hr⟩
        obtain ⟨g1, g2⟩ := receive_hears (lg := lg) e0 (by simp) hr hp hy
        have hlike : ∀ {zs cs}, Like lg zs ⟨some t, .ask, b⟩ cs → Like lg zs ⟨some t1, .receive, b⟩ cs := by
          intro zs cs hl
          cases hl
          exact like_of (by simp [connT, g8]) rfl
        refine ⟨fun e => ⟨fun t' e' => ?_, fun cs hl => (g1 e).2 cs (hlike hl)⟩, fun e => ?_⟩
        · cases e'; exact hback (g1 e).1 hle
        · obtain ⟨xs, hx, hf⟩ := g2 e
          exact ⟨xs, fun t' e' => by cases e'; exact hback (hx _ rfl) hle, fun cs hl => hf cs (hlike hl)⟩
      | pending =>
        simp only [Prod.mk.injEq] at h
        obtain ⟨rfl, rfl, rfl, rfl, rfl⟩ := h
        refine ⟨fun hp e0 ys hy => ⟨fun _ => ⟨fun t' e' => ?_, fun cs hl => ?_⟩, fun e => absurd rfl e⟩, fun t' e => by cases e; exact he1, nofun⟩
        · cases e'; exact hback (hy _ rfl) hle
        · cases hl; exact like_of (by simp [connT, g8]) rfl
      | fail =>
        simp only [Prod.mk.injEq] at h
        obtain ⟨rfl, rfl, rfl, rfl, rfl⟩ := h
        refine ⟨fun hp e0 ys hy => ⟨nofun, fun _ => ⟨.error e0 :: ys, fun t' e' => ?_, fun cs hl => ?_⟩⟩, fun t' e => by cases e; exact he1, nofun⟩
        · cases e'
          refine hback (.failure e0 (hy _ rfl)) ?_
          have := List.count_pos_iff.mpr (hwf rfl)
          rw [failures, failures, hwu, List.count_append]; omega
        · cases hl
          exact ⟨_, _, next_err rfl, like_of (by simp [connT, g8]) rfl, .broken⟩
      | panic => exact absurd rfl hnp

/-- Awaiting a packet. -/
theorem await_hears {env : Env} {s s' : PStream} {revs left : List ReadEv} {w w' : Writer} {r : PPoll} {lg : List Cmd}
    (h : AwaitsS env s revs w r s' left w') (hi : IssuedS env s w lg) (hp : r ≠ .panic) :
    (∀ e0 ys, HearsAfter env r s' left w'.evs ys → Follows env e0 lg s revs w.evs r s' ys) ∧ IssuedS env s' w' lg ∧
      ∀ t, handedBack r = some t → Encodable env t ∧ w'.out ++ owed env t = cmdBytes env.codec lg := by
  induction h with
  | ready h hr =>
    obtain ⟨g1, g2, g3⟩ := poll_hears h hi
    exact ⟨fun e0 ys hy => (g1 hp e0 ys hy).2 hr, g2, g3⟩
  | again h _ ih =>
    obtain ⟨g1, g2, g3⟩ := poll_hears h hi
    obtain ⟨i1, i2, i3⟩ := ih g2 hp
    refine ⟨fun e0 ys hy => ?_, i2, i3⟩
    obtain ⟨xs, hx, hf⟩ := i1 e0 ys hy
    obtain ⟨p1, p2⟩ := (g1 (by simp) e0 xs hx).1 rfl
    exact ⟨xs, p1, fun cs hl => hf cs (p2 cs hl)⟩

theorem poll_taken {env : Env} {s s' : PStream} {p : Packet} {t : Transport} {out : Bytes} {revs left : List ReadEv} {wevs wleft : List WriteEv}
    (h : s.pollNext env revs wevs = (.item p (some t), out, s', left, wleft)) : s'.inner = none := by
  cases hi : s.inner with
  | none => exact absurd (poll_none hi h).2.1 (by intro x; cases x)
  | some t0 =>
    by_cases hd : s.state = .done
    · obtain ⟨inner, st, b⟩ := s
      simp only at hi hd
      subst hi hd
      simp only [PStream.pollNext, PStream.finish, Prod.mk.injEq] at h
      rw [← h.2.2.1]
    · obtain ⟨used, t', _, _, _, _, _, _, _, _, _, h7⟩ := pstream_poll_spec hi hd h
      rcases h7 with ⟨_, i2, _⟩ | ⟨i1, _⟩
      · cases i2
      · exact i1

theorem await_taken {env : Env} {s s' : PStream} {revs left : List ReadEv} {w w' : Writer} {r : PPoll}
    (h : AwaitsS env s revs w r s' left w') : ∀ {p t}, r = .item p (some t) → s'.inner = none := by
  induction h with
  | ready h hr => intro p t e; subst e; exact poll_taken h
  | again h _ ih => exact ih

/-! ### Loops -/

theorem loop_none {σ : Type} {env : Env} {f : σ → Except Err (Packet × Option Sock) → σ ⊕ OpErr} {v : σ} {s : PStream} {revs : List ReadEv}
    {w : Writer} {r : LoopEnd σ} (h : LoopS env f v s revs w r) (hi : s.inner = none) : r = .fell v := by
  cases h with
  | ended => rfl
  | item ha => cases (await_none ha hi).2
  | itemStop ha => cases (await_none ha hi).2
  | bad ha => cases (await_none ha hi).2
  | badStop ha => cases (await_none ha hi).2
  | broken e ha => cases (await_none ha hi).2
  | brokenStop e ha => cases (await_none ha hi).2

theorem like_none {lg : List Cmd} {ys : List Inc} {s : PStream} {cs : CStream} (h : Like lg ys s cs) (hi : s.inner = none) :
    ∃ cs', cs.next = (.ended, cs') := by
  cases h with
  | gone => exact ⟨_, next_none⟩
  | has => cases hi

/-- The connection on which `ys` come. -/
def Hear (lg : List Cmd) (ys : List Inc) (k : Sock) (c : Conn) : Prop := c = heardConn k lg ys

/-- A loop body that holds at most one connection, and the other body. -/
structure Holding {σ τ : Type} (held : σ → Option Sock) (R : (Sock → Conn → Prop) → σ → τ → Prop)
    (f : σ → Except Err (Packet × Option Sock) → σ ⊕ OpErr) (g : τ → Except Err (Packet × Option Conn) → τ ⊕ OpErr) : Prop where
  same : ∀ K, SameBody K (R K) f g
  free : ∀ {v u K K'}, held v = none → R K v u → R K' v u
  item : ∀ {v p o v'}, f v (.ok (p, o)) = .inl v' → held v' = held v ∨ held v' = o
  error : ∀ {v e v'}, f v (.error e) = .inl v' → held v' = held v

/-- What a loop over the socket comes to, in terms of the loop over messages. -/
def LoopFollows {σ τ : Type} (env : Env) (held : σ → Option Sock) (R : (Sock → Conn → Prop) → σ → τ → Prop)
    (g : τ → Except Err (Packet × Option Conn) → τ ⊕ OpErr) (lg : List Cmd) (v : σ) (s : PStream) (revs : List ReadEv) (w : Writer) :
    LoopEnd σ → Prop
  | .fell v' => (∀ k, held v' = some k → Issued env k lg) ∧ ∀ ys, (∀ k, held v' = some k → HearsOn env k ys) →
      ∃ xs, HearsS env s revs w.evs xs ∧ ∀ u cs, R (Hear lg ys) v u → Like lg xs s cs →
        ∃ u', cs.loop g u = .fell u' ∧ R (Hear lg ys) v' u'
  | .failed e => ∃ xs, HearsS env s revs w.evs xs ∧ ∀ ys u cs, R (Hear lg ys) v u → Like lg xs s cs → cs.loop g u = .failed e
  | .waits => True

/-- A step that gives no connection and goes on. -/
theorem loop_step {σ τ : Type} {env : Env} {held : σ → Option Sock} {R : (Sock → Conn → Prop) → σ → τ → Prop}
    {g : τ → Except Err (Packet × Option Conn) → τ ⊕ OpErr} {lg : List Cmd} {v v' : σ} {s s' : PStream} {revs left : List ReadEv}
    {w w' : Writer} {r : LoopEnd σ}
    (hs : ∀ xs', HearsS env s' left w'.evs xs' → ∃ xs, HearsS env s revs w.evs xs ∧ ∀ cs, Like lg xs s cs → ∃ cs', Like lg xs' s' cs' ∧
      ∀ ys u, R (Hear lg ys) v u → ∃ u', R (Hear lg ys) v' u' ∧ cs.loop g u = cs'.loop g u')
    (ih : LoopFollows env held R g lg v' s' left w' r) : LoopFollows env held R g lg v s revs w r := by
  cases r with
  | fell v'' =>
    refine ⟨ih.1, fun ys hy => ?_⟩
    obtain ⟨xs', h1, h2⟩ := ih.2 ys hy
    obtain ⟨xs, h3, h4⟩ := hs xs' h1
    refine ⟨xs, h3, fun u cs hu hl => ?_⟩
    obtain ⟨cs', hl', h5⟩ := h4 cs hl
    obtain ⟨u', hu', e⟩ := h5 ys u hu
    rw [e]
    exact h2 u' cs' hu' hl'
  | failed e =>
    obtain ⟨xs', h1, h2⟩ := ih
    obtain ⟨xs, h3, h4⟩ := hs xs' h1
    refine ⟨xs, h3, fun ys u cs hu hl => ?_⟩
    obtain ⟨cs', hl', h5⟩ := h4 cs hl
    obtain ⟨u', hu', e⟩ := h5 ys u hu
    rw [e]
    exact h2 ys u' cs' hu' hl'
  | waits => trivial

theorem loop_hears {σ τ : Type} {env : Env} {held : σ → Option Sock} {R : (Sock → Conn → Prop) → σ → τ → Prop}
    {f : σ → Except Err (Packet × Option Sock) → σ ⊕ OpErr} {g : τ → Except Err (Packet × Option Conn) → τ ⊕ OpErr}
    (hb : Holding held R f g) {lg : List Cmd} {v : σ} {s : PStream} {revs : List ReadEv} {w : Writer} {r : LoopEnd σ}
    (h : LoopS env f v s revs w r) (hi : IssuedS env s w lg) (hv : ∀ k, held v = some k → s.inner = none ∧ Issued env k lg) :
    LoopFollows env held R g lg v s revs w r := by
  induction h with
  | ended ha =>
    refine ⟨fun k e => (hv k e).2, fun ys hy => ?_⟩
    obtain ⟨g1, -, -⟩ := await_hears ha hi (by simp)
    obtain ⟨xs, hx, hf⟩ := g1 .overflow [] (fun t _ => .stop)
    refine ⟨xs, hx, fun u cs hu hl => ?_⟩
    obtain ⟨x, cs', hn, -, hm⟩ := hf cs hl
    cases hm
    exact ⟨u, loop_ended hn, hu⟩
  | @item v v' s revs w s' left w' p t r ha hf hl ih =>
    obtain ⟨g1, g2, g3⟩ := await_hears ha hi (by simp)
    have hnone : held v = none := by
      cases hh : held v with
      | none => rfl
      | some k => cases (await_none ha (hv k hh).1).2
    cases t with
    | none =>
      have hv' : held v' = none := by
        rcases hb.item hf with e | e
        · rw [e, hnone]
        · exact e
      refine loop_step (fun xs' hx' => ?_) (ih g2 (fun k e => by rw [hv'] at e; cases e))
      obtain ⟨xs, hx, hfo⟩ := g1 .overflow xs' hx'
      refine ⟨xs, hx, fun cs hl => ?_⟩
      obtain ⟨x, cs', hn, hl', hm⟩ := hfo cs hl
      cases hm
      refine ⟨cs', hl', fun ys u hu => ?_⟩
      have hst := (hb.same (Hear lg ys)).item p (o := none) (o' := none) hu .none
      rw [show f v (.ok (p, none)) = .inl v' from hf] at hst
      cases hg : g u (.ok (p, none)) with
      | inl u' =>
        rw [hg] at hst
        cases hst with
        | go hu' => exact ⟨u', hu', by rw [loop_item hn, hg]⟩
      | inr e => rw [hg] at hst; cases hst
    | some t =>
      have hin := await_taken ha rfl
      have hr := loop_none hl hin
      subst hr
      obtain ⟨q1, q2⟩ := g3 t rfl
      have hiss : Issued env ⟨t, left, w'⟩ lg := ⟨q1, by rw [List.append_assoc]; exact q2⟩
      have hheld : held v' = none ∨ held v' = some ⟨t, left, w'⟩ := by
        rcases hb.item hf with e | e
        · rw [hnone] at e; exact .inl e
        · exact .inr e
      refine ⟨fun k e => ?_, fun ys hy => ?_⟩
      · rcases hheld with e' | e'
        · rw [e'] at e; cases e
        · rw [e'] at e; cases e; exact hiss
      · obtain ⟨zs, hz, hzy⟩ : ∃ zs, HearsT env t left w'.evs zs ∧ (∀ u', R (Hear lg zs) v' u' → R (Hear lg ys) v' u') := by
          rcases hheld with e' | e'
          · exact ⟨[], .stop, fun u' hu' => hb.free e' hu'⟩
          · exact ⟨ys, hy _ e', fun _ hu' => hu'⟩
        obtain ⟨xs, hx, hfo⟩ := g1 .overflow zs hz
        refine ⟨xs, hx, fun u cs hu hl => ?_⟩
        obtain ⟨x, cs', hn, hl', hm⟩ := hfo cs hl
        cases hm
        have hst := (hb.same (Hear lg zs)).item p (hb.free hnone hu) (.some (show Hear lg zs ⟨t, left, w'⟩ (connT t lg zs) from rfl))
        rw [show f v (.ok (p, some ⟨t, left, w'⟩)) = .inl v' from hf] at hst
        cases hg : g u (.ok (p, some (connT t lg zs))) with
        | inl u' =>
          rw [hg] at hst
          cases hst with
          | go hu' =>
            obtain ⟨cs2, hn2⟩ := like_none hl' hin
            exact ⟨u', by rw [loop_item hn, hg]; exact loop_ended hn2, hzy _ hu'⟩
        | inr e => rw [hg] at hst; cases hst
  | @itemStop v s revs w s' left w' p t e ha hf =>
    obtain ⟨g1, g2, g3⟩ := await_hears ha hi (by simp)
    have hnone : held v = none := by
      cases hh : held v with
      | none => rfl
      | some k => cases (await_none ha (hv k hh).1).2
    obtain ⟨xs, hx, hfo⟩ := g1 .overflow [] (by cases t <;> first | exact fun t _ => .stop | exact .stop)
    refine ⟨xs, hx, fun ys u cs hu hl => ?_⟩
    obtain ⟨x, cs', hn, hl', hm⟩ := hfo cs hl
    cases t with
    | none =>
      cases hm
      have hst := (hb.same (Hear lg ys)).item p (o := none) (o' := none) hu .none
      rw [show f v (.ok (p, none)) = .inr e from hf] at hst
      cases hg : g u (.ok (p, none)) with
      | inl u' => rw [hg] at hst; cases hst
      | inr e' => rw [hg] at hst; cases hst; rw [loop_item hn, hg]
    | some t =>
      cases hm
      have hst := (hb.same (Hear lg [])).item p (hb.free hnone hu) (.some (show Hear lg [] ⟨t, left, w'⟩ (connT t lg []) from rfl))
      rw [show f v (.ok (p, some ⟨t, left, w'⟩)) = .inr e from hf] at hst
      cases hg : g u (.ok (p, some (connT t lg []))) with
      | inl u' => rw [hg] at hst; cases hst
      | inr e' => rw [hg] at hst; cases hst; rw [loop_item hn, hg]
  | @bad v v' s revs w s' left w' e r ha hf _ ih =>
    obtain ⟨g1, g2, g3⟩ := await_hears ha hi (by simp)
    have hv' : ∀ k, held v' = some k → s'.inner = none ∧ Issued env k lg := by
      intro k e
      rw [hb.error hf] at e
      exact ⟨(await_none ha (hv k e).1).1, (hv k e).2⟩
    refine loop_step (fun xs' hx' => ?_) (ih g2 hv')
    obtain ⟨xs, hx, hfo⟩ := g1 e xs' hx'
    refine ⟨xs, hx, fun cs hl => ?_⟩
    obtain ⟨x, cs', hn, hl', hm⟩ := hfo cs hl
    cases hm
    refine ⟨cs', hl', fun ys u hu => ?_⟩
    have hst := (hb.same (Hear lg ys)).error e hu
    rw [hf] at hst
    cases hg : g u (.error e) with
    | inl u' =>
      rw [hg] at hst
      cases hst with
      | go hu' => exact ⟨u', hu', by rw [loop_error hn, hg]⟩
    | inr e => rw [hg] at hst; cases hst
  | @badStop v s revs w s' left w' e e' ha hf =>
    obtain ⟨g1, g2, g3⟩ := await_hears ha hi (by simp)
    obtain ⟨xs, hx, hfo⟩ := g1 e [] (fun t _ => .stop)
    refine ⟨xs, hx, fun ys u cs hu hl => ?_⟩
    obtain ⟨x, cs', hn, hl', hm⟩ := hfo cs hl
    cases hm
    have hst := (hb.same (Hear lg ys)).error e hu
    rw [hf] at hst
    cases hg : g u (.error e) with
    | inl u' => rw [hg] at hst; cases hst
    | inr e => rw [hg] at hst; cases hst; rw [loop_error hn, hg]
  | @broken v v' s revs w s' left w' r e ha hf _ ih =>
    obtain ⟨g1, g2, g3⟩ := await_hears ha hi (by simp)
    have hv' : ∀ k, held v' = some k → s'.inner = none ∧ Issued env k lg := by
      intro k e
      rw [hb.error hf] at e
      exact ⟨(await_none ha (hv k e).1).1, (hv k e).2⟩
    refine loop_step (fun xs' hx' => ?_) (ih g2 hv')
    obtain ⟨xs, hx, hfo⟩ := g1 e xs' hx'
    refine ⟨xs, hx, fun cs hl => ?_⟩
    obtain ⟨x, cs', hn, hl', hm⟩ := hfo cs hl
    cases hm
    refine ⟨cs', hl', fun ys u hu => ?_⟩
    have hst := (hb.same (Hear lg ys)).error e hu
    rw [hf] at hst
    cases hg : g u (.error e) with
    | inl u' =>
      rw [hg] at hst
      cases hst with
      | go hu' => exact ⟨u', hu', by rw [loop_error hn, hg]⟩
    | inr e => rw [hg] at hst; cases hst
  | @brokenStop v s revs w s' left w' e' e ha hf =>
    obtain ⟨g1, g2, g3⟩ := await_hears ha hi (by simp)
    obtain ⟨xs, hx, hfo⟩ := g1 e [] (fun t _ => .stop)
    refine ⟨xs, hx, fun ys u cs hu hl => ?_⟩
    obtain ⟨x, cs', hn, hl', hm⟩ := hfo cs hl
    cases hm
    have hst := (hb.same (Hear lg ys)).error e hu
    rw [hf] at hst
    cases hg : g u (.error e) with
    | inl u' => rw [hg] at hst; cases hst
    | inr e => rw [hg] at hst; cases hst; rw [loop_error hn, hg]

/-! ### Operations on a connection -/

/-- What an operation on `k`, to which the commands `lg` were given, comes to, in terms of the operation `F` on messages. -/
def Sim {α β : Type} (env : Env) (sock : α → Sock) (put : α → Conn → β) (k : Sock) (lg : List Cmd) (F : Conn → OpRes β) : OpRes α → Prop
  | .ok a => ∃ lg', Issued env (sock a) lg' ∧ ∀ ys, HearsOn env (sock a) ys →
      ∃ xs, HearsOn env k xs ∧ F (heardConn k lg xs) = .ok (put a (heardConn (sock a) lg' ys))
  | .err e => ∃ xs, HearsOn env k xs ∧ F (heardConn k lg xs) = .err e
  | .panic => ∃ xs, HearsOn env k xs ∧ F (heardConn k lg xs) = .panic
  | .waits => True

/-- The same for operations that give back a connection. -/
abbrev SimC (env : Env) := Sim env (fun k : Sock => k) (fun _ (c : Conn) => c)

/-- The same for operations that give back a connection and something else. -/
abbrev SimP {γ : Type} (env : Env) := Sim env (fun x : Sock × γ => x.1) (fun x (c : Conn) => (c, x.2))

theorem then_sim {α α' β β' : Type} {env : Env} {sock : α → Sock} {put : α → Conn → α'} {sock' : β → Sock} {put' : β → Conn → β'}
    {k : Sock} {lg : List Cmd} {P : OpRes α → Prop} {Q : α → OpRes β → Prop} {F : Conn → OpRes α'} {G : α' → OpRes β'}
    (h1 : ∀ r, P r → Sim env sock put k lg F r)
    (h2 : ∀ a lg' r, Issued env (sock a) lg' → Q a r → Sim env sock' put' (sock a) lg' (fun c => G (put a c)) r) {r : OpRes β}
    (h : Then P Q r) : Sim env sock' put' k lg (fun c => andThen (F c) G) r := by
  cases h with
  | @ok a r h hq =>
    obtain ⟨lg', hi, hf⟩ := h1 _ h
    have hs := h2 a lg' r hi hq
    cases r with
    | ok b =>
      obtain ⟨lg2, hi2, hf2⟩ := hs
      refine ⟨lg2, hi2, fun ys hy => ?_⟩
      obtain ⟨xs, hx, e⟩ := hf2 ys hy
      obtain ⟨zs, hz, e'⟩ := hf xs hx
      exact ⟨zs, hz, by simp only [e', andThen]; exact e⟩
    | err er =>
      obtain ⟨xs, hx, e⟩ := hs
      obtain ⟨zs, hz, e'⟩ := hf xs hx
      exact ⟨zs, hz, by simp only [e', andThen]; exact e⟩
    | panic =>
      obtain ⟨xs, hx, e⟩ := hs
      obtain ⟨zs, hz, e'⟩ := hf xs hx
      exact ⟨zs, hz, by simp only [e', andThen]; exact e⟩
    | waits => trivial
  | err h =>
    obtain ⟨xs, hx, e⟩ := h1 _ h
    exact ⟨xs, hx, by simp only [e, andThen]⟩
  | panic h =>
    obtain ⟨xs, hx, e⟩ := h1 _ h
    exact ⟨xs, hx, by simp only [e, andThen]⟩

theorem call_issued {env : Env} {k : Sock} {lg : List Cmd} {cmd : Cmd} (h : Issued env k lg) (hc : ∃ b, cmd.encode env.codec = .ok b) :
    IssuedS env (k.t.call cmd) k.writer (lg ++ [cmd]) := by
  intro t e
  cases e
  refine ⟨fun d hd => ?_, ?_⟩
  · rcases List.mem_append.mp hd with hd | hd
    · exact h.encodable d hd
    · rw [List.mem_singleton.mp hd]; exact hc
  · simp only [owed, cmdBytes_append, ← h.written, List.append_assoc]

theorem call_hears {env : Env} {k : Sock} {cmd : Cmd} {xs : List Inc} (h : HearsS env (k.t.call cmd) k.revs k.writer.evs xs) :
    HearsOn env k xs := (h { k.t with cmds := k.t.cmds ++ [cmd] } rfl :)

theorem call_like (k : Sock) (lg : List Cmd) (cmd : Cmd) (xs : List Inc) :
    Like (lg ++ [cmd]) xs (k.t.call cmd) ((heardConn k lg xs).call cmd) :=
  like_of (by simp [heardConn, connT]) rfl

theorem holding_id {f : Option Sock → Except Err (Packet × Option Sock) → Option Sock ⊕ OpErr}
    {g : Option Conn → Except Err (Packet × Option Conn) → Option Conn ⊕ OpErr} (hs : ∀ K, SameBody K (Both K) f g)
    (hi : ∀ {v p o v'}, f v (.ok (p, o)) = .inl v' → v' = v ∨ v' = o) (he : ∀ {v e v'}, f v (.error e) = .inl v' → v' = v) :
    Holding (fun v => v) (fun K => Both K) f g where
  same := hs
  free := by
    intro v u K K' e h
    subst e
    cases h; exact .none
  item := hi
  error := he

theorem holding_clear : Holding (fun v => v) (fun K => Both K) clearBody clearBody :=
  holding_id (fun _ => same_clear) (by
    intro v p o v' h
    cases p <;> simp only [clearBody, Sum.inl.injEq, reduceCtorEq] at h <;> first | exact .inl h.symm | exact .inr h.symm)
    (by intro v e v' h; simp [clearBody] at h)

theorem holding_execute : Holding (fun v => v) (fun K => Both K) executeBody executeBody :=
  holding_id (fun _ => same_execute) (by
    intro v p o v' h
    cases p <;> simp only [executeBody, Sum.inl.injEq, reduceCtorEq] at h <;> first | exact .inl h.symm | exact .inr h.symm)
    (by intro v e v' h; simp [executeBody] at h)

theorem holding_ping : Holding (fun v => v) (fun K => Both K) pingBody pingBody :=
  holding_id (fun _ => same_ping) (by
    intro v p o v' h
    cases p <;> simp only [pingBody, Sum.inl.injEq, reduceCtorEq] at h <;> first | exact .inl h.symm | exact .inr h.symm)
    (by intro v e v' h; simp [pingBody] at h)

theorem holding_readBlock : Holding (fun v => v.1) (fun K => BlockVars K) readBlockBody readBlockBody where
  same := fun _ => same_readBlock
  free := by
    intro v u K K' e h
    obtain ⟨h1, h2⟩ := h
    rw [e] at h1
    refine ⟨?_, h2⟩
    rw [e]
    cases hu : u.1 with
    | none => exact .none
    | some c => rw [hu] at h1; cases h1
  item := by
    intro v p o v' h
    cases p <;> simp only [readBlockBody, Sum.inl.injEq, reduceCtorEq] at h <;> subst h <;> first | exact .inl rfl | exact .inr rfl
  error := by intro v e v' h; simp [readBlockBody] at h

/-- A loop whose variable is the connection, after a command. -/
theorem loop_call {env : Env} {f : Option Sock → Except Err (Packet × Option Sock) → Option Sock ⊕ OpErr}
    {g : Option Conn → Except Err (Packet × Option Conn) → Option Conn ⊕ OpErr} (hb : Holding (fun v => v) (fun K => Both K) f g)
    {k : Sock} {lg : List Cmd} {cmd : Cmd} (h : Issued env k lg) (hc : ∃ b, cmd.encode env.codec = .ok b) {r : LoopEnd (Option Sock)}
    (hl : LoopS env f none (k.t.call cmd) k.revs k.writer r) :
    match r with
    | .fell (some k') => Issued env k' (lg ++ [cmd]) ∧ ∀ ys, HearsOn env k' ys → ∃ xs, HearsOn env k xs ∧
        ((heardConn k lg xs).call cmd).loop g none = .fell (some (heardConn k' (lg ++ [cmd]) ys))
    | .fell none => ∃ xs, HearsOn env k xs ∧ ((heardConn k lg xs).call cmd).loop g none = .fell none
    | .failed e => ∃ xs, HearsOn env k xs ∧ ((heardConn k lg xs).call cmd).loop g none = .failed e
    | .waits => True := by
  have hm := loop_hears hb hl (call_issued h hc) nofun
  cases r with
  | fell v =>
    obtain ⟨h1, h2⟩ := hm
    cases v with
    | none =>
      obtain ⟨xs, hx, hf⟩ := h2 [] nofun
      obtain ⟨u', e, hu⟩ := hf none _ .none (call_like k lg cmd xs)
      cases hu
      exact ⟨xs, call_hears hx, e⟩
    | some k' =>
      refine ⟨h1 k' rfl, fun ys hy => ?_⟩
      obtain ⟨xs, hx, hf⟩ := h2 ys (fun k e => by cases e; exact hy)
      obtain ⟨u', e, hu⟩ := hf none _ .none (call_like k lg cmd xs)
      cases hu with
      | some hu => rw [Hear] at hu; subst hu; exact ⟨xs, call_hears hx, e⟩
  | failed e =>
    obtain ⟨xs, hx, hf⟩ := hm
    exact ⟨xs, call_hears hx, hf [] none _ .none (call_like k lg cmd xs)⟩
  | waits => trivial

theorem unwrap_sim {env : Env} {f : Option Sock → Except Err (Packet × Option Sock) → Option Sock ⊕ OpErr}
    {g : Option Conn → Except Err (Packet × Option Conn) → Option Conn ⊕ OpErr} (hb : Holding (fun v => v) (fun K => Both K) f g)
    {k : Sock} {lg : List Cmd} {cmd : Cmd} (h : Issued env k lg) (hc : ∃ b, cmd.encode env.codec = .ok b) {r : OpRes Sock}
    (hr : Unwrap (LoopS env f none (k.t.call cmd) k.revs k.writer) r) :
    SimC env k lg (fun c => unwrapEnd ((c.call cmd).loop g none)) r := by
  cases hr with
  | some hl =>
    obtain ⟨h1, h2⟩ := loop_call hb h hc hl
    refine ⟨_, h1, fun ys hy => ?_⟩
    obtain ⟨xs, hx, e⟩ := h2 ys hy
    exact ⟨xs, hx, by simp only [e, unwrapEnd]⟩
  | none hl =>
    obtain ⟨xs, hx, e⟩ := loop_call hb h hc hl
    exact ⟨xs, hx, by simp only [e, unwrapEnd]⟩
  | failed hl =>
    obtain ⟨xs, hx, e⟩ := loop_call hb h hc hl
    exact ⟨xs, hx, by simp only [e, unwrapEnd]⟩

theorem pingEnd_sim {env : Env} {f : Option Sock → Except Err (Packet × Option Sock) → Option Sock ⊕ OpErr}
    {g : Option Conn → Except Err (Packet × Option Conn) → Option Conn ⊕ OpErr} (hb : Holding (fun v => v) (fun K => Both K) f g)
    {k : Sock} {lg : List Cmd} {cmd : Cmd} (h : Issued env k lg) (hc : ∃ b, cmd.encode env.codec = .ok b) {r : OpRes Sock}
    (hr : PingEnd (LoopS env f none (k.t.call cmd) k.revs k.writer) r) :
    SimC env k lg (fun c => pingEnd ((c.call cmd).loop g none)) r := by
  cases hr with
  | some hl =>
    obtain ⟨h1, h2⟩ := loop_call hb h hc hl
    refine ⟨_, h1, fun ys hy => ?_⟩
    obtain ⟨xs, hx, e⟩ := h2 ys hy
    exact ⟨xs, hx, by simp only [e, pingEnd]⟩
  | none hl =>
    obtain ⟨xs, hx, e⟩ := loop_call hb h hc hl
    exact ⟨xs, hx, by simp only [e, pingEnd]⟩
  | failed hl =>
    obtain ⟨xs, hx, e⟩ := loop_call hb h hc hl
    exact ⟨xs, hx, by simp only [e, pingEnd]⟩

theorem sim_congr {α β : Type} {env : Env} {sock : α → Sock} {put : α → Conn → β} {k : Sock} {lg : List Cmd} {F G : Conn → OpRes β}
    {r : OpRes α} (h : Sim env sock put k lg F r) (e : ∀ xs, F (heardConn k lg xs) = G (heardConn k lg xs)) : Sim env sock put k lg G r := by
  cases r with
  | ok a =>
    obtain ⟨lg', h1, h2⟩ := h
    refine ⟨lg', h1, fun ys hy => ?_⟩
    obtain ⟨xs, hx, he⟩ := h2 ys hy
    exact ⟨xs, hx, by rw [← e]; exact he⟩
  | err er => obtain ⟨xs, hx, he⟩ := h; exact ⟨xs, hx, by rw [← e]; exact he⟩
  | panic => obtain ⟨xs, hx, he⟩ := h; exact ⟨xs, hx, by rw [← e]; exact he⟩
  | waits => trivial

theorem clear_sim {env : Env} {k : Sock} {lg : List Cmd} {r : OpRes Sock} (h : Issued env k lg) (hr : ClearS env k r) :
    SimC env k lg Conn.clear r := by
  rw [ClearS] at hr
  split at hr
  · next hi =>
    refine sim_congr (F := fun c => andThen (unwrapEnd ((c.call .cancel).loop clearBody none)) fun c => .ok { c with inconsistent := false }) ?_
      (fun xs => by rw [clear_eq, if_pos (show (heardConn k lg xs).inconsistent = true from hi)])
    refine then_sim (fun r hr => unwrap_sim holding_clear h ⟨_, rfl⟩ hr) ?_ hr
    rintro a lg' r hi rfl
    exact ⟨lg', ⟨hi.encodable, hi.written⟩, fun ys hy => ⟨ys, hy, rfl⟩⟩
  · next hi =>
    subst hr
    refine ⟨lg, h, fun ys hy => ⟨ys, hy, ?_⟩⟩
    rw [clear_eq, if_neg (show ¬ (heardConn k lg ys).inconsistent = true from hi)]

theorem execute_sim {env : Env} {k : Sock} {lg : List Cmd} {q : Query} {ctx : Context} {r : OpRes Sock} (h : Issued env k lg)
    (hr : ExecuteS env k q ctx r) : SimC env k lg (fun c => c.execute q ctx) r := by
  rw [funext fun c => execute_eq c q ctx]
  refine then_sim (fun r hr => clear_sim h hr) ?_ hr
  intro a lg' r hi hr
  exact unwrap_sim holding_execute hi (query_encodes env q ctx) hr

theorem readOne_sim {env : Env} {k : Sock} {lg : List Cmd} {cmd : Cmd} {r : OpRes (Sock × Option Block)} (h : Issued env k lg)
    (hc : ∃ b, cmd.encode env.codec = .ok b) (hr : ReadOneS env k cmd r) : SimP env k lg (fun c => (c.call cmd).readOneBlock) r := by
  have hi : IssuedS env { k.t.call cmd with readBlock := true } k.writer (lg ++ [cmd]) := call_issued h hc
  have hlike : ∀ xs, Like (lg ++ [cmd]) xs { k.t.call cmd with readBlock := true } { (heardConn k lg xs).call cmd with readBlock := true } :=
    fun xs => like_of (by simp [heardConn, connT]) rfl
  cases hr with
  | @done k' b hl =>
    obtain ⟨h1, h2⟩ := loop_hears holding_readBlock hl hi nofun
    refine ⟨_, h1 k' rfl, fun ys hy => ?_⟩
    obtain ⟨xs, hx, hf⟩ := h2 ys (fun k e => by cases e; exact hy)
    obtain ⟨⟨u1, u2⟩, e, ⟨hu1, hu2⟩⟩ := hf (none, none) _ ⟨.none, rfl⟩ (hlike xs)
    simp only at hu1 hu2
    subst hu2
    cases hu1 with
    | some hu1 =>
      rw [Hear] at hu1
      subst hu1
      exact ⟨xs, (hx { k.t with cmds := k.t.cmds ++ [cmd] } rfl :), by simp only [CStream.readOneBlock, e]⟩
  | @lost b hl =>
    obtain ⟨h1, h2⟩ := loop_hears holding_readBlock hl hi nofun
    obtain ⟨xs, hx, hf⟩ := h2 [] nofun
    obtain ⟨⟨u1, u2⟩, e, ⟨hu1, hu2⟩⟩ := hf (none, none) _ ⟨.none, rfl⟩ (hlike xs)
    cases hu1
    exact ⟨xs, (hx { k.t with cmds := k.t.cmds ++ [cmd] } rfl :), by simp only [CStream.readOneBlock, e]⟩
  | failed hl =>
    obtain ⟨xs, hx, hf⟩ := loop_hears holding_readBlock hl hi nofun
    exact ⟨xs, (hx { k.t with cmds := k.t.cmds ++ [cmd] } rfl :), by simp only [CStream.readOneBlock, hf [] (none, none) _ ⟨.none, rfl⟩ (hlike xs)]⟩

theorem sendInsert_sim {env : Env} {k : Sock} {lg : List Cmd} {ctx : Context} {q : Query} {r : OpRes (Sock × Block)} (h : Issued env k lg)
    (hr : SendInsertS env k ctx q r) : SimP env k lg (fun c => c.sendInsertQuery ctx q) r := by
  rw [funext fun c => sendInsert_eq c ctx q]
  refine then_sim (fun r hr => readOne_sim h (query_encodes env q ctx) hr) ?_ hr
  rintro ⟨a, o⟩ lg' r hi rfl
  cases o with
  | none => exact ⟨[], .stop, rfl⟩
  | some d => exact ⟨lg', hi, fun ys hy => ⟨ys, hy, rfl⟩⟩

theorem insertBlock_sim {env : Env} {k : Sock} {lg : List Cmd} {ctx : Context} {b : Block} {r : OpRes Sock} (h : Issued env k lg)
    (hb : ∃ x, (Cmd.union (.sendData b ctx) (.sendData Block.new ctx)).encode env.codec = .ok x)
    (hr : InsertBlockS env k ctx b r) : SimC env k lg (fun c => c.insertBlock ctx b) r := by
  rw [funext fun c => insertBlock_eq c ctx b]
  refine then_sim (fun r hr => readOne_sim h hb hr) ?_ hr
  rintro ⟨a, o⟩ lg' r hi rfl
  exact ⟨lg', hi, fun ys hy => ⟨ys, hy, rfl⟩⟩

theorem insertTail_sim {env : Env} {ctx : Context} {q : Query} (bs : List Block)
    (hb : ∀ b ∈ bs, ∃ x, (Cmd.union (.sendData b ctx) (.sendData Block.new ctx)).encode env.codec = .ok x) :
    ∀ {k : Sock} {lg : List Cmd} {r : OpRes Sock}, Issued env k lg → InsertTailS env ctx q bs k r →
      SimC env k lg (fun c => c.insertTail ctx q bs) r := by
  induction bs with
  | nil =>
    intro k lg r h hr
    rw [InsertTailS] at hr
    subst hr
    exact ⟨lg, h, fun ys hy => ⟨ys, hy, rfl⟩⟩
  | cons b bs ih =>
    intro k lg r h hr
    rw [InsertTailS] at hr
    rw [funext fun c => insertTail_eq c ctx q b bs]
    refine then_sim (fun r hr => sendInsert_sim h hr) ?_ hr
    intro x lg' r hi hr
    refine then_sim (fun r hr => insertBlock_sim hi (hb b (.head _)) hr) ?_ hr
    intro x lg' r hi hr
    exact ih (fun b hm => hb b (.tail _ hm)) hi hr

theorem insert_sim {env : Env} {cast : Block → Block → Out Block} {k : Sock} {lg : List Cmd} {ctx : Context} {q t : Query} {b : Block}
    {r : OpRes Sock} (h : Issued env k lg) (hb : DataEncodes env cast ctx (.insert t b)) (hr : InsertS env cast k q ctx b r) :
    SimC env k lg (fun c => c.insert cast q ctx b) r := by
  rw [funext fun c => insert_eq cast c q ctx b]
  refine then_sim (fun r hr => clear_sim h hr) ?_ hr
  intro k lg r hi hr
  refine then_sim (fun r hr => sendInsert_sim hi hr) ?_ hr
  rintro ⟨k, d⟩ lg r hi hr
  simp only at hr hi ⊢
  cases hca : cast b d with
  | err e => rw [hca] at hr; rw [show r = _ from hr]; exact ⟨[], .stop, rfl⟩
  | panic => rw [hca] at hr; rw [show r = _ from hr]; exact ⟨[], .stop, rfl⟩
  | ok b' =>
    rw [hca] at hr
    simp only at hr ⊢
    cases hch : insertChunks b' with
    | err e => rw [hch] at hr; rw [show r = _ from hr]; exact ⟨[], .stop, rfl⟩
    | panic => rw [hch] at hr; rw [show r = _ from hr]; exact ⟨[], .stop, rfl⟩
    | ok chs =>
      rw [hch] at hr
      cases chs with
      | nil => rw [show r = _ from hr]; exact ⟨[], .stop, rfl⟩
      | cons ch chs =>
        simp only at hr ⊢
        have he := fun ch => hb d b' _ ch hca hch
        refine then_sim (fun r hr => insertBlock_sim hi (he ch (.head _)) hr) ?_ hr
        intro x lg' r hi hr
        exact insertTail_sim chs (fun b hm => he b (.tail _ hm)) hi hr

/-! ### Handles -/

/-- What an operation on a handle comes to, in terms of the operation `F` on a handle on messages. -/
def SimH (env : Env) (h : HandleS) (lg : List Cmd) (F : Handle → OpRes Unit × Handle) (r : OpRes Unit) (h' : HandleS) : Prop :=
  ∃ lg', IssuedIn env h' lg' ∧ ∀ ys, HearsIn env h' ys → ∃ xs, HearsIn env h xs ∧ F (heardHandle h lg xs) = (r, heardHandle h' lg' ys)

theorem put_sim {env : Env} {h h' : HandleS} {k : Sock} {lg : List Cmd} {P : OpRes Sock → Prop} {F : Conn → OpRes Conn} {r : OpRes Unit}
    (h1 : ∀ r, P r → SimC env k lg F r) (hp : PutBack h P r h') :
    r ≠ .waits ∧ ∃ lg', IssuedIn env h' lg' ∧ ∀ ys, HearsIn env h' ys → ∃ xs, HearsOn env k xs ∧
      ∀ o, putC ⟨o, h.context, h.binding⟩ (F (heardConn k lg xs)) = (r, heardHandle h' lg' ys) := by
  cases hp with
  | @ok k' hp =>
    obtain ⟨lg', hi, hf⟩ := h1 _ hp
    refine ⟨nofun, lg', fun k e => by cases e; exact hi, fun ys hy => ?_⟩
    obtain ⟨xs, hx, e⟩ := hf ys (hy k' rfl)
    exact ⟨xs, hx, fun o => by rw [e]; rfl⟩
  | err hp =>
    obtain ⟨xs, hx, e⟩ := h1 _ hp
    exact ⟨nofun, [], nofun, fun ys hy => ⟨xs, hx, fun o => by rw [e]; rfl⟩⟩
  | panic hp =>
    obtain ⟨xs, hx, e⟩ := h1 _ hp
    exact ⟨nofun, [], nofun, fun ys hy => ⟨xs, hx, fun o => by rw [e]; rfl⟩⟩

theorem putC_waits {h : Handle} {x : OpRes Conn} (e : (putC h x).1 ≠ .waits) : x ≠ .waits := by
  rintro rfl
  exact e rfl

theorem ping_sim {env : Env} {h h' : HandleS} {lg : List Cmd} {r : OpRes Unit} (hi : IssuedIn env h lg) (hp : PingS env h r h') :
    SimH env h lg Handle.ping r h' := by
  obtain ⟨inner, ctx, b⟩ := h
  rw [PingS] at hp
  cases inner with
  | none =>
    obtain ⟨rfl, rfl⟩ := hp
    exact ⟨lg, hi, fun ys hy => ⟨ys, hy, rfl⟩⟩
  | some k =>
    have key : ∀ r, Then (ClearS env k) (fun k => PingEnd (LoopS env pingBody none (k.t.call .ping) k.revs k.writer)) r →
        SimC env k lg pingC r := by
      intro r hr
      refine then_sim (fun r hr => clear_sim (hi k rfl) hr) ?_ hr
      intro k lg' r hi hr
      exact pingEnd_sim holding_ping hi ⟨_, rfl⟩ hr
    obtain ⟨hnw, lg', hi', hf⟩ := put_sim key hp
    refine ⟨lg', hi', fun ys hy => ?_⟩
    obtain ⟨xs, hx, e⟩ := hf ys hy
    refine ⟨xs, fun k' e' => by cases e'; exact hx, ?_⟩
    have e1 := e (some (heardConn k lg xs))
    show (Handle.mk (some (heardConn k lg xs)) ctx b).ping = _
    rw [ping_eq, e1]
    exact putC_waits (h := ⟨some (heardConn k lg xs), ctx, b⟩) (by rw [e1]; exact hnw)

theorem attempt_sim {env : Env} {skip : Bool} {h h' : HandleS} {lg : List Cmd} {r : OpRes Unit} (hi : IssuedIn env h lg)
    (hp : AttemptS env skip h r h') : SimH env h lg (fun hc => if skip then (OpRes.err OpErr.connect, hc) else hc.ping) r h' := by
  rw [AttemptS] at hp
  cases skip with
  | true =>
    obtain ⟨rfl, rfl⟩ := hp
    exact ⟨lg, hi, fun ys hy => ⟨ys, hy, rfl⟩⟩
  | false => exact ping_sim hi hp

theorem world_some {env : Env} : ∀ {w : WorldS}, IssuedWorld env w → ∃ wc, HearsWorld env w wc
  | [], _ => ⟨[], .nil⟩
  | none :: w, h => by
    obtain ⟨wc, hw⟩ := world_some (w := w) (fun k hk => h k (List.mem_cons_of_mem _ hk))
    exact ⟨_, .refused hw⟩
  | some k :: w, h => by
    obtain ⟨wc, hw⟩ := world_some (w := w) (fun k hk => h k (List.mem_cons_of_mem _ hk))
    obtain ⟨lg, hl⟩ := h k List.mem_cons_self
    exact ⟨_, .opened hl (xs := []) .stop hw⟩

/-- What an operation on a handle that may reconnect comes to. -/
def SimW (env : Env) (h : HandleS) (w : WorldS) (lg : List Cmd) (F : Handle → World → OpRes Unit × Handle × World) (r : OpRes Unit)
    (h' : HandleS) (w' : WorldS) : Prop :=
  ∃ lg', IssuedIn env h' lg' ∧ IssuedWorld env w' ∧ ∀ ys wc', HearsIn env h' ys → HearsWorld env w' wc' →
    ∃ xs wc, HearsIn env h xs ∧ HearsWorld env w wc ∧ F (heardHandle h lg xs) wc = (r, heardHandle h' lg' ys, wc')

theorem retry_sim {env : Env} {pooled skip : Bool} {max a : Nat} {h h' : HandleS} {w w' : WorldS} {r : OpRes Unit}
    (hr : RetryS env pooled max a skip h w r h' w') : ∀ {lg : List Cmd}, IssuedIn env h lg → IssuedWorld env w →
      SimW env h w lg (retryLoop pooled max a skip) r h' w' := by
  induction hr with
  | ok ha =>
    intro lg hi hw
    obtain ⟨lg', hi', hf⟩ := attempt_sim hi ha
    refine ⟨lg', hi', hw, fun ys wc' hy hwc => ?_⟩
    obtain ⟨xs, hx, e⟩ := hf ys hy
    exact ⟨xs, wc', hx, hwc, by simp only at e; rw [retryLoop_eq, e]⟩
  | panic ha =>
    intro lg hi hw
    obtain ⟨lg', hi', hf⟩ := attempt_sim hi ha
    refine ⟨lg', hi', hw, fun ys wc' hy hwc => ?_⟩
    obtain ⟨xs, hx, e⟩ := hf ys hy
    exact ⟨xs, wc', hx, hwc, by simp only at e; rw [retryLoop_eq, e]⟩
  | last ha hm =>
    intro lg hi hw
    obtain ⟨lg', hi', hf⟩ := attempt_sim hi ha
    refine ⟨lg', hi', hw, fun ys wc' hy hwc => ?_⟩
    obtain ⟨xs, hx, e⟩ := hf ys hy
    exact ⟨xs, wc', hx, hwc, by simp only at e; rw [retryLoop_eq, e]; simp [hm]⟩
  | @refused a skip h w h' er ha hs hm =>
    intro lg hi hw
    obtain ⟨lg', hi', hf⟩ := attempt_sim hi ha
    refine ⟨lg', hi', fun k hk => hw k (List.mem_cons_of_mem _ hk), fun ys wc' hy hwc => ?_⟩
    obtain ⟨xs, hx, e⟩ := hf ys hy
    have : skip = true := hs.resolve_right (by omega)
    subst this
    exact ⟨xs, none :: wc', hx, .refused hwc, by
      rw [retryLoop_eq, show (if true = true then (OpRes.err OpErr.connect, heardHandle h lg xs) else (heardHandle h lg xs).ping) = _ from e]
      simp [hm]⟩
  | @again a skip h w h' er r h'' w'' ha hm _ ih =>
    intro lg hi hw
    obtain ⟨lg', hi', hf⟩ := attempt_sim hi ha
    obtain ⟨lg2, hi2, hw2, hf2⟩ := ih hi' (fun k hk => hw k (List.mem_cons_of_mem _ hk))
    refine ⟨lg2, hi2, hw2, fun ys wc' hy hwc => ?_⟩
    obtain ⟨xs2, wc2, hx2, hwc2, e2⟩ := hf2 ys wc' hy hwc
    obtain ⟨xs, hx, e⟩ := hf xs2 hx2
    have hn : ¬ max ≤ a := by omega
    exact ⟨xs, none :: wc2, hx, .refused hwc2, by simp only at e; rw [retryLoop_eq, e]; simp [hn, e2]⟩
  | @reconnected a skip h w h' er k r h'' w'' ha hs _ ih =>
    intro lg hi hw
    obtain ⟨lg', hi', hf⟩ := attempt_sim hi ha
    obtain ⟨lgk, hik⟩ := hw k List.mem_cons_self
    obtain ⟨lg2, hi2, hw2, hf2⟩ := ih (lg := lgk) (fun k' e => by cases e; exact hik) (fun k hk => hw k (List.mem_cons_of_mem _ hk))
    refine ⟨lg2, hi2, hw2, fun ys wc' hy hwc => ?_⟩
    obtain ⟨xs2, wc2, hx2, hwc2, e2⟩ := hf2 ys wc' hy hwc
    obtain ⟨xs, hx, e⟩ := hf [] (fun _ _ => .stop)
    refine ⟨xs, some (heardConn k lgk xs2) :: wc2, hx, .opened hik (hx2 k rfl) hwc2, ?_⟩
    simp only at e
    rw [retryLoop_eq, e]
    have hn : (!skip && decide (max ≤ a)) = false := by
      rcases hs with hs | hs
      · simp [hs]
      · have : ¬ max ≤ a := by omega
        simp [this]
    have e2' : retryLoop pooled max a false ⟨some (heardConn k lgk xs2), h'.context, if pooled then .attached else .none⟩ wc2 = _ := e2
    simp [hn, heardHandle, e2']

theorem precheck_sim {env : Env} {h h' : HandleS} {w w' : WorldS} {r : OpRes Unit} {lg : List Cmd} (hp : PrecheckS env h w r h' w')
    (hi : IssuedIn env h lg) (hw : IssuedWorld env w) : SimW env h w lg Handle.precheck r h' w' := by
  cases hp with
  | off hp =>
    refine ⟨lg, hi, hw, fun ys wc' hy hwc => ⟨ys, wc', hy, hwc, ?_⟩⟩
    rw [Handle.precheck, show (heardHandle h lg ys).context = h.context from rfl, hp]; rfl
  | unbound hp hb =>
    refine ⟨lg, hi, hw, fun ys wc' hy hwc => ⟨ys, wc', hy, hwc, ?_⟩⟩
    rw [Handle.precheck, show (heardHandle h lg ys).context = h.context from rfl, if_pos hp, Handle.checkConnection,
      show (heardHandle h lg ys).binding = h.binding from rfl, hb]; rfl
  | @ok b h1 _ hp hb hr =>
    obtain ⟨lg', hi', hw', hf⟩ := retry_sim hr (lg := lg) hi hw
    refine ⟨lg', hi', hw', fun ys wc' hy hwc => ?_⟩
    obtain ⟨xs, wc, hx, hwc', e⟩ := hf ys wc' hy hwc
    refine ⟨xs, wc, hx, hwc', ?_⟩
    have e' : retryLoop true h.context.options.sendRetries 0 false ⟨(heardHandle h lg xs).inner, h.context, b⟩ wc = _ := e
    rw [Handle.precheck, show (heardHandle h lg xs).context = h.context from rfl, if_pos hp, Handle.checkConnection,
      show (heardHandle h lg xs).binding = h.binding from rfl, hb]
    simp only [retryGuard]
    rw [show (heardHandle h lg xs).context = h.context from rfl, e']
    rfl
  | @failed b _ h1 _ hp hb hn hr =>
    obtain ⟨lg', hi', hw', hf⟩ := retry_sim hr (lg := lg) hi hw
    refine ⟨lg', hi', hw', fun ys wc' hy hwc => ?_⟩
    obtain ⟨xs, wc, hx, hwc', e⟩ := hf ys wc' hy hwc
    refine ⟨xs, wc, hx, hwc', ?_⟩
    have e' : retryLoop true h.context.options.sendRetries 0 false ⟨(heardHandle h lg xs).inner, h.context, b⟩ wc = _ := e
    rw [Handle.precheck, show (heardHandle h lg xs).context = h.context from rfl, if_pos hp, Handle.checkConnection,
      show (heardHandle h lg xs).binding = h.binding from rfl, hb]
    simp only [retryGuard]
    rw [show (heardHandle h lg xs).context = h.context from rfl, e']
    cases r with
    | ok u => exact absurd rfl hn
    | _ => rfl

theorem checked_sim {env : Env} {P : Sock → Context → OpRes Sock → Prop} {F : Conn → Context → OpRes Conn} {h h' : HandleS}
    {w w' : WorldS} {r : OpRes Unit} {lg : List Cmd}
    (hP : ∀ k lg r, Issued env k lg → P k h.context r → SimC env k lg (fun c => F c h.context) r) (hi : IssuedIn env h lg)
    (hw : IssuedWorld env w) (hr : Checked env P h w r h' w') : SimW env h w lg (checkedC F) r h' w' := by
  cases hr with
  | failed hp hn =>
    obtain ⟨lg', hi', hw', hf⟩ := precheck_sim hp hi hw
    refine ⟨lg', hi', hw', fun ys wc' hy hwc => ?_⟩
    obtain ⟨xs, wc, hx, hwc', e⟩ := hf ys wc' hy hwc
    refine ⟨xs, wc, hx, hwc', ?_⟩
    rw [checkedC, e]
    cases r with
    | ok u => exact absurd rfl hn
    | _ => rfl
  | gone hp hin =>
    obtain ⟨lg', hi', hw', hf⟩ := precheck_sim hp hi hw
    refine ⟨lg', hi', hw', fun ys wc' hy hwc => ?_⟩
    obtain ⟨xs, wc, hx, hwc', e⟩ := hf ys wc' hy hwc
    refine ⟨xs, wc, hx, hwc', ?_⟩
    rw [checkedC, e]
    simp [heardHandle, hin]
  | @done h1 _ k _ _ hp hin hd =>
    obtain ⟨lg1, hi1, hw', hf⟩ := precheck_sim hp hi hw
    have hctx := precheck_context hp
    obtain ⟨-, lg', hi', hf'⟩ := put_sim (F := fun c => F c h.context) (fun r hr => hP k lg1 r (hi1 k hin) (by rw [hctx] at hr; exact hr)) hd
    refine ⟨lg', hi', hw', fun ys wc' hy hwc => ?_⟩
    obtain ⟨zs, hz, e1⟩ := hf' ys hy
    obtain ⟨xs, wc, hx, hwc', e⟩ := hf zs wc' (fun k' e' => by rw [hin] at e'; cases e'; exact hz) hwc
    refine ⟨xs, wc, hx, hwc', ?_⟩
    have e2 := e1 (some (heardConn k lg1 zs))
    rw [checkedC, e]
    simp only [heardHandle, hin, Option.map_some, hctx] at e2 ⊢
    rw [e2]

/-! ### Query streams -/

/-- The commands given to the connection in a stream of blocks or back in its handle; only one of them has it. -/
structure IssuedB (env : Env) (s : BStreamS) (h : HandleS) (lg : List Cmd) : Prop where
  stream : IssuedS env s.inner s.writer lg
  handle : IssuedIn env h lg
  one : ∀ k, h.inner = some k → s.inner.inner = none

/-- What may be heard on that connection. -/
structure HearsB (env : Env) (s : BStreamS) (h : HandleS) (xs : List Inc) : Prop where
  stream : HearsS env s.inner s.revs s.writer.evs xs
  handle : HearsIn env h xs

/-- A stream of blocks over the socket and the other. -/
structure LikeB (lg : List Cmd) (xs : List Inc) (s : BStreamS) (b : BStream) : Prop where
  inner : Like lg xs s.inner b.inner
  state : s.state = b.state
  index : s.blockIndex = b.blockIndex
  skip : s.skipFirst = b.skipFirst

theorem handle_none {h : HandleS} (e : h.inner = none) (lg : List Cmd) (xs ys : List Inc) : heardHandle h lg xs = heardHandle h lg ys := by
  simp [heardHandle, e]

theorem await_b {env : Env} {s : BStreamS} {h : HandleS} {lg : List Cmd} {r : PPoll} {i : PStream} {l : List ReadEv} {wl : Writer}
    (hi : IssuedB env s h lg) (ha : AwaitsS env s.inner s.revs s.writer r i l wl) (hp : r ≠ .panic) :
    (∀ ys, HearsAfter env r i l wl.evs ys → (r = .ended → HearsIn env h ys) → ∃ xs, HearsB env s h xs ∧
      heardHandle h lg xs = heardHandle h lg ys ∧ ∀ b : BStream, LikeB lg xs s b → ∃ x j, b.inner.next = (x, j) ∧ Like lg ys i j ∧
        Meets .overflow lg ys r x) ∧
      IssuedS env i wl lg ∧ (∀ k, h.inner = some k → i.inner = none ∧ r = .ended) ∧
      ∀ t, handedBack r = some t → i.inner = none ∧ Issued env ⟨t, l, wl⟩ lg := by
  obtain ⟨g1, g2, g3⟩ := await_hears ha hi.stream hp
  refine ⟨fun ys hy hh => ?_, g2, fun k e => ?_, fun t e => ?_⟩
  · cases hk : h.inner with
    | none =>
      obtain ⟨xs, hx, hf⟩ := g1 .overflow ys hy
      exact ⟨xs, ⟨hx, fun k e => by rw [hk] at e; cases e⟩, handle_none hk lg xs ys, fun b hl => hf _ hl.inner⟩
    | some k =>
      have hn := hi.one k hk
      obtain ⟨hn', rfl⟩ := await_none ha hn
      refine ⟨ys, ⟨fun t e => (by rw [hn] at e; cases e), hh rfl⟩, rfl, fun b hl => ?_⟩
      obtain ⟨inner, revs, writer, st, ix, sk⟩ := s
      obtain ⟨b1, b2, b3, b4⟩ := b
      have hli := hl.inner
      obtain ⟨i1, i2, i3⟩ := i
      simp only at hn hn' hli
      subst hn'
      cases hli with
      | gone => exact ⟨_, _, next_none, .gone, .ended⟩
      | has => cases hn
  · obtain ⟨hn', rfl⟩ := await_none ha (hi.one k e)
    exact ⟨hn', rfl⟩
  · obtain ⟨q1, q2⟩ := g3 t e
    cases r with
    | item p o =>
      simp only [handedBack] at e
      subst e
      exact ⟨await_taken ha rfl, ⟨q1, by rw [List.append_assoc]; exact q2⟩⟩
    | _ => cases e

/-- A result after which the handle is as before; a connection handed back is let go. -/
theorem await_keep {env : Env} {s : BStreamS} {h : HandleS} {lg : List Cmd} {r : PPoll} {i : PStream} {l : List ReadEv} {wl : Writer}
    (hi : IssuedB env s h lg) (ha : AwaitsS env s.inner s.revs s.writer r i l wl) (hp : r ≠ .panic) :
    (∀ ys, HearsS env i l wl.evs ys → HearsIn env h ys → ∃ xs zs, HearsB env s h xs ∧
      heardHandle h lg xs = heardHandle h lg ys ∧ ∀ b : BStream, LikeB lg xs s b → ∃ x j, b.inner.next = (x, j) ∧ Like lg ys i j ∧
        Meets .overflow lg zs r x) ∧
      ∀ st ix sk, IssuedB env ⟨i, l, wl, st, ix, sk⟩ h lg := by
  obtain ⟨g1, g2, g3, g4⟩ := await_b hi ha hp
  refine ⟨fun ys hy hh => ?_, fun st ix sk => ⟨g2, hi.handle, fun k e => (g3 k e).1⟩⟩
  cases hb : handedBack r with
  | none =>
    obtain ⟨xs, hx, he, hn⟩ := g1 ys (by rw [HearsAfter, hb]; exact hy) (fun _ => hh)
    exact ⟨xs, ys, hx, he, hn⟩
  | some t =>
    have hne : r ≠ .ended := by rintro rfl; cases hb
    have hno : h.inner = none := by
      cases hk : h.inner with
      | none => rfl
      | some k => exact absurd (g3 k hk).2 hne
    obtain ⟨xs, hx, he, hn⟩ := g1 [] (by rw [HearsAfter, hb]; exact .stop) (fun e => absurd e hne)
    refine ⟨xs, [], hx, handle_none hno lg xs ys, fun b hl => ?_⟩
    obtain ⟨x, j, e, hlj, hm⟩ := hn b hl
    refine ⟨x, j, e, ?_, hm⟩
    have := (g4 t hb).1
    cases hlj with
    | gone => exact .gone
    | has => cases this

/-- What a step of a stream of blocks comes to. -/
def SimB (env : Env) (lg : List Cmd) (F : BStream → Handle → BItem × BStream × Handle) (s : BStreamS) (h : HandleS) (it : BItem) (s' : BStreamS)
    (h' : HandleS) : Prop :=
  IssuedB env s' h' lg ∧ ∀ ys, HearsB env s' h' ys → ∃ xs, HearsB env s h xs ∧ ∀ b, LikeB lg xs s b →
    ∃ b', LikeB lg ys s' b' ∧ F b (heardHandle h lg xs) = (it, b', heardHandle h' lg ys)

/-- Handing the connection back to the handle. -/
theorem await_back {env : Env} {s : BStreamS} {h : HandleS} {lg : List Cmd} {p : Packet} {o : Option Transport} {i : PStream} {l : List ReadEv}
    {wl : Writer} (hi : IssuedB env s h lg) (ha : AwaitsS env s.inner s.revs s.writer (.item p o) i l wl) (bd : Binding) :
    (∀ ys, HearsS env i l wl.evs ys → HearsIn env ⟨o.map (Sock.mk · l wl), h.context, bd⟩ ys → ∃ xs, HearsB env s h xs ∧
      ∀ b : BStream, LikeB lg xs s b → ∃ j, b.inner.next = (.item p (o.map (connT · lg ys)), j) ∧ Like lg ys i j) ∧
      ∀ st ix sk, IssuedB env ⟨i, l, wl, st, ix, sk⟩ ⟨o.map (Sock.mk · l wl), h.context, bd⟩ lg := by
  obtain ⟨g1, g2, g3, g4⟩ := await_b hi ha nofun
  refine ⟨fun ys hy hh => ?_, fun st ix sk => ⟨g2, fun k e => ?_, fun k e => ?_⟩⟩
  · obtain ⟨xs, hx, he, hn⟩ := g1 ys (by
      cases o with
      | none => exact hy
      | some t => exact hh _ rfl) nofun
    refine ⟨xs, hx, fun b hl => ?_⟩
    obtain ⟨x, j, e, hlj, hm⟩ := hn b hl
    cases hm <;> exact ⟨j, e, hlj⟩
  · cases o with
    | none => cases e
    | some t => cases e; exact (g4 t rfl).2
  · cases o with
    | none => cases e
    | some t => exact (g4 t rfl).1

theorem read_sim {env : Env} {s s' : BStreamS} {h h' : HandleS} {it : BItem} (hr : ReadS env s h it s' h') :
    ∀ {lg : List Cmd}, IssuedB env s h lg → SimB env lg BStream.read s h it s' h' := by
  induction hr with
  | ended ha =>
    intro lg hi
    obtain ⟨g1, g2⟩ := await_keep hi ha nofun
    refine ⟨g2 _ _ _, fun ys hy => ?_⟩
    obtain ⟨xs, zs, hx, he, hn⟩ := g1 ys hy.stream hy.handle
    refine ⟨xs, hx, fun b hl => ?_⟩
    obtain ⟨x, j, e, hlj, hm⟩ := hn b hl
    cases hm
    exact ⟨{ b with inner := j, state := .error }, ⟨hlj, rfl, hl.index, hl.skip⟩, by rw [he]; exact read_ended e⟩
  | bad ha =>
    intro lg hi
    obtain ⟨g1, g2⟩ := await_keep hi ha nofun
    refine ⟨g2 _ _ _, fun ys hy => ?_⟩
    obtain ⟨xs, zs, hx, he, hn⟩ := g1 ys hy.stream hy.handle
    refine ⟨xs, hx, fun b hl => ?_⟩
    obtain ⟨x, j, e, hlj, hm⟩ := hn b hl
    cases hm
    exact ⟨{ b with inner := j }, ⟨hlj, hl.state, hl.index, hl.skip⟩, by rw [he]; exact read_error e⟩
  | broken ha =>
    intro lg hi
    obtain ⟨g1, g2⟩ := await_keep hi ha nofun
    refine ⟨g2 _ _ _, fun ys hy => ?_⟩
    obtain ⟨xs, zs, hx, he, hn⟩ := g1 ys hy.stream hy.handle
    refine ⟨xs, hx, fun b hl => ?_⟩
    obtain ⟨x, j, e, hlj, hm⟩ := hn b hl
    cases hm
    exact ⟨{ b with inner := j }, ⟨hlj, hl.state, hl.index, hl.skip⟩, by rw [he]; exact read_error e⟩
  | @eof s h i l wl t ha hb =>
    intro lg hi
    obtain ⟨g1, g2⟩ := await_back hi ha h.binding
    refine ⟨g2 _ _ _, fun ys hy => ?_⟩
    obtain ⟨xs, hx, hn⟩ := g1 ys hy.stream hy.handle
    refine ⟨xs, hx, fun b hl => ?_⟩
    obtain ⟨j, e, hlj⟩ := hn b hl
    refine ⟨{ b with inner := j, state := .finished }, ⟨hlj, rfl, hl.index, hl.skip⟩, ?_⟩
    rw [read_eof e, if_pos (show (heardHandle h lg xs).binding = .attached from hb)]
    cases t <;> rfl
  | @eofAttach s h i l wl t bd ha hb hat =>
    intro lg hi
    obtain ⟨g1, g2⟩ := await_back hi ha bd
    refine ⟨g2 _ _ _, fun ys hy => ?_⟩
    obtain ⟨xs, hx, hn⟩ := g1 ys hy.stream hy.handle
    refine ⟨xs, hx, fun b hl => ?_⟩
    obtain ⟨j, e, hlj⟩ := hn b hl
    refine ⟨{ b with inner := j, state := .finished }, ⟨hlj, rfl, hl.index, hl.skip⟩, ?_⟩
    rw [read_eof e, if_neg (show ¬ (heardHandle h lg xs).binding = .attached from hb),
      show (heardHandle h lg xs).binding.attach = some bd from hat]
    cases t <;> rfl
  | @eofPanic s h i l wl t ha hb hat =>
    intro lg hi
    obtain ⟨g1, g2⟩ := await_back hi ha .none
    refine ⟨g2 _ _ _, fun ys hy => ?_⟩
    obtain ⟨xs, hx, hn⟩ := g1 ys hy.stream hy.handle
    refine ⟨xs, hx, fun b hl => ?_⟩
    obtain ⟨j, e, hlj⟩ := hn b hl
    refine ⟨{ b with inner := j }, ⟨hlj, hl.state, hl.index, hl.skip⟩, ?_⟩
    rw [read_eof e, if_neg (show ¬ (heardHandle h lg xs).binding = .attached from hb),
      show (heardHandle h lg xs).binding.attach = none from hat]
    cases t <;> rfl
  | profile ha _ ih =>
    intro lg hi
    obtain ⟨g1, g2⟩ := await_keep hi ha nofun
    obtain ⟨i1, i2⟩ := ih (g2 _ _ _)
    refine ⟨i1, fun ys hy => ?_⟩
    obtain ⟨zs, hz, hf⟩ := i2 ys hy
    obtain ⟨xs, vs, hx, he, hn⟩ := g1 zs hz.stream hz.handle
    refine ⟨xs, hx, fun b hl => ?_⟩
    obtain ⟨x, j, e, hlj, hm⟩ := hn b hl
    obtain ⟨b', hl', e'⟩ := hf { b with inner := j } ⟨hlj, hl.state, hl.index, hl.skip⟩
    refine ⟨b', hl', ?_⟩
    rw [he, ← e']
    cases hm <;> exact read_profile e
  | progress ha _ ih =>
    intro lg hi
    obtain ⟨g1, g2⟩ := await_keep hi ha nofun
    obtain ⟨i1, i2⟩ := ih (g2 _ _ _)
    refine ⟨i1, fun ys hy => ?_⟩
    obtain ⟨zs, hz, hf⟩ := i2 ys hy
    obtain ⟨xs, vs, hx, he, hn⟩ := g1 zs hz.stream hz.handle
    refine ⟨xs, hx, fun b hl => ?_⟩
    obtain ⟨x, j, e, hlj, hm⟩ := hn b hl
    obtain ⟨b', hl', e'⟩ := hf { b with inner := j } ⟨hlj, hl.state, hl.index, hl.skip⟩
    refine ⟨b', hl', ?_⟩
    rw [he, ← e']
    cases hm <;> exact read_progress e
  | exception ha =>
    intro lg hi
    obtain ⟨g1, g2⟩ := await_keep hi ha nofun
    refine ⟨g2 _ _ _, fun ys hy => ?_⟩
    obtain ⟨xs, zs, hx, he, hn⟩ := g1 ys hy.stream hy.handle
    refine ⟨xs, hx, fun b hl => ?_⟩
    obtain ⟨x, j, e, hlj, hm⟩ := hn b hl
    refine ⟨{ b with inner := j, state := .finished }, ⟨hlj, rfl, hl.index, hl.skip⟩, ?_⟩
    rw [he]
    cases hm <;> exact read_exception e
  | @block s h i l wl t bl ha hk =>
    intro lg hi
    obtain ⟨g1, g2⟩ := await_keep hi ha nofun
    refine ⟨g2 _ _ _, fun ys hy => ?_⟩
    obtain ⟨xs, zs, hx, he, hn⟩ := g1 ys hy.stream hy.handle
    refine ⟨xs, hx, fun b hl => ?_⟩
    obtain ⟨x, j, e, hlj, hm⟩ := hn b hl
    rw [hl.index, hl.skip] at hk
    refine ⟨{ b with inner := j, blockIndex := b.blockIndex + 1 }, ⟨hlj, hl.state, by simp only [hl.index], hl.skip⟩, ?_⟩
    rw [he]
    cases hm <;> rw [read_block e, if_pos hk]
  | @skipped s h i l wl t bl _ _ _ ha hk _ ih =>
    intro lg hi
    obtain ⟨g1, g2⟩ := await_keep hi ha nofun
    obtain ⟨i1, i2⟩ := ih (g2 _ _ _)
    refine ⟨i1, fun ys hy => ?_⟩
    obtain ⟨zs, hz, hf⟩ := i2 ys hy
    obtain ⟨xs, vs, hx, he, hn⟩ := g1 zs hz.stream hz.handle
    refine ⟨xs, hx, fun b hl => ?_⟩
    obtain ⟨x, j, e, hlj, hm⟩ := hn b hl
    obtain ⟨b', hl', e'⟩ := hf { b with inner := j, blockIndex := b.blockIndex + 1 } ⟨hlj, hl.state, by simp only [hl.index], hl.skip⟩
    refine ⟨b', hl', ?_⟩
    rw [hl.index, hl.skip] at hk
    rw [he, ← e']
    cases hm <;> rw [read_block e, if_neg (by rw [hk]; simp)]
  | unexpected ha h1 h2 h3 h4 h5 =>
    intro lg hi
    obtain ⟨g1, g2⟩ := await_keep hi ha nofun
    refine ⟨g2 _ _ _, fun ys hy => ?_⟩
    obtain ⟨xs, zs, hx, he, hn⟩ := g1 ys hy.stream hy.handle
    refine ⟨xs, hx, fun b hl => ?_⟩
    obtain ⟨x, j, e, hlj, hm⟩ := hn b hl
    refine ⟨{ b with inner := j }, ⟨hlj, hl.state, hl.index, hl.skip⟩, ?_⟩
    rw [he]
    cases hm <;> exact read_other e h1 h4 h3 h2 h5

theorem next_sim {env : Env} {s s' : BStreamS} {h h' : HandleS} {it : BItem} {lg : List Cmd} (hr : NextS env s h it s' h')
    (hi : IssuedB env s h lg) : SimB env lg BStream.next s h it s' h' := by
  rw [NextS] at hr
  cases hs : s.state with
  | reading =>
    rw [hs] at hr
    obtain ⟨g1, g2⟩ := read_sim hr hi
    refine ⟨g1, fun ys hy => ?_⟩
    obtain ⟨xs, hx, hf⟩ := g2 ys hy
    refine ⟨xs, hx, fun b hl => ?_⟩
    obtain ⟨b', hl', e⟩ := hf b hl
    exact ⟨b', hl', by rw [BStream.next, ← hl.state, hs]; exact e⟩
  | finished =>
    rw [hs] at hr
    obtain ⟨rfl, rfl, rfl⟩ := hr
    exact ⟨hi, fun ys hy => ⟨ys, hy, fun b hl => ⟨b, hl, by rw [BStream.next, ← hl.state, hs]⟩⟩⟩
  | error =>
    rw [hs] at hr
    obtain ⟨rfl, rfl, rfl⟩ := hr
    exact ⟨hi, fun ys hy => ⟨ys, hy, fun b hl => ⟨b, hl, by rw [BStream.next, ← hl.state, hs]⟩⟩⟩

theorem run_sim {env : Env} {n : Nat} {s s' : BStreamS} {h h' : HandleS} {is : List BItem} (hr : RunS env n s h is s' h') :
    ∀ {lg : List Cmd}, IssuedB env s h lg → IssuedB env s' h' lg ∧ ∀ ys, HearsB env s' h' ys → ∃ xs, HearsB env s h xs ∧ ∀ b, LikeB lg xs s b →
      ∃ b', LikeB lg ys s' b' ∧ run n b (heardHandle h lg xs) = (is, b', heardHandle h' lg ys) := by
  induction hr with
  | zero => intro lg hi; exact ⟨hi, fun ys hy => ⟨ys, hy, fun b hl => ⟨b, hl, rfl⟩⟩⟩
  | succ hn _ ih =>
    intro lg hi
    obtain ⟨g1, g2⟩ := next_sim hn hi
    obtain ⟨i1, i2⟩ := ih g1
    refine ⟨i1, fun ys hy => ?_⟩
    obtain ⟨zs, hz, hf⟩ := i2 ys hy
    obtain ⟨xs, hx, hf1⟩ := g2 zs hz
    refine ⟨xs, hx, fun b hl => ?_⟩
    obtain ⟨b1, hl1, e1⟩ := hf1 b hl
    obtain ⟨b2, hl2, e2⟩ := hf b1 hl1
    exact ⟨b2, hl2, by rw [run, e1]; simp only [e2]⟩

theorem drop_reading {b : BStream} {hc : Handle} {bd : Binding} (hs : b.state = .reading)
    (hat : (if hc.binding = .attached then some Binding.attached else hc.binding.attach) = some bd) :
    (∀ c, b.inner.conn = some c → b.drop hc = some ⟨some { c with inconsistent := true }, hc.context, bd⟩) ∧
      (b.inner.conn = none → b.drop hc = some ⟨hc.inner, hc.context, bd⟩) := by
  rw [BStream.drop, hs]
  simp only
  rw [hat]
  exact ⟨fun c e => by simp only [e], fun e => by simp only [e]⟩

theorem drop_sim {env : Env} {s : BStreamS} {h h' : HandleS} {lg : List Cmd} (hd : s.drop h = some h') (hi : IssuedB env s h lg) :
    IssuedIn env h' lg ∧ ∀ ys, HearsIn env h' ys → ∃ xs, HearsB env s h xs ∧ ∀ b, LikeB lg xs s b →
      b.drop (heardHandle h lg xs) = some (heardHandle h' lg ys) := by
  obtain ⟨inner, revs, writer, st, ix, sk⟩ := s
  have idle : h' = h → (∀ b : BStream, b.state = st → ∀ hc, b.drop hc = some hc) → IssuedIn env h' lg ∧ ∀ ys, HearsIn env h' ys →
      ∃ xs, HearsB env ⟨inner, revs, writer, st, ix, sk⟩ h xs ∧ ∀ b, LikeB lg xs ⟨inner, revs, writer, st, ix, sk⟩ b →
        b.drop (heardHandle h lg xs) = some (heardHandle h' lg ys) := by
    rintro rfl hb
    refine ⟨hi.handle, fun ys hy => ?_⟩
    cases hk : h'.inner with
    | none => exact ⟨[], ⟨fun _ _ => .stop, fun _ _ => .stop⟩, fun b hl => by rw [hb b hl.state.symm, handle_none hk lg [] ys]⟩
    | some k =>
      have hn := hi.one k hk
      exact ⟨ys, ⟨fun t e => (by rw [hn] at e; cases e), hy⟩, fun b hl => hb b hl.state.symm _⟩
  rw [BStreamS.drop] at hd
  cases st with
  | finished =>
    simp only [Option.some.injEq] at hd
    exact idle hd.symm fun b e hc => by rw [BStream.drop, e]
  | error =>
    simp only [Option.some.injEq] at hd
    exact idle hd.symm fun b e hc => by rw [BStream.drop, e]
  | reading =>
    simp only at hd
    cases hat : (if h.binding = .attached then some Binding.attached else h.binding.attach) with
    | none => rw [hat] at hd; simp at hd
    | some bd =>
      rw [hat] at hd
      simp only at hd
      cases hin : inner.inner with
      | none =>
        rw [hin] at hd
        simp only [Option.some.injEq] at hd
        subst hd
        refine ⟨hi.handle, fun ys hy => ⟨ys, ⟨fun t e => (by simp only at e; rw [hin] at e; cases e), hy⟩, fun b hl => ?_⟩⟩
        have hli := hl.inner
        obtain ⟨i1, i2, i3⟩ := inner
        simp only at hin hli
        subst hin
        obtain ⟨b1, b2, b3, b4⟩ := b
        have hst := hl.state
        simp only at hst hli
        subst hst
        cases hli
        exact (drop_reading (hc := heardHandle h lg ys) rfl hat).2 rfl
      | some t =>
        rw [hin] at hd
        simp only [Option.some.injEq] at hd
        subst hd
        have hno : h.inner = none := by
          cases hk : h.inner with
          | none => rfl
          | some k =>
            have := hi.one k hk
            simp only at this
            rw [hin] at this
            cases this
        obtain ⟨q1, q2⟩ := hi.stream t hin
        refine ⟨fun k e => ?_, fun ys hy => ⟨ys, ⟨fun t' e => ?_, fun k e => by rw [hno] at e; cases e⟩, fun b hl => ?_⟩⟩
        · cases e
          exact ⟨q1, by rw [List.append_assoc]; exact q2⟩
        · simp only at e
          rw [hin] at e
          cases e
          exact hy _ rfl
        · have hli := hl.inner
          obtain ⟨i1, i2, i3⟩ := inner
          simp only at hin hli
          subst hin
          obtain ⟨b1, b2, b3, b4⟩ := b
          have hst := hl.state
          simp only at hst hli
          subst hst
          cases hli
          exact (drop_reading (b := ⟨⟨some (connT t lg ys), decide (i2 = .done), i3⟩, .reading, b3, b4⟩) (hc := heardHandle h lg ys) rfl hat).1
            (connT t lg ys) rfl

theorem open_sim {env : Env} {h h' : HandleS} {w w' : WorldS} {q : Query} {skip : Bool} {s : BStreamS} {lg : List Cmd}
    (hi : IssuedIn env h lg) (hw : IssuedWorld env w) (hr : OpenS env h q skip w (.ok s) h' w') :
    ∃ lg', IssuedB env s h' lg' ∧ ∀ ys, HearsB env s h' ys → ∃ xs wc b wc', HearsIn env h xs ∧ HearsWorld env w wc ∧
      (heardHandle h lg xs).openStream q skip wc = (.ok b, heardHandle h' lg' ys, wc') ∧ LikeB lg' ys s b := by
  cases hr with
  | @opened h1 _ bd k hp hb hin =>
    obtain ⟨lg1, hi1, hw1, hf⟩ := precheck_sim hp hi hw
    refine ⟨lg1 ++ [.sendQuery q h1.context], ⟨call_issued (hi1 k hin) (query_encodes env q _), nofun, nofun⟩, fun ys hy => ?_⟩
    obtain ⟨wc1, hwc1⟩ := world_some hw1
    obtain ⟨xs, wc, hx, hwc, e⟩ := hf ys wc1 (fun k' e' => by rw [hin] at e'; cases e'; exact call_hears hy.stream) hwc1
    refine ⟨xs, wc, ⟨(heardConn k lg1 ys).call (.sendQuery q h1.context), .reading, 0, skip⟩, wc1, hx, hwc, ?_, ⟨call_like k lg1 (.sendQuery q h1.context) ys, rfl, rfl, rfl⟩⟩
    rw [Handle.openStream, e]
    simp only [heardHandle, hb, hin, Option.map_some]
    rfl

theorem open_err_sim {env : Env} {h h' : HandleS} {w w' : WorldS} {q : Query} {skip : Bool} {er : OpErr} {lg : List Cmd}
    (hi : IssuedIn env h lg) (hw : IssuedWorld env w) (hr : OpenS env h q skip w (.err er) h' w') :
    ∃ lg', IssuedIn env h' lg' ∧ ∀ ys, HearsIn env h' ys → ∃ xs wc wc', HearsIn env h xs ∧ HearsWorld env w wc ∧
      (heardHandle h lg xs).openStream q skip wc = (.err er, heardHandle h' lg' ys, wc') := by
  cases hr with
  | failed hp =>
    obtain ⟨lg1, hi1, hw1, hf⟩ := precheck_sim hp hi hw
    obtain ⟨wc1, hwc1⟩ := world_some hw1
    refine ⟨lg1, hi1, fun ys hy => ?_⟩
    obtain ⟨xs, wc, hx, hwc, e⟩ := hf ys wc1 hy hwc1
    exact ⟨xs, wc, wc1, hx, hwc, by rw [Handle.openStream, e]⟩
  | @gone h1 _ bd hp hb hin =>
    obtain ⟨lg1, hi1, hw1, hf⟩ := precheck_sim hp hi hw
    obtain ⟨wc1, hwc1⟩ := world_some hw1
    refine ⟨lg1, hi1, fun ys hy => ?_⟩
    obtain ⟨xs, wc, hx, hwc, e⟩ := hf ys wc1 hy hwc1
    refine ⟨xs, wc, wc1, hx, hwc, ?_⟩
    rw [Handle.openStream, e]
    simp only [heardHandle, hb, hin, Option.map_none]

theorem insert_handle_sim {env : Env} {numeric : Char → Bool} {cast : Block → Block → Out Block} {h h' : HandleS}
    {w w' : WorldS} {t : Query} {b : Block} {r : OpRes Unit} {lg : List Cmd} (hi : IssuedIn env h lg) (hw : IssuedWorld env w)
    (hb : DataEncodes env cast h.context (.insert t b)) (hr : h.insert env numeric cast t b w r h' w') :
    SimW env h w lg (fun hc wc => hc.insert numeric cast t b wc) r h' w' := by
  rw [funext fun hc => funext fun wc => insert_checked numeric cast hc t b wc]
  rw [HandleS.insert] at hr
  cases hq : makeQuery numeric t b with
  | ok q =>
    rw [hq] at hr
    exact checked_sim (fun k lg r hk hr => insert_sim (t := t) hk hb hr) hi hw hr
  | err e =>
    rw [hq] at hr
    obtain ⟨rfl, rfl, rfl⟩ := hr
    exact ⟨lg, hi, hw, fun ys wc hy hwc => ⟨ys, wc, hy, hwc, rfl⟩⟩
  | panic =>
    rw [hq] at hr
    obtain ⟨rfl, rfl, rfl⟩ := hr
    exact ⟨lg, hi, hw, fun ys wc hy hwc => ⟨ys, wc, hy, hwc, rfl⟩⟩

theorem execute_handle_sim {env : Env} {h h' : HandleS} {w w' : WorldS} {q : Query} {r : OpRes Unit} {lg : List Cmd} (hi : IssuedIn env h lg)
    (hw : IssuedWorld env w) (hr : h.execute env q w r h' w') : SimW env h w lg (fun hc wc => hc.execute q wc) r h' w' := by
  rw [funext fun hc => funext fun wc => execute_checked hc q wc]
  exact checked_sim (fun k lg r hk hr => execute_sim hk hr) hi hw hr

/-- What a user's program comes to. -/
theorem ask_sim {env : Env} {numeric : Char → Bool} {cast : Block → Block → Out Block} {h h' : HandleS} {w : WorldS} {a : Wish}
    {r : Reply} {lg : List Cmd} (ha : AskS env numeric cast h w a r h') (hi : IssuedIn env h lg) (hw : IssuedWorld env w)
    (he : DataEncodes env cast h.context a) :
    ∃ lg', IssuedIn env h' lg' ∧ ∀ ys, HearsIn env h' ys → ∃ xs wc, HearsIn env h xs ∧ HearsWorld env w wc ∧
      askW numeric cast (heardHandle h lg xs) wc a = some (r, heardHandle h' lg' ys) := by
  have plain : ∀ {F : Handle → World → OpRes Unit × Handle × World} {x : OpRes Unit} {w' : WorldS},
      SimW env h w lg F x h' w' →
      (∀ hc wc hc' wc', F hc wc = (x, hc', wc') → askW numeric cast hc wc a = some (r, hc')) →
      ∃ lg', IssuedIn env h' lg' ∧ ∀ ys, HearsIn env h' ys → ∃ xs wc, HearsIn env h xs ∧ HearsWorld env w wc ∧
        askW numeric cast (heardHandle h lg xs) wc a = some (r, heardHandle h' lg' ys) := by
    rintro F x w' ⟨lg', hi', hw', hf⟩ hF
    obtain ⟨wc', hwc'⟩ := world_some hw'
    refine ⟨lg', hi', fun ys hy => ?_⟩
    obtain ⟨xs, wc, hx, hwc, e⟩ := hf ys wc' hy hwc'
    exact ⟨xs, wc, hx, hwc, hF _ _ _ _ e⟩
  cases ha with
  | ping hp =>
    obtain ⟨lg', hi', hf⟩ := ping_sim hi hp
    obtain ⟨wc, hwc⟩ := world_some hw
    refine ⟨lg', hi', fun ys hy => ?_⟩
    obtain ⟨xs, hx, e⟩ := hf ys hy
    exact ⟨xs, wc, hx, hwc, by simp [askW, e]⟩
  | pingErr hp =>
    obtain ⟨lg', hi', hf⟩ := ping_sim hi hp
    obtain ⟨wc, hwc⟩ := world_some hw
    refine ⟨lg', hi', fun ys hy => ?_⟩
    obtain ⟨xs, hx, e⟩ := hf ys hy
    exact ⟨xs, wc, hx, hwc, by simp [askW, e]⟩
  | execute hx => exact plain (execute_handle_sim hi hw hx) fun hc wc hc' wc' e => by simp [askW, e]
  | executeErr hx => exact plain (execute_handle_sim hi hw hx) fun hc wc hc' wc' e => by simp [askW, e]
  | select ho hr hd =>
    obtain ⟨lg', hi1, hf⟩ := open_sim hi hw ho
    obtain ⟨hi2, hf2⟩ := run_sim hr hi1
    obtain ⟨hi3, hf3⟩ := drop_sim hd hi2
    refine ⟨lg', hi3, fun ys hy => ?_⟩
    obtain ⟨vs, hv, e3⟩ := hf3 ys hy
    obtain ⟨zs, hz, e2⟩ := hf2 vs hv
    obtain ⟨xs, wc, b, wc', hx, hwc, e, hl⟩ := hf zs hz
    obtain ⟨b', hl', e2⟩ := e2 b hl
    exact ⟨xs, wc, hx, hwc, by simp [askW, e, e2, e3 b' hl']⟩
  | selectErr ho =>
    obtain ⟨lg', hi1, hf⟩ := open_err_sim hi hw ho
    refine ⟨lg', hi1, fun ys hy => ?_⟩
    obtain ⟨xs, wc, wc', hx, hwc, e⟩ := hf ys hy
    exact ⟨xs, wc, hx, hwc, by simp [askW, e]⟩
  | insert hin => exact plain (insert_handle_sim hi hw he hin) fun hc wc hc' wc' e => by simp [askW, e]
  | insertErr hin => exact plain (insert_handle_sim hi hw he hin) fun hc wc hc' wc' e => by simp [askW, e]

theorem read_context {env : Env} {s s' : BStreamS} {h h' : HandleS} {it : BItem} (hr : ReadS env s h it s' h') : h'.context = h.context := by
  induction hr with
  | profile _ _ ih => exact ih
  | progress _ _ ih => exact ih
  | skipped _ _ _ ih => exact ih
  | _ => rfl

theorem run_context {env : Env} {n : Nat} {s s' : BStreamS} {h h' : HandleS} {is : List BItem} (hr : RunS env n s h is s' h') :
    h'.context = h.context := by
  induction hr with
  | zero => rfl
  | @succ _ s _ _ _ _ _ _ _ hn _ ih =>
    rw [ih]
    rw [NextS] at hn
    cases hs : s.state with
    | reading => rw [hs] at hn; exact read_context hn
    | _ => rw [hs] at hn; rw [hn.2.2]

theorem drop_context {s : BStreamS} {h h' : HandleS} (hd : s.drop h = some h') : h'.context = h.context := by
  rw [BStreamS.drop] at hd
  cases hs : s.state <;> rw [hs] at hd
  · simp only at hd
    generalize (if h.binding = .attached then some Binding.attached else h.binding.attach) = o at hd
    cases o with
    | none => simp at hd
    | some b =>
      simp only at hd
      cases hi : s.inner.inner <;> rw [hi] at hd <;> simp only [Option.some.injEq] at hd <;> subst hd <;> rfl
  · simp only [Option.some.injEq] at hd; rw [hd]
  · simp only [Option.some.injEq] at hd; rw [hd]

theorem checked_context {env : Env} {P : Sock → Context → OpRes Sock → Prop} {h h' : HandleS} {w w' : WorldS} {r : OpRes Unit}
    (hr : Checked env P h w r h' w') : h'.context = h.context := by
  cases hr with
  | failed hp _ => exact precheck_context hp
  | gone hp _ => exact precheck_context hp
  | done hp _ hd => rw [put_context hd]; exact precheck_context hp

theorem open_context {env : Env} {h h' : HandleS} {w w' : WorldS} {q : Query} {skip : Bool} {r : OpRes BStreamS}
    (hr : OpenS env h q skip w r h' w') : h'.context = h.context := by
  cases hr with
  | failed hp => exact precheck_context hp
  | panic hp => exact precheck_context hp
  | unbound hp _ => exact (precheck_context hp :)
  | gone hp _ _ => exact (precheck_context hp :)
  | opened hp _ _ => exact (precheck_context hp :)

theorem insert_context {env : Env} {numeric : Char → Bool} {cast : Block → Block → Out Block} {h h' : HandleS} {w w' : WorldS} {t : Query}
    {b : Block} {r : OpRes Unit} (hr : h.insert env numeric cast t b w r h' w') : h'.context = h.context := by
  rw [HandleS.insert] at hr
  cases hq : makeQuery numeric t b with
  | ok q => rw [hq] at hr; exact checked_context hr
  | _ => rw [hq] at hr; rw [hr.2.1]

theorem ask_context {env : Env} {numeric : Char → Bool} {cast : Block → Block → Out Block} {h h' : HandleS} {w : WorldS} {a : Wish}
    {r : Reply} (ha : AskS env numeric cast h w a r h') : h'.context = h.context := by
  cases ha with
  | ping hp => exact Socket.ping_context hp
  | pingErr hp => exact Socket.ping_context hp
  | execute hx => exact checked_context hx
  | executeErr hx => exact checked_context hx
  | select ho hr hd => rw [drop_context hd, run_context hr, open_context ho]
  | selectErr ho => exact open_context ho
  | insert hi => exact insert_context hi
  | insertErr hi => exact insert_context hi

/-- Any number of things asked in turn. -/
theorem each_sim {env : Env} {numeric : Char → Bool} {cast : Block → Block → Out Block} {h h' : HandleS} {l : List (Wish × WorldS)}
    {rs : List Reply} (ha : AskEachS env numeric cast h l rs h') : ∀ {lg : List Cmd}, IssuedIn env h lg →
      (∀ x ∈ l, IssuedWorld env x.2 ∧ DataEncodes env cast h.context x.1) →
      ∃ lg', IssuedIn env h' lg' ∧ ∀ ys, HearsIn env h' ys → ∃ xs es, HearsIn env h xs ∧ HearsEvents env l es ∧
        live numeric cast (heardHandle h lg xs) es = some (rs, heardHandle h' lg' ys) := by
  induction ha with
  | nil => intro lg hi _; exact ⟨lg, hi, fun ys hy => ⟨ys, [], hy, .nil, rfl⟩⟩
  | cons ha hl ih =>
    intro lg hi hw
    obtain ⟨w1, w2⟩ := hw _ List.mem_cons_self
    obtain ⟨lg1, hi1, hf1⟩ := ask_sim ha hi w1 w2
    obtain ⟨lg2, hi2, hf2⟩ := ih hi1 (fun x hx => by rw [ask_context ha]; exact hw x (List.mem_cons_of_mem _ hx))
    refine ⟨lg2, hi2, fun ys hy => ?_⟩
    obtain ⟨zs, es, hz, he, e2⟩ := hf2 ys hy
    obtain ⟨xs, wc, hx, hwc, e1⟩ := hf1 zs hz
    exact ⟨xs, _, hx, .cons hwc he, by simp [live, e1, e2]⟩

/-- Packets heard are decoded. -/
theorem hears_packets {env : Env} {ends : Prop} : ∀ {ps : List Packet} {n : Nat} {i : TransportInfo} {bs : Bytes} {xs : List Inc},
    Hears env ends n i bs (ps.map .packet ++ xs) → ∃ j rest, Decodes env i bs (ps.map .inl) j rest
  | [], _, i, bs, _, _ => ⟨i, bs, .done⟩
  | p :: ps, n, i, bs, xs, h => by
    cases h with
    | packet h hk t =>
      obtain ⟨j, rest, hd⟩ := hears_packets t
      exact ⟨j, rest, .packet h hk hd⟩

end CH.Outage
