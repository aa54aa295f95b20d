import Verif.Spec.Refine
import Verif.Lemmas.Transport

/-! Lemmas for C70. -/

namespace CH
open Spec

theorem lasting_append {a b : List ReadEv} (h : Lasting (a ++ b)) : Lasting a ∧ Lasting b :=
  ⟨fun e he => h e (List.mem_append_left _ he), fun e he => h e (List.mem_append_right _ he)⟩

/-- A complete decoding begins with every partial one. -/
theorem Spec.Decodes.tail {env : Env} {i j k : TransportInfo} {bs r r' : Bytes} {xs ys : List (Packet ⊕ Err)}
    (h1 : Decodes env i bs ys j r) (h2 : Decodes env i bs xs k r') (m : parsePacket env k r' = .more) :
    ∃ zs, xs = ys ++ zs ∧ Decodes env j r zs k r' := by
  induction h1 generalizing xs with
  | done => exact ⟨xs, rfl, h2⟩
  | packet h hk _ ih =>
    cases h2 with
    | done => rw [m] at h; simp at h
    | packet h' hk' t' =>
      rw [h] at h'
      simp only [Res.ok.injEq] at h'
      obtain ⟨rfl, rfl⟩ := h'
      obtain rfl := knows_unique hk hk'
      obtain ⟨zs, rfl, hz⟩ := ih t'
      exact ⟨zs, rfl, hz⟩
    | error h' _ => rw [h] at h'; simp at h'
  | error h _ ih =>
    cases h2 with
    | done => rw [m] at h; simp at h
    | packet h' _ _ => rw [h] at h'; simp at h'
    | error h' t' =>
      rw [h] at h'
      simp only [Res.err.injEq] at h'
      obtain ⟨rfl, rfl⟩ := h'
      obtain ⟨zs, rfl, hz⟩ := ih t'
      exact ⟨zs, rfl, hz⟩

theorem Spec.Decodes.no_panic {env : Env} {i k : TransportInfo} {bs r' : Bytes} {xs : List (Packet ⊕ Err)}
    (h2 : Decodes env i bs xs k r') (m : parsePacket env k r' = .more) : parsePacket env i bs ≠ .panic := by
  cases h2 with
  | done => rw [m]; simp
  | packet h _ _ => rw [h]; simp
  | error h _ => rw [h]; simp

theorem readToEnd_lasting {start : Nat} {evs evs' : List ReadEv} {rd rd' : Bytes} {f : Fill} (hl : Lasting evs)
    (h : readToEnd start evs rd = (f, rd', evs')) : f = .pending ∧ (evs = [] ∨ evs'.length < evs.length) := by
  fun_induction readToEnd start evs rd with
  | case1 rd => simp only [Prod.mk.injEq] at h; exact ⟨h.1.symm, .inl rfl⟩
  | case2 evs rd => simp only [Prod.mk.injEq] at h; exact ⟨h.1.symm, .inr (by rw [← h.2.2]; simp)⟩
  | case3 evs rd => exact absurd (hl .fail (by simp)) (by simp)
  | case4 evs rd =>
    rcases hl (.ready []) (by simp) with h1 | ⟨b, hb, h1⟩
    · simp at h1
    · simp only [ReadEv.ready.injEq] at h1; exact absurd h1.symm hb
  | case5 b evs rd hb ih =>
    obtain ⟨h1, h2⟩ := ih (fun e he => hl e (List.mem_cons_of_mem _ he)) h
    refine ⟨h1, .inr ?_⟩
    rcases h2 with h2 | h2
    · subst h2
      simp only [readToEnd, Prod.mk.injEq] at h
      rw [← h.2.2]; simp
    · simp only [List.length_cons]; omega

theorem fillLoop_lasting {evs evs' : List ReadEv} {rd rd' : Bytes} {f : FillEnd} (hl : Lasting evs)
    (h : fillLoop evs rd = (f, rd', evs')) : f = .waiting ∧ (evs = [] ∨ evs'.length < evs.length) := by
  rw [fillLoop] at h
  split at h
  · next hr => exact absurd (readToEnd_lasting hl hr).1 (by simp)
  · next hr => exact absurd (readToEnd_lasting hl hr).1 (by simp)
  · next hr => exact absurd (readToEnd_lasting hl hr).1 (by simp)
  · next hr =>
    simp only [Prod.mk.injEq] at h
    obtain ⟨rfl, rfl, rfl⟩ := h
    exact ⟨rfl, (readToEnd_lasting hl hr).2⟩

theorem tryParse_same {env : Env} {t t' : Transport} {r : TPoll} (h : t.tryParse env = (r, t')) :
    t'.inconsistent = t.inconsistent ∧ t'.done = t.done ∧ r ≠ .closed ∧ r ≠ .broken ∧
      (r = .panic → parsePacket env t.info t.rd = .panic) := by
  rw [Transport.tryParse] at h
  split at h
  all_goals
    simp only [Prod.mk.injEq] at h
    obtain ⟨rfl, rfl⟩ := h
  · exact ⟨rfl, rfl, by simp, by simp, by simp⟩
  · exact ⟨rfl, rfl, by simp, by simp, by simp⟩
  · exact ⟨rfl, rfl, by simp, by simp, by simp⟩
  · next hp => exact ⟨rfl, rfl, by simp, by simp, fun _ => hp⟩

theorem fillAndParse_same {env : Env} {t t' : Transport} {r : TPoll} {evs left : List ReadEv} (hl : Lasting evs) (hd : t.done = false)
    (h : t.fillAndParse env evs = (r, t', left)) :
    t'.inconsistent = t.inconsistent ∧ t'.done = false ∧ r ≠ .closed ∧ r ≠ .broken ∧
      (r = .panic → ∃ used, evs = used ++ left ∧ parsePacket env t.info (t.rd ++ received used) = .panic) ∧
      (evs = [] ∨ left.length < evs.length) := by
  rw [Transport.fillAndParse, hd] at h
  simp only [Bool.false_eq_true, if_false] at h
  cases hf : fillLoop evs t.rd with
  | mk f rest =>
    obtain ⟨rd, evs1⟩ := rest
    obtain ⟨rfl, hlen⟩ := fillLoop_lasting hl hf
    obtain ⟨used, h1, h2, _⟩ := fillLoop_spec hf
    simp only [hf] at h
    split at h
    all_goals
      rename_i ht
      simp only [Prod.mk.injEq] at h
      obtain ⟨rfl, rfl, rfl⟩ := h
      obtain ⟨g1, g2, g3, g4, g5⟩ := tryParse_same ht
      exact ⟨g1, g2, g3, g4, fun e => ⟨used, h1, by rw [← h2]; exact g5 e⟩, hlen⟩

theorem pollNext_same {env : Env} {t t' : Transport} {r : TPoll} {evs left : List ReadEv} (hl : Lasting evs) (hd : t.done = false)
    (h : t.pollNext env evs = (r, t', left)) :
    t'.inconsistent = t.inconsistent ∧ t'.done = false ∧ r ≠ .closed ∧ r ≠ .broken ∧
      (r = .panic → ∃ used, evs = used ++ left ∧ parsePacket env t.info (t.rd ++ received used) = .panic) ∧
      (r = .pending → evs = [] ∨ left.length < evs.length) := by
  rw [Transport.pollNext] at h
  split at h
  · split at h
    · next t1 ht =>
      obtain ⟨_, _, _, _, _, hp, _⟩ := tryParse_spec ht
      have he := (hp rfl).1
      subst he
      obtain ⟨g1, g2, g3, g4, g5, g6⟩ := fillAndParse_same hl hd h
      exact ⟨g1, g2, g3, g4, g5, fun _ => g6⟩
    · next r1 t1 hne ht =>
      simp only [Prod.mk.injEq] at h
      obtain ⟨rfl, rfl, rfl⟩ := h
      obtain ⟨g1, g2, g3, g4, g5⟩ := tryParse_same ht
      exact ⟨g1, g2.trans hd, g3, g4, fun e => ⟨[], rfl, by rw [received_nil, List.append_nil]; exact g5 e⟩,
        fun e => False.elim (hne e)⟩
  · obtain ⟨g1, g2, g3, g4, g5, g6⟩ := fillAndParse_same hl hd h
    exact ⟨g1, g2, g3, g4, g5, fun _ => g6⟩

/-- One poll of a connection, on its way to the operations. -/
theorem poll_carries {env : Env} {t t' : Transport} {r : TPoll} {evs left : List ReadEv} {c : Conn} (hl : Lasting evs)
    (hc : Carries env t evs c) (h : t.pollNext env evs = (r, t', left)) :
    Lasting left ∧ t'.cmds = t.cmds ∧
      ((r = .pending ∧ Carries env t' left c ∧ (left.length < evs.length ∨ c.incoming = [])) ∨
       (∃ p rest, r = .item p ∧ c.incoming = .packet p :: rest ∧ Carries env t' left { c with incoming := rest }) ∨
       (∃ e rest, r = .bad e ∧ c.incoming = .error e :: rest ∧ Carries env t' left { c with incoming := rest })) := by
  obtain ⟨hd, hm, xs, i, rest, hx, hdec, hmore⟩ := hc
  obtain ⟨used, h1, h2, _, h4, h5, _⟩ := pollNext_spec h
  obtain ⟨g1, g2, g3, g4, g5, g6⟩ := pollNext_same hl hd h
  subst h1
  have h2' := h2.extend (received left)
  rw [List.append_assoc, ← received_append] at h2'
  obtain ⟨zs, rfl, hz⟩ := h2'.tail hdec hmore
  refine ⟨(lasting_append hl).2, h4, ?_⟩
  cases r with
  | pending =>
    have hz' : Decodes env t'.info (t'.rd ++ received left) (given .pending ++ zs) i rest := hz
    refine .inl ⟨rfl, ⟨g2, hm.trans g1.symm, _, _, _, hx, hz', hmore⟩, ?_⟩
    rcases g6 rfl with g6 | g6
    · right
      have : left = [] := by
        have := congrArg List.length g6
        simp only [List.length_append, List.length_nil] at this
        exact List.length_eq_zero_iff.mp (by omega)
      subst this
      rw [received_nil, List.append_nil] at hz
      have hm' := (h5 rfl).1
      obtain ⟨rfl, _, _⟩ := hz.unique .done hmore hm'
      rw [hx]; rfl
    · exact .inl g6
  | item p => exact .inr (.inl ⟨p, zs.map incOf, rfl, by rw [hx]; rfl, g2, hm.trans g1.symm, zs, i, rest, rfl, hz, hmore⟩)
  | bad e => exact .inr (.inr ⟨e, zs.map incOf, rfl, by rw [hx]; rfl, g2, hm.trans g1.symm, zs, i, rest, rfl, hz, hmore⟩)
  | broken => exact absurd rfl g4
  | closed => exact absurd rfl g3
  | panic =>
    obtain ⟨used', hu, hp⟩ := g5 rfl
    obtain rfl := List.append_cancel_right hu
    have := (parsePacket_mono env t.info).panic hp (received left)
    rw [List.append_assoc, ← received_append] at this
    exact absurd this (hdec.no_panic hmore)

theorem flush_lasting {z : Codec} {t t' : Transport} {r : SPoll} {out : Bytes} {evs left : List WriteEv} (hl : LastingW evs)
    (he : ∀ c ∈ t.cmds, ∃ b, c.encode z = .ok b) (h : Transport.send.flush z t evs = (r, out, t', left)) :
    (r = .sent ∨ (r = .pending ∧ (left.length < evs.length ∨ left = []))) ∧ LastingW left ∧
      (∀ c ∈ t'.cmds, ∃ b, c.encode z = .ok b) := by
  induction evs generalizing t r out t' left with
  | nil =>
    simp only [Transport.send.flush, Prod.mk.injEq] at h
    obtain ⟨rfl, rfl, rfl, rfl⟩ := h
    exact ⟨.inr ⟨rfl, .inr rfl⟩, hl, he⟩
  | cons e evs ih =>
    have hl' : LastingW evs := fun e he => hl e (List.mem_cons_of_mem _ he)
    cases e with
    | pending =>
      simp only [Transport.send.flush, Prod.mk.injEq] at h
      obtain ⟨rfl, rfl, rfl, rfl⟩ := h
      exact ⟨.inr ⟨rfl, .inl (by simp)⟩, hl', he⟩
    | fail => exact absurd rfl (hl .fail (by simp))
    | wrote n =>
      have step : ∀ t1 : Transport, (∀ c ∈ t1.cmds, ∃ b, c.encode z = .ok b) → ∀ o,
          (let r := Transport.send.flush z t1 evs; (r.1, o ++ r.2.1, r.2.2)) = (r, out, t', left) →
          (r = .sent ∨ (r = .pending ∧ (left.length < (WriteEv.wrote n :: evs).length ∨ left = []))) ∧ LastingW left ∧
            (∀ c ∈ t'.cmds, ∃ b, c.encode z = .ok b) := by
        intro t1 h1 o h
        cases hf : Transport.send.flush z t1 evs with
        | mk r1 rest =>
          obtain ⟨o1, t2, l2⟩ := rest
          simp only [hf, Prod.mk.injEq] at h
          obtain ⟨rfl, _, rfl, rfl⟩ := h
          obtain ⟨g1, g2, g3⟩ := ih hl' h1 hf
          refine ⟨?_, g2, g3⟩
          rcases g1 with g1 | ⟨g1, g4⟩
          · exact .inl g1
          · refine .inr ⟨g1, ?_⟩
            rcases g4 with g4 | g4
            · exact .inl (by simp only [List.length_cons]; omega)
            · exact .inr g4
      rw [Transport.send.flush] at h
      simp only at h
      split at h
      · split at h
        · next hcm =>
          simp only [Prod.mk.injEq] at h
          obtain ⟨rfl, rfl, rfl, rfl⟩ := h
          exact ⟨.inl rfl, hl', he⟩
        · next c cs hcm =>
          have hcm' : t.cmds = c :: cs := hcm
          obtain ⟨b, hb⟩ := he c (by rw [hcm']; simp)
          simp only [hb] at h
          exact step _ (fun d hd => he d (by rw [hcm']; exact List.mem_cons_of_mem _ hd)) _ h
      · exact step { t with wr := t.wr.drop n } he _ h

theorem send_lasting {z : Codec} {t t' : Transport} {r : SPoll} {out : Bytes} {evs left : List WriteEv} (hl : LastingW evs)
    (he : ∀ c ∈ t.cmds, ∃ b, c.encode z = .ok b) (h : t.send z evs = (r, out, t', left)) :
    (r = .sent ∨ (r = .pending ∧ (left.length < evs.length ∨ left = []))) ∧ LastingW left ∧
      (∀ c ∈ t'.cmds, ∃ b, c.encode z = .ok b) := by
  rw [Transport.send] at h
  split at h
  · split at h
    · simp only [Prod.mk.injEq] at h
      obtain ⟨rfl, rfl, rfl, rfl⟩ := h
      exact ⟨.inl rfl, hl, he⟩
    · next c cs hcm =>
      obtain ⟨b, hb⟩ := he c (by rw [hcm]; simp)
      simp only [hb] at h
      exact flush_lasting hl (fun d hd => he d (by rw [hcm]; exact List.mem_cons_of_mem _ hd)) h
  · exact flush_lasting hl he h

/-- Receiving, on its way to the operations. -/
theorem receive_tracks {env : Env} {t : Transport} {st : PState} {b : Bool} {s' : PStream} {r : PPoll} {revs left : List ReadEv}
    {c : Conn} (hl : Lasting revs) (hc : Carries env t revs c) (he : Encodable env t)
    (h : PStream.receive env ⟨some t, st, b⟩ revs = (r, s', left)) :
    Lasting left ∧ s'.state ≠ .ask ∧
      ((r = .pending ∧ Tracks env left s' ⟨some c, false, b⟩ ∧ (left.length < revs.length ∨ c.incoming = [])) ∨
        (r ≠ .pending ∧ Agree env left r (CStream.next ⟨some c, false, b⟩).1 ∧
          Tracks env left s' (CStream.next ⟨some c, false, b⟩).2)) := by
  cases hp : t.pollNext env revs with
  | mk r1 rest =>
    obtain ⟨t1, l1⟩ := rest
    obtain ⟨g1, g2, g3⟩ := poll_carries hl hc hp
    have he1 : Encodable env t1 := by unfold Encodable; rw [g2]; exact he
    rw [PStream.receive] at h
    simp only [hp] at h
    rcases g3 with ⟨rfl, g3, g4⟩ | ⟨p, rest, rfl, g3, g4⟩ | ⟨e, rest, rfl, g3, g4⟩
    · simp only [Prod.mk.injEq] at h
      obtain ⟨rfl, rfl, rfl⟩ := h
      exact ⟨g1, by simp, .inl ⟨rfl, .has g3 he1 (by simp), g4⟩⟩
    · simp only at h
      simp only [CStream.next, g3, Bool.false_eq_true, if_false]
      by_cases ht : p.takesConn = true
      · rw [if_pos ht] at h ⊢
        simp only [Prod.mk.injEq] at h
        obtain ⟨rfl, rfl, rfl⟩ := h
        exact ⟨g1, by simp, .inr ⟨by simp, .last g4 he1, .gone⟩⟩
      · rw [if_neg ht] at h ⊢
        cases hb : (b && p.isBlock)
        all_goals
          simp only [hb, Bool.false_eq_true, if_false, if_true, Prod.mk.injEq] at h
          obtain ⟨rfl, rfl, rfl⟩ := h
        · exact ⟨g1, by simp, .inr ⟨by simp, .packet, .has g4 he1 (by simp)⟩⟩
        · exact ⟨g1, by simp, .inr ⟨by simp, .packet, .has g4 he1 (by simp)⟩⟩
    · simp only [Prod.mk.injEq] at h
      obtain ⟨rfl, rfl, rfl⟩ := h
      simp only [CStream.next, g3, Bool.false_eq_true, if_false]
      exact ⟨g1, by simp, .inr ⟨by simp, .error, .has g4 he1 (by simp)⟩⟩

/-- One poll of a packet stream, on its way to the operations. -/
theorem poll_tracks {env : Env} {s s' : PStream} {cs : CStream} {r : PPoll} {out : Bytes} {revs left : List ReadEv}
    {wevs wleft : List WriteEv} (hl : Lasting revs) (hw : LastingW wevs) (ht : Tracks env revs s cs)
    (h : s.pollNext env revs wevs = (r, out, s', left, wleft)) :
    Lasting left ∧ LastingW wleft ∧
      ((r = .pending ∧ Tracks env left s' cs ∧
          ((s'.state = .ask ∧ left = revs ∧ (wleft.length < wevs.length ∨ wleft = [])) ∨
            (s'.state ≠ .ask ∧ (left.length < revs.length ∨ cs.next.1 = .waits)))) ∨
        (r ≠ .pending ∧ Agree env left r cs.next.1 ∧ Tracks env left s' cs.next.2)) := by
  cases ht with
  | gone =>
    rename_i st f b
    obtain ⟨s1, h1, _⟩ := pstream_poll_none (env := env) (s := ⟨none, st, b⟩) rfl revs wevs
    have h2 : s' = ⟨none, .done, b⟩ ∧ r = .ended ∧ left = revs ∧ wleft = wevs := by
      rw [PStream.pollNext] at h
      cases st <;> simp [PStream.receive, PStream.finish] at h <;> exact ⟨h.2.2.1.symm, h.1.symm, h.2.2.2.1.symm, h.2.2.2.2.symm⟩
    obtain ⟨rfl, rfl, rfl, rfl⟩ := h2
    exact ⟨hl, hw, .inr ⟨by simp, .ended, .gone⟩⟩
  | has hc he hf =>
    rename_i t c st f b
    have recv : st = .receive ∨ st = .yield → Lasting left ∧ LastingW wleft ∧
      ((r = .pending ∧ Tracks env left s' ⟨some c, f, b⟩ ∧
          ((s'.state = .ask ∧ left = revs ∧ (wleft.length < wevs.length ∨ wleft = [])) ∨
            (s'.state ≠ .ask ∧ (left.length < revs.length ∨ (CStream.next ⟨some c, f, b⟩).1 = .waits)))) ∨
        (r ≠ .pending ∧ Agree env left r (CStream.next ⟨some c, f, b⟩).1 ∧ Tracks env left s' (CStream.next ⟨some c, f, b⟩).2)) := by
      intro hs
      have hff : f = false := by
        cases f
        · rfl
        · have := hf.mp rfl
          rcases hs with hs | hs <;> rw [hs] at this <;> simp at this
      subst hff
      have h' : PStream.receive env ⟨some t, st, b⟩ revs = (r, s', left) ∧ wleft = wevs := by
        rw [PStream.pollNext] at h
        rcases hs with hs | hs
        all_goals
          subst hs
          simp only [Prod.mk.injEq] at h
          obtain ⟨e1, e2, e3, e4, e5⟩ := h
          exact ⟨by rw [← e1, ← e3, ← e4], e5.symm⟩
      obtain ⟨h', rfl⟩ := h'
      obtain ⟨g1, g2, g3⟩ := receive_tracks hl hc he h'
      refine ⟨g1, hw, ?_⟩
      rcases g3 with ⟨g3, g4, g5⟩ | g3
      · refine .inl ⟨g3, g4, .inr ⟨g2, ?_⟩⟩
        rcases g5 with g5 | g5
        · exact .inl g5
        · exact .inr (by simp [CStream.next, g5])
      · exact .inr g3
    cases st with
    | receive => exact recv (.inl rfl)
    | yield => exact recv (.inr rfl)
    | done =>
      obtain rfl : f = true := hf.mpr rfl
      simp only [PStream.pollNext, PStream.finish, Prod.mk.injEq] at h
      obtain ⟨rfl, rfl, rfl, rfl, rfl⟩ := h
      exact ⟨hl, hw, .inr ⟨by simp, by simp only [CStream.next]; exact .last hc he, by simp only [CStream.next]; exact .gone⟩⟩
    | ask =>
      have hff : f = false := by
        cases f
        · rfl
        · exact absurd (hf.mp rfl) (by simp)
      subst hff
      rw [PStream.pollNext] at h
      simp only at h
      cases hsend : t.send env.codec wevs with
      | mk r1 rest =>
        obtain ⟨o1, t1, w1⟩ := rest
        obtain ⟨g1, g2, g3⟩ := send_lasting hw he hsend
        obtain ⟨_, _, _, k1, k2, _, k3, k4⟩ := send_spec hsend
        have hc1 : Carries env t1 revs c := by
          obtain ⟨a1, a2, a3⟩ := hc
          exact ⟨k3.trans a1, a2.trans k4.symm, by rw [k1, k2]; exact a3⟩
        simp only [hsend] at h
        rcases g1 with rfl | ⟨rfl, g1⟩
        · simp only [Prod.mk.injEq] at h
          obtain ⟨e1, rfl, e3, e4, rfl⟩ := h
          have hr : PStream.receive env ⟨some t1, .receive, b⟩ revs = (r, s', left) := by rw [← e1, ← e3, ← e4]
          obtain ⟨q1, q2, q3⟩ := receive_tracks hl hc1 g3 hr
          refine ⟨q1, g2, ?_⟩
          rcases q3 with ⟨q3, q4, q5⟩ | q3
          · refine .inl ⟨q3, q4, .inr ⟨q2, ?_⟩⟩
            rcases q5 with q5 | q5
            · exact .inl q5
            · exact .inr (by simp [CStream.next, q5])
          · exact .inr q3
        · simp only [Prod.mk.injEq] at h
          obtain ⟨rfl, rfl, rfl, rfl, rfl⟩ := h
          exact ⟨hl, g2, .inl ⟨rfl, .has hc1 g3 (by simp), .inl ⟨rfl, rfl, g1⟩⟩⟩

end CH
