import Verif.Lemmas.Socket

/-!
A packet is read only when all commands have been taken by the socket; so has every command of an operation that succeeded.
-/

namespace CH.Flush
open CH CH.Spec CH.Socket

/-- Nothing is left to be sent. -/
def Sated (t : Transport) : Prop := t.wr = [] ∧ t.cmds = []

/-- Nothing is left to be sent, if the stream is past sending. -/
def Past (s : PStream) : Prop := s.state ≠ .ask → ∀ t, s.inner = some t → Sated t

/-- Nothing is left to be sent. -/
def Empty (s : PStream) : Prop := ∀ t, s.inner = some t → Sated t

theorem receive_sated {env : Env} {s s' : PStream} {r : PPoll} {revs left : List ReadEv} {t : Transport} (hi : s.inner = some t)
    (h : s.receive env revs = (r, s', left)) (ht : Sated t) : Empty s' ∧ s'.state ≠ .ask ∧ ∀ p t', r = .item p (some t') → Sated t' := by
  obtain ⟨used, t', _, _, h3, h4, _, _, h7⟩ := receive_spec hi h
  have ht' : Sated t' := ⟨by rw [h3, ht.1], by rw [h4, ht.2]⟩
  rcases h7 with ⟨i1, i2, i3, _⟩ | ⟨i1, i3, p, i2, _⟩
  · refine ⟨fun t1 h1 => ?_, i3, fun p t1 hr => ?_⟩
    · rw [i1] at h1; cases h1; exact ht'
    · rw [hr] at i2; cases i2
  · refine ⟨fun t1 h1 => ?_, by rw [i3]; decide, fun p1 t1 hr => ?_⟩
    · rw [i1] at h1; cases h1
    · rw [hr] at i2; cases i2; exact ht'

/-- A poll: either it is still sending, or all is sent. -/
theorem poll_sated {env : Env} {s s' : PStream} {r : PPoll} {out : Bytes} {revs left : List ReadEv} {wevs wleft : List WriteEv}
    (hs : Past s) (h : s.pollNext env revs wevs = (r, out, s', left, wleft)) :
    (r = .pending ∨ r = .broken ∨ r = .panic) ∧ s'.state = .ask ∨ Empty s' ∧ s'.state ≠ .ask ∧ ∀ p t', r = .item p (some t') → Sated t' := by
  obtain ⟨inner, st, b⟩ := s
  cases inner with
  | none =>
    right
    rw [PStream.pollNext] at h
    cases st <;> simp [PStream.receive, PStream.finish] at h <;> obtain ⟨rfl, -, rfl, -, -⟩ := h <;>
      exact ⟨nofun, by simp, nofun⟩
  | some t =>
    cases st with
    | ask =>
      simp only [PStream.pollNext] at h
      generalize hs : t.send env.codec wevs = q at h
      obtain ⟨u, o, t1, w1⟩ := q
      cases u with
      | sent =>
        right
        simp only at h
        generalize hr : PStream.receive env ⟨some t1, .receive, b⟩ revs = q at h
        obtain ⟨r1, s1, l1⟩ := q
        simp only [Prod.mk.injEq] at h
        obtain ⟨rfl, rfl, rfl, -, rfl⟩ := h
        exact receive_sated rfl hr ((send_spec hs).2.1 rfl)
      | pending =>
        simp only [Prod.mk.injEq] at h
        obtain ⟨rfl, -, rfl, -, -⟩ := h
        exact .inl ⟨.inl rfl, rfl⟩
      | fail =>
        simp only [Prod.mk.injEq] at h
        obtain ⟨rfl, -, rfl, -, -⟩ := h
        exact .inl ⟨.inr (.inl rfl), rfl⟩
      | panic =>
        simp only [Prod.mk.injEq] at h
        obtain ⟨rfl, -, rfl, -, -⟩ := h
        exact .inl ⟨.inr (.inr rfl), rfl⟩
    | done =>
      right
      have ht := hs (by simp) t rfl
      simp only [PStream.pollNext, PStream.finish, Prod.mk.injEq] at h
      obtain ⟨rfl, rfl, rfl, -, rfl⟩ := h
      refine ⟨nofun, by simp, fun p t1 hr => ?_⟩
      simp only [PPoll.item.injEq, Option.some.injEq] at hr
      rw [← hr.2]; exact ht
    | receive =>
      right
      have ht := hs (by simp) t rfl
      simp only [PStream.pollNext] at h
      generalize hr : PStream.receive env ⟨some t, .receive, b⟩ revs = q at h
      obtain ⟨r1, s1, l1⟩ := q
      simp only [Prod.mk.injEq] at h
      obtain ⟨rfl, rfl, rfl, -, rfl⟩ := h
      exact receive_sated rfl hr ht
    | yield =>
      right
      have ht := hs (by simp) t rfl
      simp only [PStream.pollNext] at h
      generalize hr : PStream.receive env ⟨some t, .yield, b⟩ revs = q at h
      obtain ⟨r1, s1, l1⟩ := q
      simp only [Prod.mk.injEq] at h
      obtain ⟨rfl, rfl, rfl, -, rfl⟩ := h
      exact receive_sated rfl hr ht

theorem await_sated {env : Env} {s s' : PStream} {revs left : List ReadEv} {w w' : Writer} {r : PPoll} (h : AwaitsS env s revs w r s' left w')
    (hs : Past s) : Past s' ∧ (r ≠ .broken → r ≠ .panic → Empty s') ∧ ∀ p t, r = .item p (some t) → Sated t := by
  induction h with
  | ready h hr =>
    rcases poll_sated hs h with ⟨h1, h2⟩ | ⟨h1, h2, h3⟩
    · refine ⟨fun x => absurd h2 x, fun n1 n2 => ?_, fun p t e => ?_⟩
      · rcases h1 with h1 | h1 | h1
        · exact absurd h1 hr
        · exact absurd h1 n1
        · exact absurd h1 n2
      · rw [e] at h1; rcases h1 with h1 | h1 | h1 <;> cases h1
    · exact ⟨fun _ => h1, fun _ _ => h1, h3⟩
  | again h _ ih =>
    rcases poll_sated hs h with ⟨h1, h2⟩ | ⟨h1, h2, h3⟩
    · exact ih fun x => absurd h2 x
    · exact ih fun _ => h1

theorem call_past (t : Transport) (cmd : Cmd) : Past (t.call cmd) := fun x => absurd rfl x

/-- The connection, if there is one, has nothing left to send. -/
def SatedO (o : Option Sock) : Prop := ∀ k, o = some k → Sated k.t

theorem loop_sated {env : Env} {σ : Type} {P : σ → Prop} {f : σ → Except Err (Packet × Option Sock) → σ ⊕ OpErr}
    (hi : ∀ v v' p o, P v → SatedO o → f v (.ok (p, o)) = .inl v' → P v') (he : ∀ v v' e, P v → f v (.error e) = .inl v' → P v')
    {v : σ} {s : PStream} {revs : List ReadEv} {w : Writer} {r : LoopEnd σ} (h : LoopS env f v s revs w r) (hs : Past s) (hv : P v) :
    ∀ v', r = .fell v' → P v' := by
  induction h with
  | ended _ => intro v' e; cases e; exact hv
  | item ha hf _ ih =>
    obtain ⟨h1, -, h3⟩ := await_sated ha hs
    refine ih h1 (hi _ _ _ _ hv (fun k hk => ?_) hf)
    rename_i t _ _
    cases t with
    | none => cases hk
    | some t => cases hk; exact h3 _ t rfl
  | itemStop _ _ => exact nofun
  | bad ha hf _ ih => exact ih (await_sated ha hs).1 (he _ _ _ hv hf)
  | badStop _ _ => exact nofun
  | broken e ha hf _ ih => exact ih (await_sated ha hs).1 (he _ _ _ hv hf)
  | brokenStop _ _ _ => exact nofun

theorem clear_item {v v' : Option Sock} {p : Packet} {o : Option Sock} (hv : SatedO v) (ho : SatedO o) (h : clearBody v (.ok (p, o)) = .inl v') :
    SatedO v' := by
  cases p <;> simp only [clearBody, Sum.inl.injEq, reduceCtorEq] at h <;> subst h <;> first | exact hv | exact ho

theorem execute_item {v v' : Option Sock} {p : Packet} {o : Option Sock} (hv : SatedO v) (ho : SatedO o) (h : executeBody v (.ok (p, o)) = .inl v') :
    SatedO v' := by
  cases p <;> simp only [executeBody, Sum.inl.injEq, reduceCtorEq] at h <;> subst h <;> first | exact hv | exact ho

theorem ping_item {v v' : Option Sock} {p : Packet} {o : Option Sock} (_ : SatedO v) (ho : SatedO o) (h : pingBody v (.ok (p, o)) = .inl v') :
    SatedO v' := by
  cases p <;> simp only [pingBody, Sum.inl.injEq, reduceCtorEq] at h <;> subst h <;> exact ho

theorem read_item {v v' : Option Sock × Option Block} {p : Packet} {o : Option Sock} (hv : SatedO v.1) (ho : SatedO o)
    (h : readBlockBody v (.ok (p, o)) = .inl v') : SatedO v'.1 := by
  cases p <;> simp only [readBlockBody, Sum.inl.injEq, reduceCtorEq] at h <;> subst h <;> first | exact hv | exact ho

/-- A connection given back has nothing left to send. -/
def SatedRes (r : OpRes Sock) : Prop := ∀ k, r = .ok k → Sated k.t

theorem none_sated : SatedO none := fun _ h => by cases h

theorem unwrap_sated {env : Env} {f : Option Sock → Except Err (Packet × Option Sock) → Option Sock ⊕ OpErr}
    (hi : ∀ v v' p o, SatedO v → SatedO o → f v (.ok (p, o)) = .inl v' → SatedO v') (he : ∀ v v' e, SatedO v → f v (.error e) = .inl v' → SatedO v')
    {t : Transport} {cmd : Cmd} {revs : List ReadEv} {w : Writer} {r : OpRes Sock} (h : Unwrap (LoopS env f none (t.call cmd) revs w) r) :
    SatedRes r := by
  cases h with
  | some h => intro k e; cases e; exact loop_sated hi he h (call_past t cmd) none_sated _ rfl _ rfl
  | none h => exact nofun
  | failed h => exact nofun

theorem pingEnd_sated {env : Env} {t : Transport} {cmd : Cmd} {revs : List ReadEv} {w : Writer} {r : OpRes Sock}
    (h : PingEnd (LoopS env pingBody none (t.call cmd) revs w) r) : SatedRes r := by
  cases h with
  | some h =>
    intro k e; cases e
    exact loop_sated (P := SatedO) (fun v v' p o => ping_item) (fun v v' e _ h => by cases h) h (call_past t cmd) none_sated _ rfl _ rfl
  | none h => exact nofun
  | failed h => exact nofun

theorem then_sated {α : Type} {P : OpRes α → Prop} {Q : α → OpRes Sock → Prop} {r : OpRes Sock} (h : Then P Q r)
    (hq : ∀ a r, P (.ok a) → Q a r → SatedRes r) : SatedRes r := by
  cases h with
  | ok h1 h2 => exact hq _ _ h1 h2
  | err h => exact nofun
  | panic h => exact nofun

theorem execute_sated {env : Env} {k : Sock} {q : Query} {ctx : Context} {r : OpRes Sock} (h : ExecuteS env k q ctx r) : SatedRes r :=
  then_sated h fun _ _ _ h => unwrap_sated (fun _ _ _ _ => execute_item) (fun _ _ _ _ h => by cases h) h

theorem readOne_sated {env : Env} {k : Sock} {cmd : Cmd} {k' : Sock} {b : Option Block} (h : ReadOneS env k cmd (.ok (k', b))) : Sated k'.t := by
  cases h with
  | done h =>
    exact loop_sated (P := fun v => SatedO v.1) (fun v v' p o => read_item) (fun v v' e _ h => by cases h) h (fun x => absurd rfl x) none_sated _ rfl _ rfl

theorem insertBlock_sated {env : Env} {k : Sock} {ctx : Context} {b : Block} {r : OpRes Sock} (h : InsertBlockS env k ctx b r) : SatedRes r :=
  then_sated h fun a r ha hr => by
    subst hr
    intro k' e
    cases e
    exact readOne_sated (b := a.2) ha

theorem insertTail_sated {env : Env} {ctx : Context} {q : Query} (bs : List Block) : ∀ {k : Sock} {r : OpRes Sock}, Sated k.t →
    InsertTailS env ctx q bs k r → SatedRes r := by
  induction bs with
  | nil => intro k r hk h; cases h; intro k' e; cases e; exact hk
  | cons b bs ih =>
    intro k r hk h
    exact then_sated h fun x r _ h => then_sated h fun k' r hb ht => ih (insertBlock_sated hb _ rfl) ht

theorem insert_sated {env : Env} {cast : Block → Block → Out Block} {k : Sock} {q : Query} {ctx : Context} {b : Block} {r : OpRes Sock}
    (h : InsertS env cast k q ctx b r) : SatedRes r := by
  refine then_sated h fun k1 r _ h => then_sated h fun x r _ h => ?_
  split at h
  · rw [h]; exact nofun
  · rw [h]; exact nofun
  · split at h
    · exact then_sated h fun k' r hb ht => insertTail_sated _ (insertBlock_sated hb _ rfl) ht
    · rw [h]; exact nofun

theorem put_sated {h h' : HandleS} {P : OpRes Sock → Prop} {r : OpRes Unit} (hp : PutBack h P r h') (hP : ∀ r, P r → SatedRes r) :
    SatedO h'.inner := by
  cases hp with
  | ok hp => intro k e; cases e; exact hP _ hp _ rfl
  | err hp => exact none_sated
  | panic hp => exact none_sated

theorem ping_sated {env : Env} {h h' : HandleS} {r : OpRes Unit} (hp : PingS env h r h') : SatedO h'.inner := by
  rw [PingS] at hp
  split at hp
  · next hi => rw [hp.2, hi]; exact none_sated
  · exact put_sated hp fun r hr => then_sated hr fun _ _ _ h => pingEnd_sated h

theorem checked_sated {env : Env} {P : Sock → Context → OpRes Sock → Prop} {h h' : HandleS} {w w' : WorldS}
    (hP : ∀ k ctx r, P k ctx r → SatedRes r) (hr : Checked env P h w (.ok ()) h' w') : SatedO h'.inner := by
  cases hr with
  | failed hp hn => exact absurd rfl hn
  | done hp hi hd => exact put_sated hd fun r => hP _ _ r

theorem read_sated {env : Env} {s s' : BStreamS} {h h' : HandleS} {it : BItem} (hr : ReadS env s h it s' h') :
    Past s.inner → SatedO h.inner → (∀ e, it ≠ .err e) → it ≠ .panic → Empty s'.inner ∧ SatedO h'.inner := by
  induction hr with
  | ended ha => intro _ _ hn; exact absurd rfl (hn _)
  | bad ha => intro _ _ hn; exact absurd rfl (hn _)
  | broken ha => intro _ _ hn; exact absurd rfl (hn _)
  | exception ha => intro _ _ hn; exact absurd rfl (hn _)
  | unexpected ha => intro _ _ hn; exact absurd rfl (hn _)
  | eofPanic ha => intro _ _ _ hn; exact absurd rfl hn
  | @eof s h i l wl t ha hb =>
    intro hs hh _ _
    obtain ⟨h1, h2, h3⟩ := await_sated ha hs
    refine ⟨h2 nofun nofun, fun k hk => ?_⟩
    cases t with
    | none => cases hk
    | some t => cases hk; exact h3 _ t rfl
  | @eofAttach s h i l wl t b ha hb hat =>
    intro hs hh _ _
    obtain ⟨h1, h2, h3⟩ := await_sated ha hs
    refine ⟨h2 nofun nofun, fun k hk => ?_⟩
    cases t with
    | none => cases hk
    | some t => cases hk; exact h3 _ t rfl
  | profile ha _ ih => intro hs hh; exact ih (await_sated ha hs).1 hh
  | progress ha _ ih => intro hs hh; exact ih (await_sated ha hs).1 hh
  | block ha hk => intro hs hh _ _; exact ⟨(await_sated ha hs).2.1 nofun nofun, hh⟩
  | skipped ha hk _ ih => intro hs hh; exact ih (await_sated ha hs).1 hh

theorem run_sated {env : Env} {n : Nat} {s s' : BStreamS} {h h' : HandleS} {is : List BItem} (hr : RunS env n s h is s' h') :
    Past s.inner → SatedO h.inner → (∀ e, .err e ∉ is) → .panic ∉ is →
      (n ≠ 0 ∧ s.state = .reading ∨ Empty s.inner) → Empty s'.inner ∧ SatedO h'.inner := by
  induction hr with
  | zero =>
    intro _ hh _ _ hd
    rcases hd with ⟨hd, _⟩ | hd
    · exact absurd rfl hd
    · exact ⟨hd, hh⟩
  | @succ n s h i s1 h1 is s' h' hn _ ih =>
    intro hs hh he hp hd
    have key : Empty s1.inner ∧ SatedO h1.inner := by
      rw [NextS] at hn
      split at hn
      · exact read_sated hn hs hh (fun e x => he e (by rw [x]; exact List.mem_cons_self)) (fun x => hp (by rw [x]; exact List.mem_cons_self))
      · next hst =>
        obtain ⟨-, rfl, rfl⟩ := hn
        rcases hd with ⟨_, hd⟩ | hd
        · rw [hst] at hd; cases hd
        · exact ⟨hd, hh⟩
      · next hst =>
        obtain ⟨-, rfl, rfl⟩ := hn
        rcases hd with ⟨_, hd⟩ | hd
        · rw [hst] at hd; cases hd
        · exact ⟨hd, hh⟩
    exact ih (fun _ => key.1) key.2 (fun e x => he e (List.mem_cons_of_mem _ x)) (fun x => hp (List.mem_cons_of_mem _ x)) (.inr key.1)

theorem drop_sated {s : BStreamS} {h h' : HandleS} (hs : Empty s.inner) (hh : SatedO h.inner) (hd : s.drop h = some h') : SatedO h'.inner := by
  rw [BStreamS.drop] at hd
  split at hd
  · split at hd
    · cases hd
    · split at hd
      · next t ht =>
        cases hd
        intro k e
        cases e
        exact hs t ht
      · cases hd; exact hh
  · cases hd; exact hh

end CH.Flush
