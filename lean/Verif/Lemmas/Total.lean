import Verif.Spec.Total
import Verif.Lemmas.Transport

/-! Lemmas for C87: every operation over a socket has exactly one result or a reason for none. -/

namespace CH.Spec
open CH

/-! ### Fates -/

theorem Fate.iff {α : Type} {P Q : α → Prop} {N M : Cause → Prop} (h : Fate P N) (hp : ∀ a, Q a ↔ P a) (hn : ∀ c, M c ↔ N c) : Fate Q M := by
  have h1 : Q = P := funext fun a => propext (hp a)
  have h2 : M = N := funext fun c => propext (hn c)
  rw [h1, h2]; exact h

theorem Fate.one {α : Type} (a : α) {N : Cause → Prop} (hn : ∀ c, ¬N c) : Fate (· = a) N := .inl ⟨a, rfl, fun _ h => h, hn⟩

/-- One result after another, where what follows has a fate. -/
theorem Fate.bind {α β : Type} {P : α → Prop} {N : Cause → Prop} {Q : α → β → Prop} {M : α → Cause → Prop} (h : Fate P N)
    (hq : ∀ a, P a → Fate (Q a) (M a)) : Fate (fun b => ∃ a, P a ∧ Q a b) (fun c => N c ∨ ∃ a, P a ∧ M a c) := by
  rcases h with ⟨a, ha, hu, hn⟩ | ⟨c, hc, hu, hp⟩
  · refine (hq a ha).iff (fun b => ⟨?_, fun hb => ⟨a, ha, hb⟩⟩) fun c => ⟨?_, fun hm => .inr ⟨a, ha, hm⟩⟩
    · rintro ⟨a', ha', hb⟩
      rw [hu a' ha'] at hb; exact hb
    · rintro (h | ⟨a', ha', hm⟩)
      · exact absurd h (hn c)
      · rw [hu a' ha'] at hm; exact hm
  · refine .inr ⟨c, .inl hc, ?_, fun b ⟨a, ha, _⟩ => hp a ha⟩
    rintro d (h | ⟨a, ha, -⟩)
    · exact hu d h
    · exact absurd ha (hp a)

theorem Fate.map {α β : Type} {P : α → Prop} {N : Cause → Prop} (h : Fate P N) (f : α → β) : Fate (fun b => ∃ a, P a ∧ b = f a) N := by
  refine (h.bind (Q := fun a b => b = f a) (M := fun _ _ => False) fun a _ => .one _ fun _ => id).iff (fun _ => Iff.rfl) ?_
  simp

end CH.Spec

namespace CH.Total
open CH CH.Spec

variable {env : Env}

/-! ### Awaiting a stream -/

/-- The results of awaiting a stream. -/
abbrev Got := PPoll × PStream × List ReadEv × Writer

/-- A result that is not a panic. -/
def Awaited (env : Env) (s : PStream) (revs : List ReadEv) (w : Writer) (x : Got) : Prop :=
  AwaitsS env s revs w x.1 x.2.1 x.2.2.1 x.2.2.2 ∧ x.1 ≠ .panic

theorem awaits_det {s s1 s2 : PStream} {revs l1 l2 : List ReadEv} {w w1 w2 : Writer} {r1 r2 : PPoll} (h1 : AwaitsS env s revs w r1 s1 l1 w1)
    (h2 : AwaitsS env s revs w r2 s2 l2 w2) : r1 = r2 ∧ s1 = s2 ∧ l1 = l2 ∧ w1 = w2 := by
  induction h1 with
  | ready h hr =>
    cases h2 with
    | ready h' hr' => rw [h] at h'; cases h'; exact ⟨rfl, rfl, rfl, rfl⟩
    | again h' t => rw [h] at h'; cases h'; exact absurd rfl hr
  | again h t ih =>
    cases h2 with
    | ready h' hr' => rw [h] at h'; cases h'; exact absurd rfl hr'
    | again h' t' => rw [h] at h'; cases h'; exact ih t'

theorem awaits_not_pending {s s' : PStream} {revs left : List ReadEv} {w w' : Writer} {r : PPoll} (h : AwaitsS env s revs w r s' left w') :
    r ≠ .pending ∧ ∃ n, ¬StillPending env n s revs w.evs := by
  induction h with
  | ready h hr =>
    refine ⟨hr, 1, ?_⟩
    rintro ⟨_, _, _, _, h', _⟩
    rw [h] at h'; cases h'; exact hr rfl
  | again h t ih =>
    obtain ⟨h1, n, hn⟩ := ih
    refine ⟨h1, n + 1, ?_⟩
    rintro ⟨_, _, _, _, h', hs⟩
    rw [h] at h'; cases h'; exact hn hs

theorem pending_or {n : Nat} : ∀ {s : PStream} {revs : List ReadEv} {w : Writer}, StillPending env n s revs w.evs ∨
    ∃ r s' left w', AwaitsS env s revs w r s' left w' := by
  induction n with
  | zero => exact .inl trivial
  | succ n ih =>
    intro s revs w
    rcases hp : s.pollNext env revs w.evs with ⟨r, out, s', left, wleft⟩
    by_cases hr : r = .pending
    · subst hr
      rcases ih (s := s') (revs := left) (w := ⟨wleft, w.out ++ out⟩) with h | ⟨r, s1, l1, w1, h⟩
      · exact .inl ⟨_, _, _, _, hp, h⟩
      · exact .inr ⟨_, _, _, _, .again hp h⟩
    · exact .inr ⟨_, _, _, _, .ready hp hr⟩

theorem await_fate (s : PStream) (revs : List ReadEv) (w : Writer) : Fate (Awaited env s revs w) fun c => Silent env c s revs w := by
  by_cases h : ∃ r s' left w', AwaitsS env s revs w r s' left w'
  · obtain ⟨r, s', left, w', h⟩ := h
    have hnw : ¬Silent env .waits s revs w := fun h1 => (awaits_not_pending h).2.elim fun n hn => hn (h1 n)
    by_cases hr : r = .panic
    · subst hr
      refine .inr ⟨.panics, ⟨_, _, _, h⟩, fun d hd => ?_, ?_⟩
      · cases d with
        | waits => exact absurd hd hnw
        | panics => rfl
      · rintro ⟨r', _⟩ ⟨h1, h2⟩
        exact h2 (awaits_det h1 h).1
    · refine .inl ⟨(r, s', left, w'), ⟨h, hr⟩, ?_, ?_⟩
      · rintro ⟨r1, s1, l1, w1⟩ ⟨h1, -⟩
        obtain ⟨rfl, rfl, rfl, rfl⟩ := awaits_det h1 h
        rfl
      · intro c hc
        cases c with
        | waits => exact hnw hc
        | panics =>
          obtain ⟨_, _, _, h1⟩ := hc
          exact hr (awaits_det h h1).1
  · refine .inr ⟨.waits, fun n => (pending_or (n := n)).resolve_right h, fun d hd => ?_, fun x hx => h ⟨_, _, _, _, hx.1⟩⟩
    cases d with
    | waits => rfl
    | panics =>
      obtain ⟨_, _, _, h1⟩ := hd
      exact absurd ⟨_, _, _, _, h1⟩ h

/-! ### What is left to be read -/

/-- The bytes that a stream has still to read, and one more while it has its connection. -/
def load (s : PStream) (revs : List ReadEv) : Nat :=
  match s.inner with
  | none => 0
  | some t => 1 + t.rd.length + (received revs).length

theorem poll_load {s s' : PStream} {revs left : List ReadEv} {wevs wleft : List WriteEv} {r : PPoll} {out : Bytes}
    (h : s.pollNext env revs wevs = (r, out, s', left, wleft)) :
    (r = .pending → load s' left ≤ load s revs) ∧ ∀ p c, r = .item p c → load s' left < load s revs := by
  cases hi : s.inner with
  | none =>
    obtain ⟨s1, h1, -⟩ := pstream_poll_none (env := env) hi revs wevs
    rw [h] at h1; cases h1
    exact ⟨nofun, nofun⟩
  | some t =>
    by_cases hd : s.state = .done
    · rw [PStream.pollNext, hd] at h
      simp only [PStream.finish, hi, Prod.mk.injEq] at h
      obtain ⟨rfl, rfl, rfl, rfl, rfl⟩ := h
      refine ⟨nofun, fun _ _ _ => ?_⟩
      simp only [load, hi]; omega
    · obtain ⟨used, t', h1, h2, -, -, -, -, -, -, -, h3⟩ := pstream_poll_spec hi hd h
      have e : load s revs = 1 + t.rd.length + (received revs).length := by simp only [load, hi]
      have e2 : (received revs).length = (received used).length + (received left).length := by rw [h1, received_append, List.length_append]
      have e3 : load s' left ≤ 1 + t'.rd.length + (received left).length := by
        rcases h3 with ⟨h3, -⟩ | ⟨h3, -⟩ <;> simp only [load, h3] <;> omega
      constructor
      · rintro rfl
        have : t'.rd.length = t.rd.length + (received used).length := by
          rw [← List.length_append]
          generalize t'.info = i, t'.rd = x at h2 ⊢
          cases h2 with
          | done => rfl
        omega
      · rintro p c rfl
        have : t'.rd.length < (t.rd ++ received used).length := by
          generalize t'.info = i, t'.rd = x at h2 ⊢
          cases h2 with
          | packet hp hk hd =>
            cases hd
            exact parsePacket_progress hp
        rw [List.length_append] at this
        omega

theorem awaits_load {s s' : PStream} {revs left : List ReadEv} {w w' : Writer} {r : PPoll} (h : AwaitsS env s revs w r s' left w') :
    ∀ p c, r = .item p c → load s' left < load s revs := by
  induction h with
  | ready h hr => exact (poll_load h).2
  | again h t ih => exact fun p c e => Nat.lt_of_lt_of_le (ih p c e) ((poll_load h).1 rfl)

/-! ### Loops over messages -/

theorem loop_fate {σ : Type} {f : σ → Except Err (Packet × Option Sock) → σ ⊕ OpErr} {e' : OpErr} (hf : ∀ v e, f v (.error e) = .inr e') (n : Nat) :
    ∀ (v : σ) (s : PStream) (revs : List ReadEv) (w : Writer), load s revs ≤ n →
      Fate (LoopS env f v s revs w) (fun c => LoopSilent env c f v s revs w) := by
  induction n using Nat.strongRecOn with
  | ind n ih =>
    intro v s revs w hn
    refine ((await_fate (env := env) s revs w).bind
      (Q := fun x r => match x.1 with
        | .item p t => match f v (.ok (p, t.map (Sock.mk · x.2.2.1 x.2.2.2))) with
          | .inl v' => LoopS env f v' x.2.1 x.2.2.1 x.2.2.2 r
          | .inr e => r = .failed e
        | .ended => r = .fell v
        | _ => r = .failed e')
      (M := fun x c => match x.1 with
        | .item p t => match f v (.ok (p, t.map (Sock.mk · x.2.2.1 x.2.2.2))) with
          | .inl v' => LoopSilent env c f v' x.2.1 x.2.2.1 x.2.2.2
          | .inr e => False
        | _ => False) ?_).iff ?_ ?_
    · rintro ⟨r, s', left, w'⟩ ⟨ha, hr⟩
      dsimp only at ha hr
      cases r with
      | item p t =>
        dsimp only
        split
        · have := awaits_load ha p t rfl
          exact ih (load s' left) (by omega) _ _ _ _ (Nat.le_refl _)
        · exact .one _ fun _ => id
      | _ => exact .one _ fun _ => id
    · intro r
      constructor
      · intro h
        cases h with
        | ended h => exact ⟨(_, _, _, _), ⟨h, nofun⟩, rfl⟩
        | item h hf' hl => exact ⟨(_, _, _, _), ⟨h, nofun⟩, by simp only [hf']; exact hl⟩
        | itemStop h hf' => exact ⟨(_, _, _, _), ⟨h, nofun⟩, by simp only [hf']⟩
        | bad h hf' => rw [hf] at hf'; cases hf'
        | badStop h hf' => rw [hf] at hf'; cases hf'; exact ⟨(_, _, _, _), ⟨h, nofun⟩, rfl⟩
        | broken e h hf' => rw [hf] at hf'; cases hf'
        | brokenStop e h hf' => rw [hf] at hf'; cases hf'; exact ⟨(_, _, _, _), ⟨h, nofun⟩, rfl⟩
      · rintro ⟨⟨r', s', left, w'⟩, ⟨ha, hr⟩, hq⟩
        cases r' with
        | item p t =>
          dsimp only at hq
          split at hq
          · next hf' => exact .item ha hf' hq
          · next hf' => subst hq; exact .itemStop ha hf'
        | pending => exact absurd rfl (awaits_not_pending ha).1
        | bad e => dsimp only at hq; subst hq; exact .badStop ha (hf _ _)
        | broken => dsimp only at hq; subst hq; exact .brokenStop .utf8 ha (hf _ _)
        | ended => dsimp only at hq; subst hq; exact .ended ha
        | panic => exact absurd rfl hr
    · intro c; constructor
      · intro h
        cases h with
        | here h => exact .inl h
        | item h hf' hl => exact .inr ⟨(_, _, _, _), ⟨h, nofun⟩, by simp only [hf']; exact hl⟩
      · rintro (h | ⟨⟨r', s', left, w'⟩, ⟨ha, hr⟩, hq⟩)
        · exact .here h
        · cases r' with
          | item p t =>
            dsimp only at hq
            split at hq
            · next hf' => exact .item ha hf' hq
            · exact hq.elim
          | _ => exact hq.elim

/-! ### Operations on a connection -/

theorem then_fate {α β : Type} {P : OpRes α → Prop} {N : Cause → Prop} {Q : α → OpRes β → Prop} {M : α → Cause → Prop} (h : Fate P N) (hw : ¬P .waits)
    (hq : ∀ a, P (.ok a) → Fate (Q a) (M a)) : Fate (Then P Q) (fun c => ThenSilent P (N c) (fun a => M a c)) := by
  refine (h.bind
    (Q := fun x r => match x with
      | .ok a => Q a r
      | .err e => r = .err e
      | _ => r = .panic)
    (M := fun x c => match x with
      | .ok a => M a c
      | _ => False) ?_).iff ?_ ?_
  · intro x hx
    cases x with
    | ok a => exact hq a hx
    | _ => exact .one _ fun _ => id
  · intro r
    constructor
    · intro h
      cases h with
      | ok h hq => exact ⟨_, h, hq⟩
      | err h => exact ⟨_, h, rfl⟩
      | panic h => exact ⟨_, h, rfl⟩
    · rintro ⟨x, hx, hq⟩
      cases x with
      | ok a => exact .ok hx hq
      | err e => dsimp only at hq; subst hq; exact .err hx
      | panic => dsimp only at hq; subst hq; exact .panic hx
      | waits => exact absurd hx hw
  · intro c; constructor
    · rintro (h | ⟨h, hm⟩)
      · exact .inl h
      · exact .inr ⟨_, h, hm⟩
    · rintro (h | ⟨x, hx, hm⟩)
      · exact .first h
      · cases x with
        | ok a => exact .second hx hm
        | _ => exact hm.elim

theorem then_waits {α β : Type} {P : OpRes α → Prop} {Q : α → OpRes β → Prop} (hq : ∀ a, ¬Q a .waits) : ¬Then P Q .waits := by
  intro h
  cases h with
  | ok _ h => exact hq _ h

/-- A step without a wait after one. -/
theorem then_pure {α β : Type} {P : OpRes α → Prop} {N : Cause → Prop} (h : Fate P N) (hw : ¬P .waits) (f : α → OpRes β) :
    Fate (Then P fun a r => r = f a) N := by
  refine (then_fate h hw (M := fun _ _ => False) fun a _ => Fate.one _ fun _ => id).iff (fun _ => Iff.rfl) fun _ => ⟨.first, ?_⟩
  rintro (h | ⟨_, h⟩)
  · exact h
  · exact h.elim

theorem unwrap_fate {κ : Type} {P : LoopEnd (Option κ) → Prop} {N : Cause → Prop} (h : Fate P N) (hf : ¬P .waits) : Fate (Unwrap P) N := by
  refine (h.map fun x => match x with
    | .fell (some k) => .ok k
    | .failed e => .err e
    | _ => OpRes.panic).iff (fun r => ⟨?_, ?_⟩) fun _ => Iff.rfl
  · intro h
    cases h with
    | some h => exact ⟨_, h, rfl⟩
    | none h => exact ⟨_, h, rfl⟩
    | failed h => exact ⟨_, h, rfl⟩
  · rintro ⟨x, hx, rfl⟩
    match x, hx with
    | .fell (some k), hx => exact .some hx
    | .fell none, hx => exact .none hx
    | .failed e, hx => exact .failed hx
    | .waits, hx => exact absurd hx hf

theorem unwrap_waits {κ : Type} {P : LoopEnd (Option κ) → Prop} : ¬Unwrap P .waits := nofun

theorem loop_waits {σ : Type} {f : σ → Except Err (Packet × Option Sock) → σ ⊕ OpErr} {v : σ} {s : PStream} {revs : List ReadEv} {w : Writer} :
    ¬LoopS env f v s revs w .waits := by
  intro h
  generalize hr : LoopEnd.waits = r at h
  induction h with
  | ended | itemStop | badStop | brokenStop => cases hr
  | item _ _ _ ih => exact ih hr
  | bad _ _ _ ih => exact ih hr
  | broken _ _ _ _ ih => exact ih hr

theorem clear_waits {k : Sock} : ¬ClearS env k .waits := by
  intro h
  unfold ClearS at h
  split at h
  · exact then_waits (fun _ => nofun) h
  · cases h

theorem clear_fate (k : Sock) : Fate (ClearS env k) (fun c => ClearSilent env c k) := by
  unfold ClearS ClearSilent
  cases hi : k.t.inconsistent with
  | false =>
    refine (Fate.one (OpRes.ok k) (N := fun _ => False) fun _ => id).iff (fun r => ?_) ?_
    · simp
    · simp
  | true =>
    refine (then_pure (unwrap_fate (loop_fate (env := env) (f := clearBody) (e' := .io) (fun _ _ => rfl) _ none (k.t.call .cancel) k.revs k.writer
      (Nat.le_refl _)) loop_waits) unwrap_waits fun k => .ok { k with t := { k.t with inconsistent := false } }).iff (fun r => ?_) ?_
    · rw [if_pos rfl]
    · exact fun _ => by simp only [true_and]

theorem readOne_fate (k : Sock) (cmd : Cmd) : Fate (ReadOneS env k cmd) (fun c => ReadOneSilent env c k cmd) := by
  refine ((loop_fate (env := env) (f := readBlockBody) (e' := .io) (fun _ _ => rfl) _ (none, none) { k.t.call cmd with readBlock := true }
    k.revs k.writer (Nat.le_refl _)).map fun x => match x with
      | .fell (some k, b) => .ok (k, b)
      | .failed e => .err e
      | _ => OpRes.panic).iff (fun r => ⟨?_, ?_⟩) fun _ => Iff.rfl
  · intro h
    cases h with
    | done h => exact ⟨_, h, rfl⟩
    | lost h => exact ⟨_, h, rfl⟩
    | failed h => exact ⟨_, h, rfl⟩
  · rintro ⟨x, hx, rfl⟩
    match x, hx with
    | .fell (some k, b), hx => exact .done hx
    | .fell (none, b), hx => exact .lost hx
    | .failed e, hx => exact .failed hx
    | .waits, hx => exact absurd hx loop_waits

theorem readOne_waits {k : Sock} {cmd : Cmd} : ¬ReadOneS env k cmd .waits := nofun

theorem execute_fate (k : Sock) (q : Query) (ctx : Context) : Fate (ExecuteS env k q ctx) (fun c => ExecuteSilent env c k q ctx) :=
  then_fate (clear_fate k) clear_waits fun k _ => unwrap_fate (loop_fate (env := env) (f := executeBody) (e' := .io) (fun _ _ => rfl) _ none
    (k.t.call (.sendQuery q ctx)) k.revs k.writer (Nat.le_refl _)) loop_waits

theorem execute_waits {k : Sock} {q : Query} {ctx : Context} : ¬ExecuteS env k q ctx .waits := then_waits fun _ => unwrap_waits

theorem sendInsert_fate (k : Sock) (ctx : Context) (q : Query) : Fate (SendInsertS env k ctx q) (fun c => ReadOneSilent env c k (.sendQuery q ctx)) :=
  then_pure (readOne_fate k _) readOne_waits fun x => match x with
    | (k, some b) => .ok (k, b)
    | (_, none) => .panic

theorem sendInsert_waits {k : Sock} {ctx : Context} {q : Query} : ¬SendInsertS env k ctx q .waits := by
  refine then_waits fun x => ?_
  obtain ⟨k, b⟩ := x
  cases b <;> nofun

theorem insertBlock_fate (k : Sock) (ctx : Context) (b : Block) : Fate (InsertBlockS env k ctx b) (fun c => InsertBlockSilent env c k ctx b) :=
  then_pure (readOne_fate k _) readOne_waits fun x => .ok x.1

theorem insertBlock_waits {k : Sock} {ctx : Context} {b : Block} : ¬InsertBlockS env k ctx b .waits := then_waits fun _ => nofun

theorem insertTail_fate (ctx : Context) (q : Query) (bs : List Block) : ∀ k, Fate (InsertTailS env ctx q bs k) (fun c => InsertTailSilent env c ctx q bs k) := by
  induction bs with
  | nil => exact fun k => Fate.one _ fun _ => id
  | cons b bs ih =>
    exact fun k => then_fate (sendInsert_fate k ctx q) sendInsert_waits fun x _ => then_fate (insertBlock_fate x.1 ctx b) insertBlock_waits fun k _ => ih k

theorem insertTail_waits (ctx : Context) (q : Query) (bs : List Block) : ∀ k, ¬InsertTailS env ctx q bs k .waits := by
  induction bs with
  | nil => exact fun k => nofun
  | cons b bs ih => exact fun k => then_waits fun x => then_waits fun k => ih k

theorem insert_fate (cast : Block → Block → Out Block) (k : Sock) (q : Query) (ctx : Context) (b : Block) :
    Fate (InsertS env cast k q ctx b) (fun c => InsertSilent env c cast k q ctx b) := by
  refine then_fate (clear_fate k) clear_waits fun k _ => then_fate (sendInsert_fate k ctx q) sendInsert_waits fun x _ => ?_
  cases hc : cast b x.2 with
  | ok b' =>
    have hno : ∀ {y : OpRes Sock}, (∀ ch chs, insertChunks b' ≠ .ok (ch :: chs)) → Fate (· = y) (fun c => ∃ b1 ch chs, Out.ok b' = .ok b1 ∧
        insertChunks b1 = .ok (ch :: chs) ∧ ThenSilent (InsertBlockS env x.1 ctx ch) (InsertBlockSilent env c x.1 ctx ch) (InsertTailSilent env c ctx q chs)) := by
      intro y hn
      refine Fate.one _ ?_
      rintro c ⟨_, _, _, h1, h2, _⟩
      cases h1
      exact hn _ _ h2
    cases hi : insertChunks b' with
    | ok l =>
      cases l with
      | nil => exact (hno (y := .panic) (by simp [hi])).iff (fun _ => by dsimp only; rw [hi]) fun _ => Iff.rfl
      | cons ch chs =>
        refine (then_fate (insertBlock_fate x.1 ctx ch) insertBlock_waits fun k _ => insertTail_fate ctx q chs k).iff
          (fun _ => by dsimp only; rw [hi]) ?_
        intro c; constructor
        · rintro ⟨_, _, _, h1, h2, h3⟩
          cases h1; rw [hi] at h2; cases h2; exact h3
        · exact fun h => ⟨_, _, _, rfl, hi, h⟩
    | err e => exact (hno (y := .panic) (by simp [hi])).iff (fun _ => by dsimp only; rw [hi]) fun _ => Iff.rfl
    | panic => exact (hno (y := .panic) (by simp [hi])).iff (fun _ => by dsimp only; rw [hi]) fun _ => Iff.rfl
  | err e => exact Fate.one _ (fun _ ⟨_, _, _, h1, _⟩ => by cases h1)
  | panic => exact Fate.one _ (fun _ ⟨_, _, _, h1, _⟩ => by cases h1)

theorem insert_waits {cast : Block → Block → Out Block} {k : Sock} {q : Query} {ctx : Context} {b : Block} :
    ¬InsertS env cast k q ctx b .waits := by
  refine then_waits fun k => then_waits fun x => ?_
  cases hc : cast b x.2 with
  | ok b' =>
    cases hi : insertChunks b' with
    | ok l =>
      cases l with
      | nil => simp [hi]
      | cons ch chs => simp only [hi]; exact then_waits fun k => insertTail_waits ctx q chs k
    | _ => simp [hi]
  | _ => simp

/-! ### Handles -/

theorem putBack_fate {P : OpRes Sock → Prop} {N : Cause → Prop} (h : HandleS) (hp : Fate P N) (hw : ¬P .waits) :
    Fate (fun x : OpRes Unit × HandleS => PutBack h P x.1 x.2) N := by
  refine (hp.map fun x => match x with
    | .ok k => (OpRes.ok (), { h with inner := some k })
    | .err e => (.err e, { h with inner := none })
    | _ => (.panic, { h with inner := none })).iff (fun r => ⟨?_, ?_⟩) fun _ => Iff.rfl
  · obtain ⟨r, h'⟩ := r
    intro hx
    cases hx with
    | ok hp => exact ⟨_, hp, rfl⟩
    | err hp => exact ⟨_, hp, rfl⟩
    | panic hp => exact ⟨_, hp, rfl⟩
  · rintro ⟨x, hx, rfl⟩
    cases x with
    | ok k => exact .ok hx
    | err e => exact .err hx
    | panic => exact .panic hx
    | waits => exact absurd hx hw

theorem pingEnd_fate {κ : Type} {P : LoopEnd (Option κ) → Prop} {N : Cause → Prop} (h : Fate P N) (hf : ¬P .waits) : Fate (PingEnd P) N := by
  refine (h.map fun x => match x with
    | .fell (some k) => .ok k
    | .failed e => .err e
    | _ => OpRes.err .broken).iff (fun r => ⟨?_, ?_⟩) fun _ => Iff.rfl
  · intro h
    cases h with
    | some h => exact ⟨_, h, rfl⟩
    | none h => exact ⟨_, h, rfl⟩
    | failed h => exact ⟨_, h, rfl⟩
  · rintro ⟨x, hx, rfl⟩
    match x, hx with
    | .fell (some k), hx => exact .some hx
    | .fell none, hx => exact .none hx
    | .failed e, hx => exact .failed hx
    | .waits, hx => exact absurd hx hf

theorem pair_one {α β : Type} (a : α) (b : β) : Fate (fun x : α × β => x.1 = a ∧ x.2 = b) fun _ => False := by
  refine (Fate.one (a, b) fun _ => id).iff (fun x => ?_) fun _ => Iff.rfl
  obtain ⟨x, y⟩ := x
  simp

theorem ping_fate (h : HandleS) : Fate (fun x : OpRes Unit × HandleS => PingS env h x.1 x.2) (fun c => PingSilent env c h) := by
  unfold PingS PingSilent
  cases hi : h.inner with
  | none => exact (pair_one (OpRes.err .broken) h).iff (fun _ => Iff.rfl) fun _ => ⟨fun ⟨_, h1, _⟩ => (by cases h1), False.elim⟩
  | some k =>
    refine (putBack_fate h (then_fate (clear_fate (env := env) k) clear_waits fun k _ => pingEnd_fate (loop_fate (env := env) (f := pingBody) (e' := .io)
      (fun _ _ => rfl) _ none (k.t.call .ping) k.revs k.writer (Nat.le_refl _)) loop_waits) (then_waits fun _ => nofun)).iff (fun _ => Iff.rfl) ?_
    intro c; constructor
    · rintro ⟨_, h1, h2⟩
      cases h1; exact h2
    · exact fun h => ⟨_, rfl, h⟩

theorem ping_waits {h h' : HandleS} : ¬PingS env h .waits h' := by
  intro hp
  unfold PingS at hp
  split at hp
  · cases hp.1
  · cases hp

theorem attempt_fate (skip : Bool) (h : HandleS) :
    Fate (fun x : OpRes Unit × HandleS => AttemptS env skip h x.1 x.2) (fun c => skip = false ∧ PingSilent env c h) := by
  unfold AttemptS
  cases skip with
  | true => exact (pair_one (OpRes.err .connect) h).iff (fun _ => by simp) (by simp)
  | false => exact (ping_fate (env := env) h).iff (fun _ => by simp) (by simp)

theorem attempt_waits {skip : Bool} {h h' : HandleS} : ¬AttemptS env skip h .waits h' := by
  unfold AttemptS
  cases skip with
  | true => simp
  | false => simpa using ping_waits

/-- What checking a connection gives. -/
abbrev Checks := OpRes Unit × HandleS × WorldS

theorem retry_fate (pooled : Bool) (max : Nat) (w : WorldS) : ∀ (a : Nat) (skip : Bool) (h : HandleS),
    Fate (fun x : Checks => RetryS env pooled max a skip h w x.1 x.2.1 x.2.2) (fun c => RetrySilent env c pooled max a skip h w) := by
  induction w with
  | nil =>
    intro a skip h
    refine ((attempt_fate (env := env) skip h).bind
      (Q := fun x y => match x.1 with
        | .err e => if skip = true ∨ a < max then False else y = (.err e, x.2, [])
        | r => y = (r, x.2, []))
      (M := fun x c => c = .waits ∧ (∃ e, x.1 = .err e) ∧ (skip = true ∨ a < max)) ?_).iff ?_ ?_
    · rintro ⟨r, h'⟩ hx
      cases r with
      | err e =>
        dsimp only
        by_cases hs : skip = true ∨ a < max
        · simp only [if_pos hs]
          exact .inr ⟨.waits, ⟨rfl, ⟨e, rfl⟩, hs⟩, fun _ h => h.1, fun _ => id⟩
        · simp only [if_neg hs]
          exact Fate.one _ fun _ h => hs h.2.2
      | _ => exact Fate.one _ fun _ ⟨_, ⟨_, h⟩, _⟩ => by cases h
    · rintro ⟨r, h', w'⟩
      constructor
      · intro hx
        cases hx with
        | ok ha => exact ⟨(_, _), ha, rfl⟩
        | panic ha => exact ⟨(_, _), ha, rfl⟩
        | last ha hm =>
          refine ⟨(_, _), ha, ?_⟩
          dsimp only
          rw [if_neg (by rintro (h1 | h1) <;> first | omega | cases h1)]
      · rintro ⟨⟨r1, h1⟩, ha, hq⟩
        cases r1 with
        | ok u => cases hq; exact .ok ha
        | panic => cases hq; exact .panic ha
        | waits => exact absurd ha attempt_waits
        | err e =>
          dsimp only at hq
          split at hq
          · exact hq.elim
          · next hs =>
            cases hq
            cases skip with
            | true => exact absurd (.inl rfl) hs
            | false => exact .last ha (by simp at hs; omega)
    · intro c; constructor
      · intro hx
        cases hx with
        | pinging hp => exact .inl ⟨rfl, hp⟩
        | opening hc ha hs => exact .inr ⟨(_, _), ha, hc, ⟨_, rfl⟩, hs⟩
      · rintro (⟨rfl, hp⟩ | ⟨⟨r, h'⟩, ha, hc, ⟨e, he⟩, hs⟩)
        · exact .pinging hp
        · dsimp only at he; subst he; exact .opening hc ha hs
  | cons o w ih =>
    intro a skip h
    refine ((attempt_fate (env := env) skip h).bind
      (Q := fun x y => match x.1 with
        | .err e =>
          if skip = true ∨ a < max then
            match o with
            | none => if a < max then RetryS env pooled max (a + 1) true x.2 w y.1 y.2.1 y.2.2 else y = (.err .connect, x.2, w)
            | some k => RetryS env pooled max a false ⟨some k, x.2.context, if pooled then .attached else .none⟩ w y.1 y.2.1 y.2.2
          else y = (.err e, x.2, o :: w)
        | r => y = (r, x.2, o :: w))
      (M := fun x c => (∃ e, x.1 = .err e) ∧ (skip = true ∨ a < max) ∧
        match o with
        | none => a < max ∧ RetrySilent env c pooled max (a + 1) true x.2 w
        | some k => RetrySilent env c pooled max a false ⟨some k, x.2.context, if pooled then .attached else .none⟩ w) ?_).iff ?_ ?_
    · rintro ⟨r, h'⟩ hx
      cases r with
      | err e =>
        dsimp only
        by_cases hs : skip = true ∨ a < max
        · simp only [if_pos hs]
          cases o with
          | none =>
            dsimp only
            by_cases hm : a < max
            · simp only [if_pos hm]
              exact (ih (a + 1) true h').iff (fun _ => Iff.rfl) fun _ => ⟨fun h => h.2.2.2, fun h => ⟨⟨e, rfl⟩, hs, hm, h⟩⟩
            · simp only [if_neg hm]
              exact Fate.one _ fun _ h => hm h.2.2.1
          | some k => exact (ih a false _).iff (fun _ => Iff.rfl) fun _ => ⟨fun h => h.2.2, fun h => ⟨⟨e, rfl⟩, hs, h⟩⟩
        · simp only [if_neg hs]
          exact Fate.one _ fun _ h => hs h.2.1
      | _ => exact Fate.one _ fun _ ⟨⟨_, h⟩, _⟩ => by cases h
    · rintro ⟨r, h', w'⟩
      constructor
      · intro hx
        cases hx with
        | ok ha => exact ⟨(_, _), ha, rfl⟩
        | panic ha => exact ⟨(_, _), ha, rfl⟩
        | last ha hm =>
          refine ⟨(_, _), ha, ?_⟩
          dsimp only
          rw [if_neg (by rintro (h1 | h1) <;> first | omega | cases h1)]
        | refused ha hs hm =>
          refine ⟨(_, _), ha, ?_⟩
          dsimp only
          rw [if_pos hs, if_neg (Nat.not_lt.mpr hm)]
        | again ha hm t =>
          refine ⟨(_, _), ha, ?_⟩
          dsimp only
          rw [if_pos (.inr hm), if_pos hm]; exact t
        | reconnected ha hs t =>
          refine ⟨(_, _), ha, ?_⟩
          dsimp only
          rw [if_pos hs]; exact t
      · rintro ⟨⟨r1, h1⟩, ha, hq⟩
        cases r1 with
        | ok u => cases hq; exact .ok ha
        | panic => cases hq; exact .panic ha
        | waits => exact absurd ha attempt_waits
        | err e =>
          dsimp only at hq
          split at hq
          · next hs =>
            cases o with
            | none =>
              dsimp only at hq
              split at hq
              · next hm => exact .again ha hm hq
              · next hm => cases hq; exact .refused ha hs (Nat.not_lt.mp hm)
            | some k => exact .reconnected ha hs hq
          · next hs =>
            cases hq
            cases skip with
            | true => exact absurd (.inl rfl) hs
            | false => exact .last ha (by simp at hs; omega)
    · intro c; constructor
      · intro hx
        cases hx with
        | pinging hp => exact .inl ⟨rfl, hp⟩
        | again ha hm t => exact .inr ⟨(_, _), ha, ⟨_, rfl⟩, .inr hm, hm, t⟩
        | reconnected ha hs t => exact .inr ⟨(_, _), ha, ⟨_, rfl⟩, hs, t⟩
      · rintro (⟨rfl, hp⟩ | ⟨⟨r, h'⟩, ha, ⟨e, he⟩, hs, ht⟩)
        · exact .pinging hp
        · dsimp only at he; subst he
          cases o with
          | none => exact .again ha ht.1 ht.2
          | some k => exact .reconnected ha hs ht

theorem retry_waits {pooled : Bool} {max a : Nat} {skip : Bool} {h h' : HandleS} {w w' : WorldS} :
    ¬RetryS env pooled max a skip h w .waits h' w' := by
  intro hx
  generalize hr : OpRes.waits = r at hx
  induction hx with
  | ok | panic | last | refused => cases hr
  | again _ _ _ ih => exact ih hr
  | reconnected _ _ _ ih => exact ih hr

theorem precheck_fate (h : HandleS) (w : WorldS) :
    Fate (fun x : Checks => PrecheckS env h w x.1 x.2.1 x.2.2) (fun c => PrecheckSilent env c h w) := by
  cases hp : h.context.options.pingBeforeQuery with
  | false =>
    refine (Fate.one ((.ok (), h, w) : Checks) fun _ => id).iff (fun x => ?_) ?_
    · obtain ⟨r, h', w'⟩ := x
      constructor
      · intro hx
        cases hx with
        | off => rfl
        | unbound hp' => rw [hp] at hp'; cases hp'
        | ok hp' => rw [hp] at hp'; cases hp'
        | failed hp' => rw [hp] at hp'; cases hp'
      · rintro ⟨⟩
        exact .off hp
    · simp [PrecheckSilent, hp]
  | true =>
    cases hb : h.binding.detach with
    | none =>
      refine (Fate.one ((.panic, { h with binding := .none }, w) : Checks) fun _ => id).iff (fun x => ?_) ?_
      · obtain ⟨r, h', w'⟩ := x
        constructor
        · intro hx
          cases hx with
          | off hp' => rw [hp] at hp'; cases hp'
          | unbound => rfl
          | ok _ hb' => rw [hb] at hb'; cases hb'
          | failed _ hb' => rw [hb] at hb'; cases hb'
        · rintro ⟨⟩
          exact .unbound hp hb
      · simp [PrecheckSilent, hb]
    | some b =>
      refine ((retry_fate (env := env) true h.context.options.sendRetries w 0 false { h with binding := b }).map fun x => (match x.1 with
        | .ok _ => (.ok (), { x.2.1 with binding := if x.2.1.binding = .detached then .attached else x.2.1.binding }, x.2.2)
        | r => (r, x.2.1, x.2.2) : Checks)).iff (fun x => ?_) ?_
      · obtain ⟨r, h', w'⟩ := x
        constructor
        · intro hx
          cases hx with
          | off hp' => rw [hp] at hp'; cases hp'
          | unbound _ hb' => rw [hb] at hb'; cases hb'
          | ok _ hb' hr => rw [hb] at hb'; cases hb'; exact ⟨(_, _, _), hr, rfl⟩
          | failed _ hb' hn hr =>
            rw [hb] at hb'; cases hb'
            refine ⟨(_, _, _), hr, ?_⟩
            cases r with
            | ok u => exact absurd rfl hn
            | _ => rfl
        · rintro ⟨⟨r1, h1, w1⟩, hr, e⟩
          cases r1 with
          | ok u => cases e; exact .ok hp hb hr
          | err x => cases e; exact .failed hp hb nofun hr
          | panic => cases e; exact .failed hp hb nofun hr
          | waits => cases e; exact .failed hp hb nofun hr
      · unfold PrecheckSilent
        intro c; constructor
        · rintro ⟨_, b', hb', h⟩
          rw [hb] at hb'; cases hb'; exact h
        · exact fun h => ⟨hp, b, hb, h⟩

theorem precheck_waits {h h' : HandleS} {w w' : WorldS} : ¬PrecheckS env h w .waits h' w' := by
  intro hx
  cases hx with
  | failed _ _ _ hr => exact retry_waits hr

theorem checked_fate {P : Sock → Context → OpRes Sock → Prop} {N : Sock → Context → Cause → Prop} (hp : ∀ k ctx, Fate (P k ctx) (N k ctx))
    (hw : ∀ k ctx, ¬P k ctx .waits) (h : HandleS) (w : WorldS) :
    Fate (fun x : Checks => Checked env P h w x.1 x.2.1 x.2.2) (fun c => CheckedSilent env c (fun k ctx => N k ctx c) h w) := by
  refine ((precheck_fate (env := env) h w).bind
    (Q := fun x y => match x.1 with
      | .ok _ => match x.2.1.inner with
        | none => y = (.err .broken, x.2.1, x.2.2)
        | some k => ∃ z : OpRes Unit × HandleS, PutBack x.2.1 (P k x.2.1.context) z.1 z.2 ∧ y = (z.1, z.2, x.2.2)
      | r => y = (r, x.2.1, x.2.2))
    (M := fun x c => x.1 = .ok () ∧ ∃ k, x.2.1.inner = some k ∧ N k x.2.1.context c) ?_).iff ?_ ?_
  · rintro ⟨r, h', w'⟩ hx
    cases r with
    | ok u =>
      dsimp only
      cases hi : h'.inner with
      | none => exact Fate.one _ fun _ ⟨_, _, h, _⟩ => by cases h
      | some k =>
        refine ((putBack_fate h' (hp k h'.context) (hw k h'.context)).map (fun z => ((z.1, z.2, w') : Checks))).iff (fun _ => Iff.rfl) ?_
        intro c; constructor
        · rintro ⟨_, _, h1, h2⟩
          cases h1; exact h2
        · exact fun h => ⟨rfl, k, rfl, h⟩
    | _ => exact Fate.one _ fun _ ⟨h, _⟩ => by cases h
  · rintro ⟨r, h', w'⟩
    constructor
    · intro hx
      cases hx with
      | failed hp hn =>
        refine ⟨(_, _, _), hp, ?_⟩
        cases r with
        | ok u => exact absurd rfl hn
        | _ => rfl
      | gone hp hi =>
        dsimp only at hi hp
        exact ⟨(_, _, _), hp, by simp only [hi]⟩
      | done hp hi hd => exact ⟨(_, _, _), hp, by simp only [hi]; exact ⟨(_, _), hd, rfl⟩⟩
    · rintro ⟨⟨r1, h1, w1⟩, hp, hq⟩
      cases r1 with
      | ok u =>
        dsimp only at hq hp
        cases hi : h1.inner with
        | none => rw [hi] at hq; cases hq; exact .gone hp hi
        | some k =>
          rw [hi] at hq
          obtain ⟨⟨r2, h2⟩, hd, e⟩ := hq
          cases e
          exact .done hp hi hd
      | err e => cases hq; exact .failed hp nofun
      | panic => cases hq; exact .failed hp nofun
      | waits => cases hq; exact .failed hp nofun
  · intro c; constructor
    · rintro (h | ⟨h1, h2, h3⟩)
      · exact .inl h
      · exact .inr ⟨(_, _, _), h1, rfl, _, h2, h3⟩
    · rintro (h | ⟨⟨r1, h1, w1⟩, hp, e, k, h2, h3⟩)
      · exact .check h
      · dsimp only at e; subst e; exact .operation hp h2 h3

theorem checked_waits {P : Sock → Context → OpRes Sock → Prop} {h h' : HandleS} {w w' : WorldS} : ¬Checked env P h w .waits h' w' := by
  intro hx
  cases hx with
  | failed hp => exact precheck_waits hp
  | done _ _ hd => cases hd

/-! ### Query streams -/

theorem open_fate (h : HandleS) (q : Query) (skip : Bool) (w : WorldS) :
    Fate (fun x : OpRes BStreamS × HandleS × WorldS => OpenS env h q skip w x.1 x.2.1 x.2.2) (fun c => PrecheckSilent env c h w) := by
  refine ((precheck_fate (env := env) h w).map fun x => match x.1 with
    | .ok _ => match x.2.1.binding.detach with
      | none => (.panic, { x.2.1 with binding := .none }, x.2.2)
      | some b => match x.2.1.inner with
        | none => (.err .broken, { x.2.1 with binding := b }, x.2.2)
        | some k => (OpRes.ok (⟨k.t.call (.sendQuery q x.2.1.context), k.revs, k.writer, .reading, 0, skip⟩ : BStreamS), { x.2.1 with inner := none, binding := b }, x.2.2)
    | .err e => (.err e, x.2.1, x.2.2)
    | _ => (.panic, x.2.1, x.2.2)).iff (fun y => ?_) fun _ => Iff.rfl
  obtain ⟨r, h', w'⟩ := y
  constructor
  · intro hx
    cases hx with
    | failed hp => exact ⟨(_, _, _), hp, rfl⟩
    | panic hp => exact ⟨(_, _, _), hp, rfl⟩
    | unbound hp hb => exact ⟨(_, _, _), hp, by simp only [hb]⟩
    | gone hp hb hi => exact ⟨(_, _, _), hp, by simp only [hb, hi]⟩
    | opened hp hb hi => exact ⟨(_, _, _), hp, by simp only [hb, hi]⟩
  · rintro ⟨⟨r1, h1, w1⟩, hp, e⟩
    cases r1 with
    | ok u =>
      dsimp only at e hp
      cases hb : h1.binding.detach with
      | none => rw [hb] at e; cases e; exact .unbound hp hb
      | some b =>
        cases hi : h1.inner with
        | none =>
          simp only [hb, hi] at e; cases e
          have := OpenS.gone (q := q) (skip := skip) hp hb hi
          rw [hi] at this
          exact this
        | some k => simp only [hb, hi] at e; cases e; exact .opened hp hb hi
    | err x => cases e; exact .failed hp
    | panic => cases e; exact .panic hp
    | waits => exact absurd hp precheck_waits

/-- What awaiting a block gives. -/
abbrev Nexts := BItem × BStreamS × HandleS

theorem read_fate (n : Nat) : ∀ (s : BStreamS) (h : HandleS), load s.inner s.revs ≤ n →
    Fate (fun x : Nexts => ReadS env s h x.1 x.2.1 x.2.2) (fun c => ReadSilent env c s) := by
  induction n using Nat.strongRecOn with
  | ind n ih =>
    intro s h hn
    refine ((await_fate (env := env) s.inner s.revs s.writer).bind
      (Q := fun x y =>
        let s' : BStreamS := { s with inner := x.2.1, revs := x.2.2.1, writer := x.2.2.2 }
        match x.1 with
        | .item .eof t =>
          if h.binding = .attached then y = (.ended, { s' with state := .finished }, { h with inner := t.map (Sock.mk · x.2.2.1 x.2.2.2) })
          else match h.binding.attach with
            | some b => y = (.ended, { s' with state := .finished }, ⟨t.map (Sock.mk · x.2.2.1 x.2.2.2), h.context, b⟩)
            | none => y = (.panic, s', ⟨t.map (Sock.mk · x.2.2.1 x.2.2.2), h.context, .none⟩)
        | .item (.profileInfo _) _ => ReadS env s' h y.1 y.2.1 y.2.2
        | .item (.progress _) _ => ReadS env s' h y.1 y.2.1 y.2.2
        | .item (.exception e) _ => y = (.err (.server e), { s' with state := .finished }, h)
        | .item (.block b) _ =>
          if ((s.blockIndex + 1 > 1 || !s.skipFirst) && !b.isEmpty) = true then y = (.block b, { s' with blockIndex := s.blockIndex + 1 }, h)
          else ReadS env { s' with blockIndex := s.blockIndex + 1 } h y.1 y.2.1 y.2.2
        | .item _ _ => y = (.err .unexpectedPacket, s', h)
        | .ended => y = (.err .eof, { s' with state := .error }, h)
        | _ => y = (.err .io, s', h))
      (M := fun x c =>
        let s' : BStreamS := { s with inner := x.2.1, revs := x.2.2.1, writer := x.2.2.2 }
        match x.1 with
        | .item (.profileInfo _) _ => ReadSilent env c s'
        | .item (.progress _) _ => ReadSilent env c s'
        | .item (.block b) _ =>
          ((s.blockIndex + 1 > 1 || !s.skipFirst) && !b.isEmpty) = false ∧ ReadSilent env c { s' with blockIndex := s.blockIndex + 1 }
        | _ => False) ?_).iff ?_ ?_
    · rintro ⟨r, i, l, wl⟩ ⟨ha, hr⟩
      dsimp only at ha hr
      cases r with
      | item p t =>
        have := awaits_load ha p t rfl
        have hi : ∀ s' : BStreamS, s'.inner = i → s'.revs = l → Fate (fun x : Nexts => ReadS env s' h x.1 x.2.1 x.2.2) (fun c => ReadSilent env c s') :=
          fun s' e1 e2 => ih (load i l) (by omega) s' h (by rw [e1, e2]; exact Nat.le_refl _)
        cases p with
        | eof =>
          dsimp only
          split
          · exact Fate.one _ fun _ => id
          · split <;> exact Fate.one _ fun _ => id
        | profileInfo => exact hi _ rfl rfl
        | progress => exact hi _ rfl rfl
        | block b =>
          dsimp only
          split
          · next hk => exact Fate.one _ fun _ h => by rw [hk] at h; cases h.1
          · next hk =>
            refine (hi _ rfl rfl).iff (fun _ => Iff.rfl) fun _ => ⟨fun h => h.2, fun h => ⟨?_, h⟩⟩
            exact Bool.eq_false_iff.mpr hk
        | _ => exact Fate.one _ fun _ => id
      | _ => exact Fate.one _ fun _ => id
    · rintro ⟨it, s1, h1⟩
      constructor
      · intro hx
        cases hx with
        | ended ha => exact ⟨(_, _, _, _), ⟨ha, nofun⟩, rfl⟩
        | bad ha => exact ⟨(_, _, _, _), ⟨ha, nofun⟩, rfl⟩
        | broken ha => exact ⟨(_, _, _, _), ⟨ha, nofun⟩, rfl⟩
        | eof ha hb =>
          refine ⟨(_, _, _, _), ⟨ha, nofun⟩, ?_⟩
          dsimp only; rw [if_pos hb]
        | eofAttach ha hb hat =>
          refine ⟨(_, _, _, _), ⟨ha, nofun⟩, ?_⟩
          dsimp only; rw [if_neg hb, hat]
        | eofPanic ha hb hat =>
          refine ⟨(_, _, _, _), ⟨ha, nofun⟩, ?_⟩
          dsimp only; rw [if_neg hb, hat]
        | profile ha hr => exact ⟨(_, _, _, _), ⟨ha, nofun⟩, hr⟩
        | progress ha hr => exact ⟨(_, _, _, _), ⟨ha, nofun⟩, hr⟩
        | exception ha => exact ⟨(_, _, _, _), ⟨ha, nofun⟩, rfl⟩
        | block ha hk =>
          refine ⟨(_, _, _, _), ⟨ha, nofun⟩, ?_⟩
          dsimp only; rw [if_pos hk]
        | skipped ha hk hr =>
          refine ⟨(_, _, _, _), ⟨ha, nofun⟩, ?_⟩
          dsimp only; rw [if_neg (Bool.eq_false_iff.mp hk)]; exact hr
        | @unexpected _ _ _ _ _ _ p ha k1 k2 k3 k4 k5 =>
          refine ⟨(_, _, _, _), ⟨ha, nofun⟩, ?_⟩
          cases p with
          | eof => exact absurd rfl k1
          | profileInfo x => exact absurd rfl (k2 x)
          | progress x => exact absurd rfl (k3 x)
          | exception x => exact absurd rfl (k4 x)
          | block x => exact absurd rfl (k5 x)
          | _ => rfl
      · rintro ⟨⟨r, i, l, wl⟩, ⟨ha, hr⟩, hq⟩
        dsimp only at ha hr hq
        cases r with
        | item p t =>
          cases p with
          | eof =>
            dsimp only at hq
            split at hq
            · next hb => cases hq; exact .eof ha hb
            · next hb =>
              split at hq
              · next b hat => cases hq; exact .eofAttach ha hb hat
              · next hat => cases hq; exact .eofPanic ha hb hat
          | profileInfo => exact .profile ha hq
          | progress => exact .progress ha hq
          | exception => cases hq; exact .exception ha
          | block b =>
            dsimp only at hq
            split at hq
            · next hk => cases hq; exact .block ha hk
            · next hk => exact .skipped ha (Bool.eq_false_iff.mpr hk) hq
          | _ => cases hq; exact .unexpected ha nofun nofun nofun nofun nofun
        | pending => exact absurd rfl (awaits_not_pending ha).1
        | bad e => cases hq; exact .bad ha
        | broken => cases hq; exact .broken ha
        | ended => cases hq; exact .ended ha
        | panic => exact absurd rfl hr
    · intro c; constructor
      · intro hx
        cases hx with
        | here h => exact .inl h
        | profile ha hr => exact .inr ⟨(_, _, _, _), ⟨ha, nofun⟩, hr⟩
        | progress ha hr => exact .inr ⟨(_, _, _, _), ⟨ha, nofun⟩, hr⟩
        | skipped ha hk hr => exact .inr ⟨(_, _, _, _), ⟨ha, nofun⟩, hk, hr⟩
      · rintro (h | ⟨⟨r, i, l, wl⟩, ⟨ha, hr⟩, hq⟩)
        · exact .here h
        · dsimp only at ha hr hq
          cases r with
          | item p t =>
            cases p with
            | profileInfo => exact .profile ha hq
            | progress => exact .progress ha hq
            | block b => exact .skipped ha hq.1 hq.2
            | _ => exact hq.elim
          | _ => exact hq.elim

theorem next_fate (s : BStreamS) (h : HandleS) :
    Fate (fun x : Nexts => NextS env s h x.1 x.2.1 x.2.2) (fun c => s.state = .reading ∧ ReadSilent env c s) := by
  unfold NextS
  cases hs : s.state with
  | reading => exact (read_fate _ s h (Nat.le_refl _)).iff (fun _ => Iff.rfl) (by simp)
  | finished =>
    refine (Fate.one ((.ended, s, h) : Nexts) fun _ => id).iff (fun x => ?_) (by simp)
    obtain ⟨a, b, c⟩ := x; simp
  | error =>
    refine (Fate.one ((.err .readBroken, s, h) : Nexts) fun _ => id).iff (fun x => ?_) (by simp)
    obtain ⟨a, b, c⟩ := x; simp

theorem run_fate (n : Nat) : ∀ (s : BStreamS) (h : HandleS),
    Fate (fun x : List BItem × BStreamS × HandleS => RunS env n s h x.1 x.2.1 x.2.2) (fun c => RunSilent env c n s h) := by
  induction n with
  | zero =>
    intro s h
    refine (Fate.one (([], s, h) : List BItem × BStreamS × HandleS) fun _ => id).iff (fun x => ?_) fun _ => ⟨nofun, nofun⟩
    obtain ⟨a, b, c⟩ := x
    constructor
    · intro hx; cases hx; rfl
    · rintro ⟨⟩; exact .zero
  | succ n ih =>
    intro s h
    refine ((next_fate (env := env) s h).bind
      (Q := fun x y => ∃ z : List BItem × BStreamS × HandleS, RunS env n x.2.1 x.2.2 z.1 z.2.1 z.2.2 ∧ y = (x.1 :: z.1, z.2.1, z.2.2))
      (M := fun x c => RunSilent env c n x.2.1 x.2.2) fun x _ => (ih x.2.1 x.2.2).map _).iff (fun y => ?_) ?_
    · obtain ⟨is, s', h'⟩ := y
      constructor
      · intro hx
        cases hx with
        | succ hn hr => exact ⟨(_, _, _), hn, (_, _, _), hr, rfl⟩
      · rintro ⟨⟨i, s1, h1⟩, hn, ⟨is', s2, h2⟩, hr, e⟩
        cases e; exact .succ hn hr
    · intro c; constructor
      · intro hx
        cases hx with
        | here hs hr => exact .inl ⟨hs, hr⟩
        | next hn hr => exact .inr ⟨(_, _, _), hn, hr⟩
      · rintro (⟨h1, h2⟩ | ⟨⟨i, s1, h1⟩, hn, hr⟩)
        · exact .here h1 h2
        · exact .next hn hr

/-! ### Things asked -/

theorem insertH_fate (numeric : Char → Bool) (cast : Block → Block → Out Block) (h : HandleS) (t : Query) (b : Block) (w : WorldS) :
    Fate (fun x : Checks => h.insert env numeric cast t b w x.1 x.2.1 x.2.2)
      (fun c => ∃ q, makeQuery numeric t b = .ok q ∧ CheckedSilent env c (fun k ctx => InsertSilent env c cast k q ctx b) h w) := by
  unfold HandleS.insert
  cases hq : makeQuery numeric t b with
  | ok q =>
    refine (checked_fate (env := env) (fun k ctx => insert_fate cast k q ctx b) (fun _ _ => insert_waits) h w).iff (fun _ => Iff.rfl) ?_
    intro c; constructor
    · rintro ⟨_, h1, h2⟩
      cases h1; exact h2
    · exact fun h => ⟨q, rfl, h⟩
  | err e =>
    refine (Fate.one ((.err (.other e), h, w) : Checks) fun _ => id).iff (fun x => ?_) (by simp)
    obtain ⟨a, b, c⟩ := x; simp
  | panic =>
    refine (Fate.one ((.panic, h, w) : Checks) fun _ => id).iff (fun x => ?_) (by simp)
    obtain ⟨a, b, c⟩ := x; simp

theorem insertH_waits {numeric : Char → Bool} {cast : Block → Block → Out Block} {h h' : HandleS} {t : Query} {b : Block} {w w' : WorldS} :
    ¬h.insert env numeric cast t b w .waits h' w' := by
  unfold HandleS.insert
  cases makeQuery numeric t b with
  | ok q => exact checked_waits
  | _ => simp

/-- The reply to an operation that gives no data. -/
def told (r : OpRes Unit) (h : HandleS) : AskEnd :=
  match r with
  | .ok _ => .reply (.items []) h
  | .err e => .reply (.failed e) h
  | _ => .panic

theorem ask_fate (numeric : Char → Bool) (cast : Block → Block → Out Block) (h : HandleS) (w : WorldS) (a : Wish) :
    Fate (AskEnds env numeric cast h w a) (fun c => AskSilent env c numeric cast h w a) := by
  cases a with
  | ping =>
    refine ((ping_fate (env := env) h).map fun x => told x.1 x.2).iff (fun y => ?_) fun _ => ⟨fun h => by cases h; assumption, .ping⟩
    constructor
    · intro hx
      cases hx with
      | reply hr =>
        cases hr with
        | ping hp => exact ⟨(_, _), hp, rfl⟩
        | pingErr hp => exact ⟨(_, _), hp, rfl⟩
      | ping hp => exact ⟨(_, _), hp, rfl⟩
    · rintro ⟨⟨r, h'⟩, hp, rfl⟩
      cases r with
      | ok u => exact .reply (.ping hp)
      | err e => exact .reply (.pingErr hp)
      | panic => exact .ping hp
      | waits => exact absurd hp ping_waits
  | execute q =>
    refine ((checked_fate (env := env) (fun k ctx => execute_fate k q ctx) (fun _ _ => execute_waits) h w).map fun x => told x.1 x.2.1).iff (fun y => ?_)
      fun _ => ⟨fun h => by cases h; assumption, .execute⟩
    constructor
    · intro hx
      cases hx with
      | reply hr =>
        cases hr with
        | execute hp => exact ⟨(_, _, _), hp, rfl⟩
        | executeErr hp => exact ⟨(_, _, _), hp, rfl⟩
      | execute hp => exact ⟨(_, _, _), hp, rfl⟩
    · rintro ⟨⟨r, h', w'⟩, hp, rfl⟩
      cases r with
      | ok u => exact .reply (.execute hp)
      | err e => exact .reply (.executeErr hp)
      | panic => exact .execute hp
      | waits => exact absurd hp checked_waits
  | insert t b =>
    refine ((insertH_fate (env := env) numeric cast h t b w).map fun x => told x.1 x.2.1).iff (fun y => ?_)
      fun _ => ⟨fun h => by cases h; exact ⟨_, by assumption, by assumption⟩, fun ⟨_, h1, h2⟩ => .insert h1 h2⟩
    constructor
    · intro hx
      cases hx with
      | reply hr =>
        cases hr with
        | insert hp => exact ⟨(_, _, _), hp, rfl⟩
        | insertErr hp => exact ⟨(_, _, _), hp, rfl⟩
      | insert hp => exact ⟨(_, _, _), hp, rfl⟩
    · rintro ⟨⟨r, h', w'⟩, hp, rfl⟩
      cases r with
      | ok u => exact .reply (.insert hp)
      | err e => exact .reply (.insertErr hp)
      | panic => exact .insert hp
      | waits => exact absurd hp insertH_waits
  | select q skip n =>
    refine ((open_fate (env := env) h q skip w).bind
      (Q := fun x y => match x.1 with
        | .ok s => ∃ z : List BItem × BStreamS × HandleS, RunS env n s x.2.1 z.1 z.2.1 z.2.2 ∧ y = (match z.2.1.drop z.2.2 with
          | some h' => .reply (.items z.1) h'
          | none => .panic)
        | .err e => y = .reply (.failed e) x.2.1
        | _ => y = .panic)
      (M := fun x c => match x.1 with
        | .ok s => RunSilent env c n s x.2.1
        | _ => False) ?_).iff (fun y => ?_) ?_
    · rintro ⟨r, h', w'⟩ _
      cases r with
      | ok s => exact (run_fate n s h').map _
      | _ => exact Fate.one _ fun _ => id
    · constructor
      · intro hx
        cases hx with
        | reply hr =>
          cases hr with
          | select ho hr hd => exact ⟨(_, _, _), ho, (_, _, _), hr, by simp only [hd]⟩
          | selectErr ho => exact ⟨(_, _, _), ho, rfl⟩
        | opening ho => exact ⟨(_, _, _), ho, rfl⟩
        | dropping ho hr hd => exact ⟨(_, _, _), ho, (_, _, _), hr, by simp only [hd]⟩
      · rintro ⟨⟨r, h', w'⟩, ho, hq⟩
        cases r with
        | ok s =>
          obtain ⟨⟨is, s', h2⟩, hr, e⟩ := hq
          dsimp only at e hr
          cases hd : s'.drop h2 with
          | none => rw [hd] at e; subst e; exact .dropping ho hr hd
          | some h3 => rw [hd] at e; subst e; exact .reply (.select ho hr hd)
        | err e => dsimp only at hq; subst hq; exact .reply (.selectErr ho)
        | panic => dsimp only at hq; subst hq; exact .opening ho
        | waits => cases ho
    · intro c; constructor
      · intro hx
        cases hx with
        | opening ho => exact .inl ho
        | reading ho hr => exact .inr ⟨(_, _, _), ho, hr⟩
      · rintro (h | ⟨⟨r, h', w'⟩, ho, hq⟩)
        · exact .opening h
        · cases r with
          | ok s => exact .reading ho hq
          | _ => exact hq.elim

end CH.Total
