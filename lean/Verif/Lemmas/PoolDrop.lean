import Verif.Spec.PoolDrop
import Verif.Lemmas.Pool

/-! # Lemmas about the end of a pool -/

namespace CH.Pool

open CH.Spec

/-- What settling keeps. -/
theorem settle_eq (l : Life) : l.settle = l ∨
    (l.users + l.st.owners = 0 ∧ l.settle = { l with freed := true, st := { l.st with idle := [], tasks := [] } }) := by
  unfold Life.settle
  split
  · next h => exact .inr ⟨h, rfl⟩
  · exact .inl rfl

/-- What an event of the pool does. -/
theorem lstep_pool {cfg : Cfg} {l l' : Life} {e : Ev} (h : l.step cfg (.pool e) = some l') :
    (e.isPoll = true → l.users ≠ 0) ∧ ∃ s, step cfg l.st e = some s ∧
      l' = Life.settle { l with st := if l.freed then { s with threads := l.st.threads } else s } := by
  simp only [Life.step] at h
  split at h
  · exact absurd h (by simp)
  · next hc =>
    refine ⟨fun hp hu => hc ⟨hp, hu⟩, ?_⟩
    cases hs : step cfg l.st e with
    | none => rw [hs] at h; exact absurd h (by simp)
    | some s =>
      rw [hs] at h
      exact ⟨s, rfl, by simpa using h.symm⟩

theorem owners_zero {s : St} (h : s.owners = 0) : (∀ x ∈ s.out, x.binding = .none) ∧ (∀ x ∈ s.idle, x.binding = .none) ∧
    s.new = none ∧ Quiet s := by
  unfold St.owners at h
  have h1 : (s.out.filter (fun h => owning h.binding)) = [] := List.eq_nil_of_length_eq_zero (by omega)
  have h2 : (s.idle.filter (fun h => owning h.binding)) = [] := List.eq_nil_of_length_eq_zero (by omega)
  have h3 : s.new.toList = [] := List.eq_nil_of_length_eq_zero (by omega)
  have h4 : s.threads.filter active = [] := List.eq_nil_of_length_eq_zero (by omega)
  rw [List.filter_eq_nil_iff] at h1 h2 h4
  refine ⟨?_, ?_, ?_, ?_⟩
  · intro x hx
    have := h1 x hx
    cases hb : x.binding <;> simp_all [owning]
  · intro x hx
    have := h2 x hx
    cases hb : x.binding <;> simp_all [owning]
  · cases hn : s.new with
    | none => rfl
    | some f => rw [hn] at h3; simp at h3
  · intro pc hpc
    have := h4 pc hpc
    cases pc <;> simp_all [active]

theorem owners_of {s : St} (h1 : ∀ x ∈ s.out, x.binding = .none) (h2 : ∀ x ∈ s.idle, x.binding = .none)
    (h3 : s.new = none) (h4 : Quiet s) : s.owners = 0 := by
  unfold St.owners
  have e1 : (s.out.filter (fun h => owning h.binding)) = [] := by
    rw [List.filter_eq_nil_iff]
    intro x hx
    rw [h1 x hx]
    simp [owning]
  have e2 : (s.idle.filter (fun h => owning h.binding)) = [] := by
    rw [List.filter_eq_nil_iff]
    intro x hx
    rw [h2 x hx]
    simp [owning]
  have e4 : s.threads.filter active = [] := by
    rw [List.filter_eq_nil_iff]
    intro x hx
    obtain ⟨e, rfl⟩ := h4 x hx
    simp [active]
  rw [e1, e2, e4, h3]
  rfl

/-- What holds between events. -/
structure LifeInv (l : Life) : Prop where
  settled : l.users + l.st.owners = 0 → l.st.idle = []
  freed : l.freed = true → l.users = 0 ∧ l.st.owners = 0 ∧ l.st.idle = []

theorem settle_inv {l : Life} (h : l.freed = true → l.users = 0 ∧ l.st.owners = 0) : LifeInv l.settle := by
  rcases settle_eq l with he | ⟨h0, he⟩
  · rw [he]
    unfold Life.settle at he
    split at he
    · next h0 =>
      have : l.st.idle = [] := by
        rw [← he]
      exact ⟨fun _ => this, fun hf => ⟨(h hf).1, (h hf).2, this⟩⟩
    · next h0 =>
      refine ⟨fun h1 => absurd h1 h0, fun hf => ?_⟩
      have := h hf
      omega
  · rw [he]
    refine ⟨fun _ => rfl, fun _ => ⟨by simp; omega, ?_, rfl⟩⟩
    have ho : l.st.owners = 0 := by omega
    obtain ⟨a, _, c, d⟩ := owners_zero ho
    exact owners_of a (fun x hx => absurd hx (by simp)) c d

/-- In a pool that has been freed an event changes the handles of the user only. -/
theorem freed_step {cfg : Cfg} {s s' : St} {e : Ev} (h : s.owners = 0) (hp : e.isPoll = false) (he : step cfg s e = some s') :
    s'.idle = s.idle ∧ s'.new = s.new ∧ ∀ x ∈ s'.out, x.binding = .none := by
  obtain ⟨h1, h2, h3, h4⟩ := owners_zero h
  cases e with
  | poll t => exact absurd hp (by simp [Ev.isPoll])
  | run i o =>
    obtain ⟨pc, hi, hn, -⟩ := run_inv he
    obtain ⟨e, hd⟩ := h4 pc (List.mem_of_getElem? hi)
    exact absurd hd (hn e)
  | drop j =>
    simp only [step] at he
    split at he
    · exact absurd he (by simp)
    · simp at he
      subst he
      refine ⟨rfl, rfl, ?_⟩
      intro x hx
      rcases List.mem_or_eq_of_mem_set hx with hx | hx
      · exact h1 x hx
      · rw [hx]
  | lose j =>
    simp only [step] at he
    split at he
    · rename_i c b hj
      simp at he
      subst he
      refine ⟨rfl, rfl, ?_⟩
      intro x hx
      rcases List.mem_or_eq_of_mem_set hx with hx | hx
      · exact h1 x hx
      · rw [hx]
        have hb := h1 _ (List.mem_of_getElem? hj)
        exact hb
    · exact absurd he (by simp)
  | rebind j b =>
    simp only [step] at he
    split at he
    · rename_i x hj
      split at he
      · rename_i hb
        simp at he
        subst he
        refine ⟨rfl, rfl, ?_⟩
        have hx := h1 _ (List.mem_of_getElem? hj)
        have hb : b = .none := by
          rcases hb with hb | hb
          · exact hb
          · exact absurd hx hb
        intro x hx
        rcases List.mem_or_eq_of_mem_set hx with hx | hx
        · exact h1 x hx
        · rw [hx, hb]
      · exact absurd he (by simp)
    · exact absurd he (by simp)
  | io =>
    simp only [step, h3] at he
    exact absurd he (by simp)

theorem reach_life {cfg : Cfg} {l : Life} (h : LReach cfg l) : LifeInv l := by
  induction h with
  | init => exact ⟨fun h => rfl, fun h => absurd h (by simp [Life.init])⟩
  | step e hr he ih =>
    rename_i l l'
    cases e with
    | pool e =>
      obtain ⟨hp, s, hs, rfl⟩ := lstep_pool he
      refine settle_inv ?_
      intro hf
      have hf : l.freed = true := hf
      obtain ⟨hu, ho, hi⟩ := ih.freed hf
      have hpe : e.isPoll = false := by
        cases h : e.isPoll
        · rfl
        · exact absurd hu (hp h)
      obtain ⟨a, b, c⟩ := freed_step ho hpe hs
      obtain ⟨_, h2, h3, h4⟩ := owners_zero ho
      refine ⟨hu, ?_⟩
      simp only [hf, if_true]
      exact owners_of c (by rw [a]; exact h2) (by rw [b]; exact h3) h4
    | clone =>
      simp only [Life.step] at he
      split at he
      · exact absurd he (by simp)
      · next hu =>
        simp at he
        subst he
        refine ⟨fun h => absurd h (by simp), fun hf => ?_⟩
        exact absurd (ih.freed hf).1 hu
    | drop =>
      simp only [Life.step] at he
      split at he
      · exact absurd he (by simp)
      · next hu =>
        simp at he
        subst he
        refine settle_inv fun hf => ?_
        exact absurd (ih.freed hf).1 hu

/-! ### After the end -/

theorem set_same {α : Type} {l : List α} {j : Nat} {a : α} (h : l[j]? = some a) : l.set j a = l := by
  apply List.ext_getElem?
  intro i
  rw [List.getElem?_set]
  split
  · next hij =>
    subst hij
    split
    · exact h.symm
    · next hl => rw [List.getElem?_eq_none (by omega)]
  · rfl

/-- When the user has dropped everything an event changes nothing but the record of the wake-ups. -/
theorem over_step {cfg : Cfg} {l l' : Life} {e : LEv} (h : Over l) (hi : LifeInv l) (he : l.step cfg e = some l') :
    Over l' ∧ LifeInv l' ∧ connections l'.st = connections l.st := by
  have hu := h.pools
  cases e with
  | clone => simp [Life.step, hu] at he
  | drop => simp [Life.step, hu] at he
  | pool e =>
    obtain ⟨hp, s, hs, rfl⟩ := lstep_pool he
    have key : ∃ w, s = { l.st with woken := w } := by
      cases e with
      | poll t => exact absurd hu (hp rfl)
      | run i o =>
        obtain ⟨pc, hi, hn, -⟩ := run_inv hs
        obtain ⟨e, hd⟩ := h.calls pc (List.mem_of_getElem? hi)
        exact absurd hd (hn e)
      | drop j =>
        simp only [step] at hs
        split at hs
        · exact absurd hs (by simp)
        · rename_i x hj
          have hx := h.handles x (List.mem_of_getElem? hj)
          subst hx
          rw [set_same hj] at hs
          simp [dropHandle] at hs
          exact ⟨l.st.woken, hs.symm⟩
      | lose j =>
        simp only [step] at hs
        split at hs
        · rename_i c b hj
          exact absurd (h.handles _ (List.mem_of_getElem? hj)) (by simp)
        · exact absurd hs (by simp)
      | rebind j b =>
        simp only [step] at hs
        split at hs
        · rename_i x hj
          have hx := h.handles x (List.mem_of_getElem? hj)
          subst hx
          simp at hs
          obtain ⟨hb, hs⟩ := hs
          subst hb
          rw [set_same hj] at hs
          exact ⟨l.st.woken, hs.symm⟩
        · exact absurd hs (by simp)
      | io =>
        simp only [step] at hs
        split at hs
        · rename_i a b t hn
          simp at hs
          exact ⟨_, hs.symm⟩
        · exact absurd hs (by simp)
    obtain ⟨w, rfl⟩ := key
    have hst : ({ l with st := if l.freed then { { l.st with woken := w } with threads := l.st.threads } else
        { l.st with woken := w } } : Life) = { l with st := { l.st with woken := w } } := by
      split <;> rfl
    rw [hst]
    have hinv : LifeInv { l with st := { l.st with woken := w } } := ⟨hi.settled, hi.freed⟩
    have hover : Over { l with st := { l.st with woken := w } } := ⟨h.pools, h.handles, h.calls⟩
    rcases settle_eq { l with st := { l.st with woken := w } } with e | ⟨h0, e⟩
    · rw [e]
      exact ⟨hover, hinv, rfl⟩
    · have hidle : l.st.idle = [] := hi.settled h0
      refine ⟨?_, settle_inv fun hf => ⟨hu, (hi.freed hf).2.1⟩, ?_⟩
      · rw [e]
        exact ⟨h.pools, h.handles, h.calls⟩
      · rw [e]
        simp only [connections, hidle]

theorem over_steps {cfg : Cfg} {l l' : Life} (h : Over l) (hi : LifeInv l) (hs : LSteps cfg l l') :
    Over l' ∧ LifeInv l' ∧ connections l'.st = connections l.st := by
  induction hs with
  | refl => exact ⟨h, hi, rfl⟩
  | step e _ he ih =>
    obtain ⟨a, b, c⟩ := ih
    obtain ⟨a', b', c'⟩ := over_step a b he
    exact ⟨a', b', c'.trans c⟩

/-! ### One thread, no handle dropped while a connection is being opened -/

/-- What is known when a call has got so far. -/
def calmOk (s : St) : Pc → Prop
  | .polling _ _ => s.new = none ∧ s.idle = []
  | .opened _ _ => s.new = none ∧ s.idle = []
  | .notYet _ _ => s.new = none ∧ s.idle = []
  | .take _ => (∀ h ∈ s.idle, h.binding = .none) ∨ s.idle.length ≤ 1
  | .count _ => s.idle = []
  | .countNew _ _ => s.idle = []
  | .countOngoing _ _ _ => s.idle = []
  | .create _ => s.idle = []
  | .giveBack _ _ => s.new = none
  | .store h _ => s.new = none ∧ h.binding = .none
  | _ => True

/-- The call is about to pop `idle`. -/
def taking : Pc → Bool
  | .take _ => true
  | _ => false

/-- The idle handles have no reference to the pool, and there are none while a connection is being opened. -/
def Calm (s : St) : Prop := (∀ h ∈ s.idle, h.binding = .none) ∧ (s.new ≠ none → s.idle = [])

structure CalmInv (s : St) : Prop where
  busy : wsum busyW s.threads ≤ 1
  ok : ∀ pc ∈ s.threads, calmOk s pc
  calm : (∃ t, .take t ∈ s.threads ∧ (s.new ≠ none → s.idle = [])) ∨ Calm s

theorem stepPc_calm {cfg : Cfg} {s : St} {o : Outcome} {pc : Pc} (hok : calmOk s pc)
    (hn : s.new ≠ none → s.idle = []) (hc : (∃ t, pc = .take t) ∨ Calm s) :
    calmOk (stepPc cfg s o pc).1 (stepPc cfg s o pc).2 ∧
    ((stepPc cfg s o pc).1.new ≠ none → (stepPc cfg s o pc).1.idle = []) ∧
    ((∃ t, (stepPc cfg s o pc).2 = .take t) ∨ Calm (stepPc cfg s o pc).1) := by
  cases pc
  case polling t f =>
    obtain ⟨h1, h2⟩ := hok
    simp only [stepPc, pollOpening]
    cases f.asked <;> simp <;> cases getAddr cfg.hosts s.connectionsNum <;> cases o <;>
      simp [calmOk, h1, h2, Calm]
  case poll t =>
    have hc : Calm s := by simpa using hc
    simp only [stepPc]
    cases h : s.new with
    | none => exact ⟨.inl hc.1, fun h' => absurd h h', .inl ⟨t, rfl⟩⟩
    | some f =>
      have hi : s.idle = [] := hn (by simp [h])
      simp [calmOk, hi, Calm]
  case opened t h =>
    obtain ⟨h1, h2⟩ := hok
    simp only [stepPc]
    split <;> simp [calmOk, h1, h2, Calm]
  case notYet t f =>
    obtain ⟨h1, h2⟩ := hok
    simp only [stepPc, h1]
    simp [calmOk, h2, Calm]
  case take t =>
    simp only [stepPc]
    cases h : s.idle with
    | nil => simp [calmOk, h, Calm]
    | cons x xs =>
      have hnew : s.new = none := by
        cases hs : s.new with
        | none => rfl
        | some f => exact absurd (hn (by simp [hs])) (by simp [h])
      simp only [calmOk, h] at hok
      refine ⟨trivial, fun h' => absurd hnew h', .inr ⟨?_, fun h' => absurd hnew h'⟩⟩
      rcases hok with hok | hok
      · exact fun y hy => hok y (List.mem_cons_of_mem _ hy)
      · simp at hok
        subst hok
        exact fun y hy => absurd hy (by simp)
  case count t =>
    have hc : Calm s := by simpa using hc
    exact ⟨hok, hn, .inr hc⟩
  case countNew t n =>
    have hc : Calm s := by simpa using hc
    exact ⟨hok, hn, .inr hc⟩
  case countOngoing t n g =>
    have hc : Calm s := by simpa using hc
    simp only [stepPc]
    (repeat' split)
    · exact ⟨trivial, hn, .inr hc⟩
    · exact ⟨hok, hn, .inr hc⟩
    · exact ⟨trivial, hn, .inr hc⟩
  case create t =>
    have hc : Calm s := by simpa using hc
    have hok : s.idle = [] := hok
    simp only [stepPc]
    cases h : s.new with
    | none => simp [calmOk, hok, Calm]
    | some f => exact ⟨trivial, hn, .inr hc⟩
  case giveBack h p =>
    have hc : Calm s := by simpa using hc
    have hok : s.new = none := hok
    simp only [stepPc]
    split
    · exact ⟨⟨hok, rfl⟩, hn, .inr hc⟩
    · exact ⟨trivial, hn, .inr hc⟩
  case store h p =>
    have hc : Calm s := by simpa using hc
    obtain ⟨h1, h2⟩ := hok
    simp only [stepPc]
    split
    · refine ⟨trivial, fun h' => absurd h1 h', .inr ⟨?_, fun h' => absurd h1 h'⟩⟩
      intro y hy
      rcases mem_append_or hy with hy | hy
      · exact hc.1 y hy
      · simp at hy
        rw [hy, h2]
    · exact ⟨trivial, hn, .inr hc⟩
  case wakeAll h p =>
    have hc : Calm s := by simpa using hc
    simp only [stepPc]
    cases s.tasks <;> exact ⟨trivial, hn, .inr hc⟩
  case releaseWake =>
    have hc : Calm s := by simpa using hc
    simp only [stepPc]
    cases s.tasks <;> exact ⟨trivial, hn, .inr hc⟩
  all_goals
    have hc : Calm s := by simpa using hc
    exact ⟨trivial, hn, .inr hc⟩

theorem calmOk_done (s : St) (e : End) : calmOk s (.done e) := trivial

/-- A call begins when no other is in progress. -/
theorem start_calm {s s' : St} {pcs : List Pc} (h : CalmInv s) (hq : Quiet s) (hl : wsum busyW pcs ≤ 1)
    (hok : ∀ pc ∈ pcs, calmOk s pc) (hn : s'.new = s.new) (hi : s'.idle = s.idle) (ht : s'.threads = s.threads ++ pcs) :
    CalmInv s' := by
  have hc : Calm s := by
    rcases h.calm with ⟨t, ht, -⟩ | hc
    · obtain ⟨e, he⟩ := hq _ ht
      exact absurd he (by simp)
    · exact hc
  refine ⟨?_, ?_, .inr ⟨by rw [hi]; exact hc.1, by rw [hn, hi]; exact hc.2⟩⟩
  · rw [ht, wsum_append, (quiet_sums hq).1]
    omega
  · intro pc hpc
    rw [ht] at hpc
    rcases mem_append_or hpc with hpc | hpc
    · obtain ⟨e, rfl⟩ := hq _ hpc
      trivial
    · have := hok pc hpc
      cases pc <;> simp only [calmOk, hn, hi] at this ⊢ <;> exact this

theorem same_calm {s s' : St} (h : CalmInv s) (hn : s'.new = s.new) (hi : s'.idle = s.idle) (ht : s'.threads = s.threads) :
    CalmInv s' := by
  refine ⟨by rw [ht]; exact h.busy, ?_, ?_⟩
  · intro pc hpc
    rw [ht] at hpc
    have := h.ok pc hpc
    cases pc <;> simp only [calmOk, hn, hi] at this ⊢ <;> exact this
  · have := h.calm
    simp only [Calm, hn, hi, ht] at this ⊢
    exact this

theorem step_calm {cfg : Cfg} {s s' : St} {e : Ev} (h : CalmInv s) (hq : starts e → Quiet s)
    (hd : (∃ j, e = .drop j) → s.new = none) (he : step cfg s e = some s') : CalmInv s' := by
  cases e with
  | poll t =>
    simp only [step] at he
    simp at he
    subst he
    refine start_calm h (hq trivial) (pcs := [.poll t]) (by simp [busyW]) ?_ rfl rfl rfl
    intro pc hpc
    simp at hpc
    subst hpc
    trivial
  | run i o =>
    obtain ⟨pc, hi, hn, rfl⟩ := run_inv he
    have hmem := List.mem_of_getElem? hi
    have hothers : ∀ x ∈ s.threads, (∀ e, x ≠ .done e) → x = pc := by
      intro x hx hne
      obtain ⟨j, hj⟩ := List.getElem?_of_mem hx
      by_cases hij : i = j
      · subst hij
        rw [hi] at hj
        exact (Option.some.inj hj).symm
      · obtain ⟨e, he⟩ := others_done h.busy hi hn j x hj hij
        exact absurd he (hne e)
    have hcalm : (∃ t, pc = .take t) ∨ Calm s := by
      rcases h.calm with ⟨t, ht, -⟩ | hc
      · exact .inl ⟨t, (hothers _ ht (fun e => by simp)).symm⟩
      · exact .inr hc
    have hnew : s.new ≠ none → s.idle = [] := by
      rcases h.calm with ⟨t, _, hc⟩ | hc
      · exact hc
      · exact hc.2
    obtain ⟨a, b, c⟩ := stepPc_calm (cfg := cfg) (o := o) (h.ok pc hmem) hnew hcalm
    have hlt : i < s.threads.length := (List.getElem?_eq_some_iff.mp hi).1
    have w3 := wsum_set busyW s.threads i pc (stepPc cfg s o pc).2 hi
    have b1 : busyW pc = 1 := by
      cases pc <;> simp [busyW]
      exact hn _ rfl
    have b2 : busyW (stepPc cfg s o pc).2 ≤ 1 := by
      generalize (stepPc cfg s o pc).2 = x
      cases x <;> simp [busyW]
    have hb := h.busy
    refine ⟨by simp only; omega, ?_, ?_⟩
    · intro x hx
      obtain ⟨j, hj⟩ := List.getElem?_of_mem hx
      by_cases hij : i = j
      · subst hij
        simp [hlt] at hj
        subst hj
        revert a
        generalize (stepPc cfg s o pc).2 = y
        intro a
        cases y <;> exact a
      · rw [List.getElem?_set_ne hij] at hj
        obtain ⟨e, rfl⟩ := others_done h.busy hi hn j x hj hij
        trivial
    · rcases c with ⟨t, ht⟩ | c
      · refine .inl ⟨t, ?_, b⟩
        simp only
        rw [ht]
        exact List.mem_of_getElem? (i := i) (by simp [hlt])
      · exact .inr c
  | drop j =>
    simp only [step] at he
    split at he
    · exact absurd he (by simp)
    · rename_i x hj
      simp at he
      subst he
      refine start_calm h (hq trivial) (pcs := dropHandle x) ?_ ?_ rfl rfl rfl
      · rcases x with ⟨_ | c, b⟩
        · simp [dropHandle]
        · cases b <;> simp [dropHandle, busyW]
          simp only [dropConn]
          split <;> simp [busyW]
      · have hnew := hd ⟨j, rfl⟩
        intro pc hpc
        rcases x with ⟨_ | c, b⟩
        · simp [dropHandle] at hpc
        · cases b
          · simp only [dropHandle, dropConn] at hpc
            split at hpc <;> simp at hpc
            subst hpc
            trivial
          all_goals
            simp [dropHandle] at hpc
            subst hpc
            exact hnew
  | lose j =>
    simp only [step] at he
    split at he
    · rename_i c b hj
      simp at he
      subst he
      refine start_calm h (hq trivial) (pcs := dropConn c) ?_ ?_ rfl rfl rfl
      · simp only [dropConn]
        split <;> simp [busyW]
      · intro pc hpc
        simp only [dropConn] at hpc
        split at hpc <;> simp at hpc
        subst hpc
        trivial
    · exact absurd he (by simp)
  | rebind j b =>
    simp only [step] at he
    split at he
    · split at he
      · simp at he
        subst he
        exact same_calm h rfl rfl rfl
      · exact absurd he (by simp)
    · exact absurd he (by simp)
  | io =>
    simp only [step] at he
    split at he
    · simp at he
      subst he
      exact same_calm h rfl rfl rfl
    · exact absurd he (by simp)

/-- Freeing the pool keeps what is known. -/
theorem settle_calm {l : Life} (h : CalmInv l.st) : CalmInv l.settle.st := by
  rcases settle_eq l with e | ⟨h0, e⟩
  · rw [e]
    exact h
  · rw [e]
    have hq := (owners_zero (s := l.st) (by omega)).2.2.2
    refine ⟨h.busy, ?_, .inr ⟨fun x hx => absurd hx (by simp), fun _ => rfl⟩⟩
    intro pc hpc
    obtain ⟨e, rfl⟩ := hq pc hpc
    trivial

theorem CalmReach.reach {cfg : Cfg} {l : Life} (h : CalmReach cfg l) : LReach cfg l := by
  induction h with
  | init => exact .init
  | step e _ _ _ he ih => exact .step e ih he

theorem calm_inv {cfg : Cfg} {l : Life} (h : CalmReach cfg l) : CalmInv l.st := by
  induction h with
  | init =>
    refine ⟨by simp [Life.init, St.init], fun pc hpc => absurd hpc (by simp [Life.init, St.init]), .inr ⟨?_, fun _ => rfl⟩⟩
    exact fun x hx => absurd hx (by simp [Life.init, St.init])
  | step e hr hq hd he ih =>
    rename_i l l'
    cases e with
    | pool e =>
      obtain ⟨hp, s, hs, rfl⟩ := lstep_pool he
      refine settle_calm ?_
      have h1 := step_calm ih hq (fun ⟨j, hj⟩ => hd (by rw [hj]; trivial)) hs
      cases hf : l.freed with
      | false => simpa using h1
      | true =>
        obtain ⟨hu, ho, hi⟩ := (reach_life (CalmReach.reach hr)).freed hf
        have hpe : e.isPoll = false := by
          cases h : e.isPoll
          · rfl
          · exact absurd hu (hp h)
        obtain ⟨a, b, _⟩ := freed_step ho hpe hs
        simp only [if_true]
        exact same_calm ih b a rfl
    | clone =>
      simp only [Life.step] at he
      split at he
      · exact absurd he (by simp)
      · simp at he
        subst he
        exact ih
    | drop =>
      simp only [Life.step] at he
      split at he
      · exact absurd he (by simp)
      · simp at he
        subst he
        exact settle_calm ih

/-! ### Running lists of events -/

theorem lexec_reach {cfg : Cfg} {es : List LEv} {l l' : Life} (hr : LReach cfg l) (h : lexec cfg l es = some l') :
    LReach cfg l' := by
  induction es generalizing l with
  | nil =>
    simp [lexec] at h
    subst h
    exact hr
  | cons e es ih =>
    simp only [lexec] at h
    cases he : l.step cfg e with
    | none => rw [he] at h; exact absurd h (by simp)
    | some m =>
      rw [he] at h
      exact ih (.step e hr he) h

/-- The event starts a call. -/
def lstartsB : LEv → Bool
  | .pool e => startsB e
  | _ => false

/-- The event drops a handle. -/
def dropsB : LEv → Bool
  | .pool (.drop _) => true
  | _ => false

/-- As `lexec`, but only for executions of `CalmReach`. -/
def calmExec (cfg : Cfg) : Life → List LEv → Option Life
  | l, [] => some l
  | l, e :: es =>
    if (lstartsB e = true → isQuiet l.st = true) ∧ (dropsB e = true → l.st.new.isNone = true) then
      (l.step cfg e).bind fun l => calmExec cfg l es
    else none

theorem calmExec_reach {cfg : Cfg} {es : List LEv} {l l' : Life} (hr : CalmReach cfg l) (h : calmExec cfg l es = some l') :
    CalmReach cfg l' := by
  induction es generalizing l with
  | nil =>
    simp [calmExec] at h
    subst h
    exact hr
  | cons e es ih =>
    simp only [calmExec] at h
    split at h
    · next hc =>
      cases he : l.step cfg e with
      | none => rw [he] at h; exact absurd h (by simp)
      | some m =>
        rw [he] at h
        refine ih (.step e hr ?_ ?_ he) h
        · intro hst
          refine isQuiet_quiet (hc.1 ?_)
          cases e with
          | pool e => cases e <;> simp [lstarts, starts] at hst <;> rfl
          | clone => exact absurd hst (by simp [lstarts])
          | drop => exact absurd hst (by simp [lstarts])
        · intro hd
          have : dropsB e = true := by
            cases e with
            | pool e => cases e <;> simp [drops] at hd <;> rfl
            | clone => exact absurd hd (by simp [drops])
            | drop => exact absurd hd (by simp [drops])
          exact Option.isNone_iff_eq_none.mp (hc.2 this)
    · exact absurd h (by simp)

/-- Everything the user has is dropped, as a test. -/
def isOver (l : Life) : Bool := l.users == 0 && l.st.out.all (fun h => h == ⟨none, .none⟩) && isQuiet l.st

theorem isOver_over {l : Life} (h : isOver l = true) : Over l := by
  simp only [isOver, Bool.and_eq_true] at h
  obtain ⟨⟨h1, h2⟩, h3⟩ := h
  refine ⟨by simpa using h1, ?_, isQuiet_quiet h3⟩
  intro x hx
  simpa using List.all_eq_true.mp h2 x hx

theorem settle_alive {l : Life} (h : l.settle.freed = false) : l.settle = l := by
  rcases settle_eq l with e | ⟨_, e⟩
  · exact e
  · rw [e] at h
    exact absurd h (by simp)

/-- Until it is freed, the pool is in a state of `Reach`. -/
theorem alive_reach {cfg : Cfg} {l : Life} (h : LReach cfg l) (hf : l.freed = false) : Reach cfg l.st := by
  induction h with
  | init => exact .init
  | step e hr he ih =>
    rename_i l l'
    cases e with
    | pool e =>
      obtain ⟨_, s, hs, rfl⟩ := lstep_pool he
      have hs' := settle_alive hf
      rw [hs'] at hf ⊢
      have hf : l.freed = false := hf
      simp only [hf]
      exact .step e (ih hf) hs
    | clone =>
      simp only [Life.step] at he
      split at he
      · exact absurd he (by simp)
      · simp at he
        subst he
        exact ih hf
    | drop =>
      simp only [Life.step] at he
      split at he
      · exact absurd he (by simp)
      · simp at he
        subst he
        have hs' := settle_alive hf
        rw [hs'] at hf ⊢
        exact ih hf

end CH.Pool
