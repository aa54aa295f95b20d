import Verif.Lemmas.Pool
import Verif.Spec.Keep

/-! # Lemmas about the connections that a pool keeps -/

namespace CH.Pool

open CH.Spec

namespace Keep

/-- What a step of a call does to the queue of idle connections: nothing, or it takes the first and holds it, or it puts the one it
holds at the end. -/
theorem stepPc_queue (cfg : Cfg) (s : St) (o : Outcome) (pc : Pc) :
    (stepPc cfg s o pc).1.idle = s.idle ∨
    (∃ t h, pc = .take t ∧ s.idle = h :: (stepPc cfg s o pc).1.idle ∧
      (stepPc cfg s o pc).2 = .taken t ⟨{ h.conn with inside := false }, .attached⟩) ∨
    (∃ h, (stepPc cfg s o pc).1.idle = s.idle ++ [h] ∧ held pc = some h.conn.id) := by
  cases pc
  case polling t f =>
    left
    simp only [stepPc, pollOpening]
    cases f.asked <;> simp <;> cases getAddr cfg.hosts s.connectionsNum <;> cases o <;> simp
  case poll => left; simp only [stepPc]; cases s.new <;> rfl
  case notYet => left; simp only [stepPc]; cases s.new <;> rfl
  case create => left; simp only [stepPc]; cases s.new <;> rfl
  case take t =>
    simp only [stepPc]
    cases hi : s.idle with
    | nil => exact Or.inl hi
    | cons h l => exact Or.inr (Or.inl ⟨t, h, rfl, rfl, rfl⟩)
  case wakeAll => left; simp only [stepPc]; cases s.tasks <;> rfl
  case releaseWake => left; simp only [stepPc]; cases s.tasks <;> rfl
  case opened t h =>
    simp only [stepPc]
    split
    · exact Or.inr (Or.inr ⟨h, rfl, rfl⟩)
    · exact Or.inl rfl
  case giveBack => left; simp only [stepPc]; split <;> rfl
  case store h p =>
    simp only [stepPc]
    split
    · exact Or.inr (Or.inr ⟨h, rfl, rfl⟩)
    · exact Or.inl rfl
  case countOngoing => left; simp only [stepPc]; (repeat' split) <;> rfl
  all_goals exact Or.inl rfl

/-- The events other than the step of a call leave the queue alone, and the calls in progress. -/
theorem other_queue {cfg : Cfg} {s s' : St} {e : Ev} (he : step cfg s e = some s') (hn : ∀ i o, e ≠ .run i o) :
    s'.idle = s.idle ∧ s'.new = s.new ∧ s'.nextId = s.nextId := by
  cases e with
  | poll t => simp [step] at he; subst he; exact ⟨rfl, rfl, rfl⟩
  | run i o => exact absurd rfl (hn i o)
  | drop j =>
    simp only [step] at he
    split at he
    · simp at he
    · simp at he; subst he; exact ⟨rfl, rfl, rfl⟩
  | lose j =>
    simp only [step] at he
    split at he
    · simp at he; subst he; exact ⟨rfl, rfl, rfl⟩
    · simp at he
  | rebind j b =>
    simp only [step] at he
    split at he
    · split at he
      · simp at he; subst he; exact ⟨rfl, rfl, rfl⟩
      · simp at he
    · simp at he
  | io =>
    simp only [step] at he
    split at he
    · simp at he; subst he; exact ⟨rfl, rfl, rfl⟩
    · simp at he

theorem step_queue {cfg : Cfg} {s s' : St} {e : Ev} (he : step cfg s e = some s') :
    s'.idle = s.idle ∨
    (∃ i o t h, e = .run i o ∧ s.threads[i]? = some (.take t) ∧ s.idle = h :: s'.idle ∧
      s'.threads[i]? = some (.taken t ⟨{ h.conn with inside := false }, .attached⟩)) ∨
    (∃ i o pc h, e = .run i o ∧ s.threads[i]? = some pc ∧ s'.idle = s.idle ++ [h] ∧ held pc = some h.conn.id) := by
  by_cases hr : ∃ i o, e = .run i o
  · obtain ⟨i, o, rfl⟩ := hr
    obtain ⟨pc, hp, hn, rfl⟩ := run_inv he
    rcases stepPc_queue cfg s o pc with h | ⟨t, h, h1, h2, h3⟩ | ⟨h, h1, h2⟩
    · exact Or.inl h
    · refine Or.inr (Or.inl ⟨i, o, t, h, rfl, by rw [hp, h1], h2, ?_⟩)
      have hlt : i < s.threads.length := (List.getElem?_eq_some_iff.mp hp).1
      simp [hlt, h3]
    · exact Or.inr (Or.inr ⟨i, o, pc, h, rfl, hp, h1, h2⟩)
  · exact Or.inl (other_queue he (fun i o h => hr ⟨i, o, h⟩)).1

/-- While a connection is idle, those ahead of it leave from the front and those behind it stay. -/
theorem stays_order {cfg : Cfg} {x : Nat} {s s' : St} {a b : List Nat} (h : StaysIdle cfg x s s') (hr : Reach cfg s)
    (hs : idleIds s = a ++ x :: b) : ∃ n more, idleIds s' = a.drop n ++ x :: (b ++ more) ∧ Reach cfg s' := by
  induction h with
  | refl _ => exact ⟨0, [], by simpa using hs, hr⟩
  | @step s' s'' e _ he hx ih =>
    obtain ⟨n, more, h1, h2⟩ := ih
    rcases step_queue he with hq | ⟨i, o, t, h, _, _, hq, _⟩ | ⟨i, o, pc, h, _, _, hq, _⟩
    · exact ⟨n, more, by simpa [idleIds, hq] using h1, .step e h2 he⟩
    · have hq' : idleIds s' = h.conn.id :: idleIds s'' := by simp [idleIds, hq]
      rw [hq'] at h1
      cases hd : a.drop n with
      | nil =>
        rw [hd] at h1
        simp at h1
        have hnd : (idleIds s').Nodup := by
          have h3 : ∀ k, (idleIds s').count k ≤ 1 := by
            intro k
            have h4 := (reach_distinct h2 k).1
            simp only [occ] at h4
            rw [idleIds, count_map]
            omega
          exact List.nodup_iff_count.mpr h3
        rw [hq'] at hnd
        have := (List.nodup_cons.mp hnd).1
        rw [h1.1] at this
        exact absurd hx this
      | cons y l =>
        rw [hd] at h1
        simp at h1
        refine ⟨n + 1, more, ?_, .step e h2 he⟩
        have : a.drop (n + 1) = l := by
          rw [← List.tail_drop, hd]
          rfl
        rw [this]
        exact h1.2
    · refine ⟨n, more ++ [h.conn.id], ?_, .step e h2 he⟩
      have : idleIds s'' = idleIds s' ++ [h.conn.id] := by simp [idleIds, hq]
      rw [this, h1]
      simp

/-! ### How many -/

/-- The call is about to take an idle connection. -/
def takeW : Pc → Nat
  | .take _ => 1
  | _ => 0

/-- The call has decided to put a connection among the idle ones. -/
def storeW : Pc → Nat
  | .store _ _ => 1
  | _ => 0

theorem inProgress_eq (s : St) : inProgress s = wsum busyW s.threads := by
  unfold inProgress
  rw [countP_eq]
  congr 1
  funext pc
  cases pc <;> rfl

/-- The idle connections, with those about to be put there. -/
def Few (cfg : Cfg) (k : Nat) (s : St) : Prop :=
  s.idle.length + wsum storeW s.threads ≤ (if cfg.min = 0 then 0 else cfg.min + k - 1) + wsum takeW s.threads

theorem store_take_busy (l : List Pc) : wsum storeW l + wsum takeW l ≤ wsum busyW l := by
  induction l with
  | nil => simp
  | cons pc l ih => cases pc <;> simp [storeW, takeW, busyW] <;> omega

/-- The step of a call, with what the others hold. -/
theorem stepPc_few (cfg : Cfg) (s : St) (o : Outcome) (pc : Pc) (k S T : Nat) (hn : ∀ e, pc ≠ .done e)
    (hk : S + T + 1 ≤ k)
    (h : s.idle.length + (S + storeW pc) ≤ (if cfg.min = 0 then 0 else cfg.min + k - 1) + (T + takeW pc))
    (h0 : cfg.min = 0 → S + storeW pc = 0) :
    (stepPc cfg s o pc).1.idle.length + (S + storeW (stepPc cfg s o pc).2) ≤
      (if cfg.min = 0 then 0 else cfg.min + k - 1) + (T + takeW (stepPc cfg s o pc).2) ∧
    (cfg.min = 0 → storeW (stepPc cfg s o pc).2 = 0) := by
  cases pc
  case polling t f =>
    simp only [stepPc, pollOpening]
    cases f.asked <;> simp <;> cases getAddr cfg.hosts s.connectionsNum <;> cases o <;> simpa [storeW, takeW] using h
  case poll => simp only [stepPc]; cases s.new <;> simp [storeW, takeW] at h ⊢ <;> omega
  case notYet => simp only [stepPc]; cases s.new <;> simp [storeW, takeW] at h ⊢ <;> omega
  case create => simp only [stepPc]; cases s.new <;> simp [storeW, takeW] at h ⊢ <;> omega
  case take t =>
    simp only [stepPc]
    cases hi : s.idle with
    | nil =>
      simp [hi, storeW, takeW] at h h0 ⊢
      by_cases hm : cfg.min = 0
      · have := h0 hm
        omega
      · simp [hm]
        omega
    | cons a l =>
      simp [hi, storeW, takeW] at h ⊢
      omega
  case wakeAll => simp only [stepPc]; cases s.tasks <;> simpa [storeW, takeW] using h
  case releaseWake => simp only [stepPc]; cases s.tasks <;> simpa [storeW, takeW] using h
  case opened => simp only [stepPc]; split <;> simp [storeW, takeW] at h ⊢ <;> omega
  case giveBack x p =>
    simp only [stepPc]
    split
    · rename_i hg
      have hm : cfg.min ≠ 0 := by omega
      simp [storeW, takeW, hm] at h ⊢
      omega
    · simpa [storeW, takeW] using h
  case store => simp only [stepPc]; split <;> simp [storeW, takeW] at h ⊢ <;> omega
  case countOngoing =>
    generalize (if cfg.min = 0 then 0 else cfg.min + k - 1) = m at h ⊢
    simp only [stepPc]
    (repeat' split) <;> simpa [storeW, takeW] using h
  case done e => exact absurd rfl (hn e)
  all_goals simpa [stepPc, storeW, takeW] using h

theorem dropConn_few (c : PConn) : wsum storeW (dropConn c) = 0 ∧ wsum takeW (dropConn c) = 0 := by
  unfold dropConn
  split <;> simp [storeW, takeW]

theorem dropHandle_few (h : UHandle) : wsum storeW (dropHandle h) = 0 ∧ wsum takeW (dropHandle h) = 0 := by
  unfold dropHandle
  obtain ⟨c, b⟩ := h
  cases c with
  | none => simp
  | some c =>
    cases b with
    | none => exact dropConn_few c
    | attached => simp [storeW, takeW]
    | detached => simp [storeW, takeW]

/-- What is started. -/
theorem other_threads {cfg : Cfg} {s s' : St} {e : Ev} (he : step cfg s e = some s') (hn : ∀ i o, e ≠ .run i o) :
    ∃ more, s'.threads = s.threads ++ more ∧ wsum storeW more = 0 := by
  cases e with
  | poll t => simp [step] at he; subst he; exact ⟨_, rfl, by simp [storeW]⟩
  | run i o => exact absurd rfl (hn i o)
  | drop j =>
    simp only [step] at he
    split at he
    · simp at he
    · simp at he; subst he; exact ⟨_, rfl, (dropHandle_few _).1⟩
  | lose j =>
    simp only [step] at he
    split at he
    · simp at he; subst he; exact ⟨_, rfl, (dropConn_few _).1⟩
    · simp at he
  | rebind j b =>
    simp only [step] at he
    split at he
    · split at he
      · simp at he; subst he; exact ⟨[], by simp, rfl⟩
      · simp at he
    · simp at he
  | io =>
    simp only [step] at he
    split at he
    · simp at he; subst he; exact ⟨[], by simp, rfl⟩
    · simp at he

theorem atMost_few {cfg : Cfg} {k : Nat} {s : St} (h : ReachAtMost cfg k s) :
    Few cfg k s ∧ (cfg.min = 0 → wsum storeW s.threads = 0) ∧ inProgress s ≤ k := by
  induction h with
  | init => simp [Few, St.init, inProgress]
  | @step s s' e _ he hk ih =>
    obtain ⟨h1, h2, h3⟩ := ih
    by_cases hr : ∃ i o, e = .run i o
    · obtain ⟨i, o, rfl⟩ := hr
      obtain ⟨pc, hp, hn, rfl⟩ := run_inv he
      have e1 := wsum_set storeW s.threads i pc (.done .finished) hp
      have e2 := wsum_set takeW s.threads i pc (.done .finished) hp
      have e3 := wsum_set storeW s.threads i pc (stepPc cfg s o pc).2 hp
      have e4 := wsum_set takeW s.threads i pc (stepPc cfg s o pc).2 hp
      have e5 := wsum_set busyW s.threads i pc (.done .finished) hp
      have e6 := store_take_busy (s.threads.set i (.done .finished))
      have e7 : busyW pc = 1 := by cases pc <;> first | rfl | exact absurd rfl (hn _)
      have z1 : storeW (.done .finished) = 0 := rfl
      have z2 : takeW (.done .finished) = 0 := rfl
      have z3 : busyW (.done .finished) = 0 := rfl
      rw [inProgress_eq] at h3
      rw [z1] at e1
      rw [z2] at e2
      rw [z3] at e5
      unfold Few at h1
      have := stepPc_few cfg s o pc k (wsum storeW (s.threads.set i (.done .finished)))
        (wsum takeW (s.threads.set i (.done .finished))) hn (by omega)
        (by rw [show wsum storeW (s.threads.set i (.done .finished)) + storeW pc = wsum storeW s.threads by omega,
              show wsum takeW (s.threads.set i (.done .finished)) + takeW pc = wsum takeW s.threads by omega]; exact h1)
        (by intro hm; have := h2 hm; omega)
      refine ⟨?_, ?_, hk⟩
      · unfold Few
        simp only
        generalize (if cfg.min = 0 then 0 else cfg.min + k - 1) = m at this h1 ⊢
        omega
      · intro hm
        have h4 := this.2 hm
        have h5 := h2 hm
        simp only
        omega
    · have hn : ∀ i o, e ≠ .run i o := fun i o h => hr ⟨i, o, h⟩
      obtain ⟨more, m1, m2⟩ := other_threads he hn
      obtain ⟨q1, -, -⟩ := other_queue he hn
      unfold Few at h1 ⊢
      rw [m1, q1, wsum_append, wsum_append, m2]
      refine ⟨by omega, ?_, hk⟩
      intro hm
      have := h2 hm
      omega

/-! ### Connections that are given up -/

/-- The number belongs to no connection and will belong to none. -/
def Gone (k : Nat) (s : St) : Prop := occ k s + wsum (occPc k) s.threads = 0 ∧ k < s.nextId

theorem other_occ {cfg : Cfg} {s s' : St} {e : Ev} (k : Nat) (he : step cfg s e = some s') (hn : ∀ i o, e ≠ .run i o) :
    occ k s' + wsum (occPc k) s'.threads ≤ occ k s + wsum (occPc k) s.threads := by
  cases e with
  | poll t =>
    simp [step] at he
    subst he
    simp [occ, occPc, held]
  | run i o => exact absurd rfl (hn i o)
  | drop j =>
    simp only [step] at he
    split at he
    · simp at he
    · rename_i x hx
      simp at he
      subst he
      have h1 := dropHandle_occ x k
      have h2 := wsum_set (fun h : UHandle => (h.conn.map (·.id)).toList.count k) s.out j x ⟨none, .none⟩ hx
      simp only [occ, wsum_append]
      simp only [Option.map_none, Option.toList_none, List.count_nil] at h2
      omega
  | lose j =>
    simp only [step] at he
    split at he
    · rename_i c b hx
      simp at he
      subst he
      have h1 := dropConn_occ c k
      have h2 := wsum_set (fun h : UHandle => (h.conn.map (·.id)).toList.count k) s.out j _ ⟨none, b⟩ hx
      simp only [occ, wsum_append]
      simp only [Option.map_none, Option.toList_none, List.count_nil] at h2
      omega
    · simp at he
  | rebind j b =>
    simp only [step] at he
    split at he
    · rename_i x hx
      split at he
      · simp at he
        subst he
        have h2 := wsum_set (fun h : UHandle => (h.conn.map (·.id)).toList.count k) s.out j x { x with binding := b } hx
        simp only [occ]
        simp only at h2
        omega
      · simp at he
    · simp at he
  | io =>
    simp only [step] at he
    split at he
    · simp at he
      subst he
      exact Nat.le_refl _
    · simp at he

theorem step_gone {cfg : Cfg} {s s' : St} {e : Ev} {k : Nat} (h : Gone k s) (he : step cfg s e = some s') : Gone k s' := by
  by_cases hr : ∃ i o, e = .run i o
  · obtain ⟨i, o, rfl⟩ := hr
    obtain ⟨pc, hp, hn, rfl⟩ := run_inv he
    obtain ⟨h1, h2⟩ := stepPc_occ cfg s o pc k
    have h3 := wsum_set (occPc k) s.threads i pc (stepPc cfg s o pc).2 hp
    have h4 := wsum_le (w := occPc k) hp
    obtain ⟨h5, h6⟩ := h
    refine ⟨?_, by simp only; omega⟩
    have : occ k { (stepPc cfg s o pc).1 with threads := s.threads.set i (stepPc cfg s o pc).2 } =
      occ k (stepPc cfg s o pc).1 := rfl
    rw [this]
    simp only
    omega
  · have hn : ∀ i o, e ≠ .run i o := fun i o h => hr ⟨i, o, h⟩
    have h1 := other_occ k he hn
    obtain ⟨-, -, q3⟩ := other_queue he hn
    exact ⟨by have := h.1; omega, by rw [q3]; exact h.2⟩

theorem steps_gone {cfg : Cfg} {s s' : St} {k : Nat} (h : Gone k s) (hs : Steps cfg s s') : Gone k s' := by
  induction hs with
  | refl => exact h
  | step e _ he ih => exact step_gone ih he

theorem Gone.not_mem {s : St} {k : Nat} (h : Gone k s) : k ∉ connections s := by
  rw [← List.count_eq_zero, connections_count]
  exact h.1

/-- A connection in use is nowhere else. -/
theorem out_count {s : St} {j : Nat} {c : PConn} {b : Binding} (h : s.out[j]? = some ⟨some c, b⟩) :
    1 ≤ wsum (fun h : UHandle => (h.conn.map (·.id)).toList.count c.id) s.out := by
  have := wsum_le (w := fun h : UHandle => (h.conn.map (·.id)).toList.count c.id) h
  simpa using this

theorem lose_gone {cfg : Cfg} {s s' : St} {j : Nat} {c : PConn} {b : Binding} (hr : Reach cfg s)
    (h : s.out[j]? = some ⟨some c, b⟩) (he : step cfg s (.lose j) = some s') : Gone c.id s' := by
  have hd := reach_distinct hr c.id
  have h0 := out_count h
  simp only [step, h] at he
  simp at he
  subst he
  have h1 := dropConn_occ c c.id
  have h2 := wsum_set (fun h : UHandle => (h.conn.map (·.id)).toList.count c.id) s.out j _ ⟨none, b⟩ h
  simp only [Gone, occ, wsum_append] at hd ⊢
  simp at h2
  refine ⟨?_, ?_⟩
  · have := hd.1
    simp at this ⊢
    omega
  · apply Nat.lt_of_not_le
    intro hle
    have := hd.2 hle
    simp at this
    omega

/-- The call does not put the connection it holds among the idle ones. -/
def closing : Pc → Prop
  | .giveBack h _ => h.binding ≠ .attached
  | .dec _ _ => True
  | .wakeAll _ _ => True
  | _ => False

/-- The connection, if it still exists, is about to be closed. -/
structure Doomed (k : Nat) (s : St) : Prop where
  old : k < s.nextId
  occ : occ k s = 0
  held : ∀ pc ∈ s.threads, held pc = some k → closing pc

theorem occPc_zero {k : Nat} {pc : Pc} : occPc k pc = 0 ↔ held pc ≠ some k := by
  unfold occPc
  cases h : CH.Spec.held pc with
  | none => simp
  | some x => simp [List.count_cons]

theorem stepPc_closing (cfg : Cfg) (s : St) (o : Outcome) (pc : Pc) (h : closing pc) :
    (∀ x, held (stepPc cfg s o pc).2 = some x → closing (stepPc cfg s o pc).2) ∧ ∀ k, occ k (stepPc cfg s o pc).1 = occ k s := by
  cases pc <;> simp only [closing] at h
  case giveBack h' p => simp [stepPc, h, closing, occ]
  case dec => simp [stepPc, closing, occ]
  case wakeAll => simp only [stepPc]; cases s.tasks <;> simp [closing, occ, CH.Spec.held]

theorem step_doomed {cfg : Cfg} {s s' : St} {e : Ev} {k : Nat} (h : Doomed k s) (he : step cfg s e = some s') : Doomed k s' := by
  by_cases hr : ∃ i o, e = .run i o
  · obtain ⟨i, o, rfl⟩ := hr
    obtain ⟨pc, hp, hn, rfl⟩ := run_inv he
    obtain ⟨h1, h2⟩ := stepPc_occ cfg s o pc k
    have h3 := h.occ
    have h4 := h.old
    have hm : pc ∈ s.threads := List.mem_of_getElem? hp
    have mem : ∀ q, q ∈ s.threads.set i (stepPc cfg s o pc).2 → q ∈ s.threads ∨ q = (stepPc cfg s o pc).2 :=
      fun q hq => List.mem_or_eq_of_mem_set hq
    have e0 : occ k { (stepPc cfg s o pc).1 with threads := s.threads.set i (stepPc cfg s o pc).2 } =
      occ k (stepPc cfg s o pc).1 := rfl
    by_cases hk : CH.Spec.held pc = some k
    · obtain ⟨c1, c2⟩ := stepPc_closing cfg s o pc (h.held pc hm hk)
      refine ⟨by simp only; omega, by rw [e0, c2, h3], ?_⟩
      intro q hq hqk
      rcases mem q hq with hq | hq
      · exact h.held q hq hqk
      · subst hq
        exact c1 _ hqk
    · have h5 := occPc_zero.mpr hk
      have h6 : occ k (stepPc cfg s o pc).1 = 0 ∧ occPc k (stepPc cfg s o pc).2 = 0 := by omega
      refine ⟨by simp only; omega, by rw [e0, h6.1], ?_⟩
      intro q hq hqk
      rcases mem q hq with hq | hq
      · exact h.held q hq hqk
      · subst hq
        exact absurd hqk (occPc_zero.mp h6.2)
  · have hn : ∀ i o, e ≠ .run i o := fun i o h => hr ⟨i, o, h⟩
    obtain ⟨-, -, q3⟩ := other_queue he hn
    have h3 := h.occ
    have key : occ k s' + wsum (occPc k) s'.threads ≤ wsum (occPc k) s.threads := by
      have := other_occ k he hn
      omega
    obtain ⟨-, -, more, m1⟩ := step_other he hn
    rw [m1, wsum_append] at key
    refine ⟨by rw [q3]; exact h.old, by omega, ?_⟩
    intro q hq hqk
    rw [m1] at hq
    rcases mem_append_or hq with hq | hq
    · exact h.held q hq hqk
    · have : wsum (occPc k) more = 0 := by omega
      obtain ⟨i, hi, rfl⟩ := List.getElem_of_mem hq
      have h7 := wsum_le (w := occPc k) (l := more) (i := i) (a := more[i]) (by simp [hi])
      exact absurd hqk (occPc_zero.mp (by omega))

theorem steps_doomed {cfg : Cfg} {s s' : St} {k : Nat} (h : Doomed k s) (hs : Steps cfg s s') : Doomed k s' := by
  induction hs with
  | refl => exact h
  | step e _ he ih => exact step_doomed ih he

theorem drop_doomed {cfg : Cfg} {s s' : St} {j : Nat} {c : PConn} {b : Binding} (hr : Reach cfg s)
    (h : s.out[j]? = some ⟨some c, b⟩) (hb : b ≠ .attached) (he : step cfg s (.drop j) = some s') : Doomed c.id s' := by
  have hd := reach_distinct hr c.id
  have h0 := out_count h
  simp only [step, h] at he
  simp at he
  subst he
  have h2 := wsum_set (fun h : UHandle => (h.conn.map (·.id)).toList.count c.id) s.out j _ ⟨none, .none⟩ h
  simp at h2
  simp only [occ] at hd
  simp at hd
  refine ⟨?_, ?_, ?_⟩
  · apply Nat.lt_of_not_le
    intro hle
    have := hd.2 hle
    omega
  · simp only [occ]
    simp
    omega
  · intro q hq hqk
    rcases mem_append_or hq with hq | hq
    · obtain ⟨i, hi, rfl⟩ := List.getElem_of_mem hq
      have h7 := wsum_le (w := occPc c.id) (l := s.threads) (i := i) (a := s.threads[i]) (by simp [hi])
      exact absurd hqk (occPc_zero.mp (by omega))
    · cases b with
      | attached => exact absurd rfl hb
      | detached =>
        simp [dropHandle] at hq
        subst hq
        exact hb
      | none =>
        simp only [dropHandle, dropConn] at hq
        split at hq
        · simp at hq
        · simp at hq
          subst hq
          simp [CH.Spec.held] at hqk

theorem Doomed.spec {k : Nat} {s : St} (h : Doomed k s) :
    k ∉ idleIds s ∧ k ∉ inUse s ∧ (Quiet s → k ∉ connections s) := by
  have h1 := h.occ
  simp only [CH.Pool.occ] at h1
  refine ⟨?_, ?_, ?_⟩
  · rw [← List.count_eq_zero, idleIds, count_map]
    omega
  · rw [← List.count_eq_zero, inUse, count_filterMap]
    omega
  · intro hq
    rw [← List.count_eq_zero, connections_count]
    have : wsum (occPc k) s.threads = 0 := by
      have : ∀ l : List Pc, (∀ pc ∈ l, ∃ e, pc = .done e) → wsum (occPc k) l = 0 := by
        intro l
        induction l with
        | nil => simp
        | cons a l ih =>
          intro hl
          obtain ⟨e, rfl⟩ := hl a (by simp)
          simp [ih (fun pc hp => hl pc (by simp [hp])), occPc, CH.Spec.held]
      exact this _ hq
    have := h.occ
    omega

/-! ### A call that runs alone -/

/-- What a connection given back leaves. -/
def afterDrop (cfg : Cfg) (s : St) (c : PConn) (b : Binding) : List Nat :=
  if b = .attached ∧ s.idle.length < cfg.min ∧ s.idle.length < cfg.max then idleIds s ++ [c.id] else idleIds s

/-- Where a call that gives back a connection stands. -/
def dropAt (cfg : Cfg) (s0 : St) (c : PConn) (b : Binding) (s : St) : Pc → Prop
  | .giveBack h _ => s.idle = s0.idle ∧ h.conn.id = c.id ∧ h.binding = b
  | .store h _ => s.idle = s0.idle ∧ h.conn.id = c.id ∧ b = .attached ∧ s0.idle.length < cfg.min
  | .dec _ _ => idleIds s = afterDrop cfg s0 c b
  | .wakeAll _ _ => idleIds s = afterDrop cfg s0 c b
  | .release => idleIds s = afterDrop cfg s0 c b
  | .releaseWake => idleIds s = afterDrop cfg s0 c b
  | .done _ => idleIds s = afterDrop cfg s0 c b
  | _ => False

theorem stepPc_dropAt {cfg : Cfg} {s0 s : St} {c : PConn} {b : Binding} (o : Outcome) {pc : Pc} (h : dropAt cfg s0 c b s pc) :
    dropAt cfg s0 c b (stepPc cfg s o pc).1 (stepPc cfg s o pc).2 := by
  cases pc <;> simp only [dropAt] at h
  case giveBack h' p =>
    obtain ⟨h1, h2, h3⟩ := h
    simp only [stepPc]
    split
    · rename_i hg
      exact ⟨h1, h2, by rw [← h3]; exact hg.2, by rw [← h1]; exact hg.1⟩
    · rename_i hg
      rw [h1, h3] at hg
      simp only [dropAt, afterDrop]
      rw [if_neg (fun hc => hg ⟨hc.2.1, hc.1⟩)]
      simp [idleIds, h1]
  case store h' p =>
    obtain ⟨h1, h2, h3, h4⟩ := h
    simp only [stepPc]
    split
    · rename_i hg
      rw [h1] at hg
      simp only [dropAt, afterDrop]
      rw [if_pos ⟨h3, h4, hg⟩]
      simp [idleIds, h1, h2]
    · rename_i hg
      rw [h1] at hg
      simp only [dropAt, afterDrop]
      rw [if_neg (fun hc => hg hc.2.2)]
      simp [idleIds, h1]
  case dec => exact h
  case wakeAll => simp only [stepPc]; cases s.tasks <;> exact h
  case release => exact h
  case releaseWake => simp only [stepPc]; cases s.tasks <;> exact h
  case done => exact h

theorem alone_inv {cfg : Cfg} {i : Nat} {s s' : St} {P : St → Pc → Prop} {pc : Pc} (h : Alone cfg i s s')
    (hp : s.threads[i]? = some pc) (h0 : P s pc) (hs : ∀ s o pc, P s pc → P (stepPc cfg s o pc).1 (stepPc cfg s o pc).2)
    (ht : ∀ s threads pc, P s pc → P { s with threads := threads } pc) :
    ∃ pc', s'.threads[i]? = some pc' ∧ P s' pc' := by
  induction h with
  | refl => exact ⟨pc, hp, h0⟩
  | @step s' s'' o _ he ih =>
    obtain ⟨q, hq, h1⟩ := ih
    obtain ⟨q', hq', hn, rfl⟩ := run_inv he
    rw [hq] at hq'
    obtain rfl := Option.some.inj hq'
    have hlt : i < s'.threads.length := (List.getElem?_eq_some_iff.mp hq).1
    exact ⟨_, by simp [hlt], ht _ _ _ (hs s' o q h1)⟩

theorem drop_alone {cfg : Cfg} {s s1 s2 : St} {j : Nat} {c : PConn} {b : Binding} {e : End} (h : s.out[j]? = some ⟨some c, b⟩)
    (hb : b ≠ .none) (he : step cfg s (.drop j) = some s1) (ha : Alone cfg s.threads.length s1 s2)
    (hd : s2.threads[s.threads.length]? = some (.done e)) : idleIds s2 = afterDrop cfg s c b := by
  simp only [step, h] at he
  simp at he
  subst he
  have hl : dropHandle ⟨some c, b⟩ = [.giveBack ⟨c, b⟩ false] := by cases b <;> first | rfl | exact absurd rfl hb
  obtain ⟨pc, h1, h2⟩ := alone_inv (P := dropAt cfg s c b) (pc := .giveBack ⟨c, b⟩ false) ha (by simp [hl])
    ⟨rfl, rfl, rfl⟩ (fun s' o pc hp => stepPc_dropAt o hp) (fun s' threads pc hp => by cases pc <;> exact hp)
  rw [hd] at h1
  obtain rfl := Option.some.inj h1
  exact h2

/-- The connection that a poll may finish opening. -/
def Comes (s0 : St) (k : Nat) : Prop := (∃ f, s0.new = some f ∧ f.id = k) ∨ s0.idle = [] ∧ s0.nextId ≤ k

/-- What a poll has done when it has taken a connection. -/
def Took (s0 s : St) (k : Nat) : Prop :=
  ∃ opened : List Nat, k :: idleIds s = idleIds s0 ++ opened ∧ (opened = [] ∨ ∃ n, opened = [n] ∧ Comes s0 n)

/-- Where a poll stands. -/
def pollAt (s0 s : St) : Pc → Prop
  | .poll _ => s.idle = s0.idle ∧ s.out = s0.out ∧ ∀ f, s.new = some f → Comes s0 f.id
  | .polling _ f => s.idle = s0.idle ∧ s.out = s0.out ∧ Comes s0 f.id
  | .opened _ h => s.idle = s0.idle ∧ s.out = s0.out ∧ Comes s0 h.conn.id ∧ h.binding = .detached
  | .notYet _ _ => s.idle = s0.idle ∧ s.out = s0.out
  | .take _ => s.out = s0.out ∧ (s.idle = s0.idle ∨ ∃ h : PHandle, s.idle = s0.idle ++ [h] ∧ Comes s0 h.conn.id)
  | .taken _ h => s.out = s0.out ∧ h.binding = .attached ∧ h.conn.inside = false ∧ Took s0 s h.conn.id
  | .count _ => s.idle = s0.idle ∧ s.out = s0.out ∧ s0.idle = []
  | .countNew _ _ => s.idle = s0.idle ∧ s.out = s0.out ∧ s0.idle = []
  | .countOngoing _ _ _ => s.idle = s0.idle ∧ s.out = s0.out ∧ s0.idle = []
  | .create _ => s.idle = s0.idle ∧ s.out = s0.out ∧ s0.idle = []
  | .wait _ => s.idle = s0.idle ∧ s.out = s0.out ∧ s0.idle = []
  | .giveBack h _ => s.idle = s0.idle ∧ s.out = s0.out ∧ h.binding = .detached
  | .dec _ _ => s.idle = s0.idle ∧ s.out = s0.out
  | .wakeAll _ _ => s.idle = s0.idle ∧ s.out = s0.out
  | .done (.handed _) => ∃ k, s.out = s0.out ++ [⟨some ⟨k, false⟩, .attached⟩] ∧ Took s0 s k
  | .done (.pending _) => s.idle = s0.idle ∧ s.out = s0.out ∧ s0.idle = []
  | .done _ => s.idle = s0.idle ∧ s.out = s0.out
  | _ => False

theorem stepPc_pollAt {cfg : Cfg} {s0 s : St} (o : Outcome) {pc : Pc} (h : s0.nextId ≤ s.nextId ∧ pollAt s0 s pc) :
    s0.nextId ≤ (stepPc cfg s o pc).1.nextId ∧ pollAt s0 (stepPc cfg s o pc).1 (stepPc cfg s o pc).2 := by
  obtain ⟨h0, h⟩ := h
  refine ⟨Nat.le_trans h0 (stepPc_occ cfg s o pc 0).1, ?_⟩
  cases pc
  case poll t =>
    obtain ⟨h1, h2, h3⟩ := h
    simp only [stepPc]
    cases hn : s.new with
    | none => exact ⟨h2, Or.inl h1⟩
    | some f => exact ⟨h1, h2, h3 f hn⟩
  case polling t f =>
    obtain ⟨h1, h2, h3⟩ := h
    simp only [stepPc, pollOpening]
    cases f.asked <;> simp <;> cases getAddr cfg.hosts s.connectionsNum <;> cases o <;> simp [pollAt, h1, h2, h3]
  case opened t x =>
    obtain ⟨h1, h2, h3, h4⟩ := h
    simp only [stepPc]
    split
    · exact ⟨h2, Or.inr ⟨x, by simp [h1], h3⟩⟩
    · exact ⟨h1, h2, h4⟩
  case notYet t f =>
    obtain ⟨h1, h2⟩ := h
    simp only [stepPc]
    cases s.new <;> exact ⟨h2, Or.inl h1⟩
  case take t =>
    obtain ⟨h1, h2⟩ := h
    simp only [stepPc]
    cases hi : s.idle with
    | nil =>
      rcases h2 with h2 | ⟨x, h2, -⟩
      · exact ⟨h2, h1, by rw [← h2, hi]⟩
      · rw [hi] at h2
        simp at h2
    | cons y l =>
      refine ⟨h1, rfl, rfl, ?_⟩
      rcases h2 with h2 | ⟨x, h2, h3⟩
      · exact ⟨[], by simp [idleIds, ← h2, hi], Or.inl rfl⟩
      · refine ⟨[x.conn.id], ?_, Or.inr ⟨_, rfl, h3⟩⟩
        rw [hi] at h2
        have := congrArg (List.map (fun h : PHandle => h.conn.id)) h2
        simpa [idleIds] using this
  case taken t x =>
    obtain ⟨h1, h2, h3, h4⟩ := h
    obtain ⟨⟨k, i⟩, b⟩ := x
    simp only at h2 h3
    subst h2 h3
    exact ⟨k, by simp [stepPc, h1], h4⟩
  case count t => exact h
  case countNew t n => exact h
  case countOngoing t n g =>
    obtain ⟨h1, h2, h3⟩ := h
    simp only [stepPc]
    (repeat' split) <;> simp [pollAt, h1, h2, h3]
  case create t =>
    obtain ⟨h1, h2, h3⟩ := h
    simp only [stepPc]
    cases hn : s.new with
    | none =>
      refine ⟨h1, h2, ?_⟩
      intro f hf
      simp at hf
      subst hf
      exact Or.inr ⟨h3, h0⟩
    | some f => exact ⟨h1, h2, h3⟩
  case wait t => exact h
  case giveBack x p =>
    obtain ⟨h1, h2, h3⟩ := h
    simp [stepPc, h3, pollAt, h1, h2]
  case dec => exact h
  case wakeAll x p =>
    simp only [stepPc]
    cases s.tasks with
    | nil => cases p <;> exact h
    | cons t l => exact h
  case done e => exact h
  all_goals exact h.elim

theorem poll_alone {cfg : Cfg} {s s1 s2 : St} {t : Nat} {e : End} (he : step cfg s (.poll t) = some s1)
    (ha : Alone cfg s.threads.length s1 s2) (hd : s2.threads[s.threads.length]? = some (.done e)) : pollAt s s2 (.done e) := by
  simp only [step] at he
  simp at he
  subst he
  obtain ⟨pc, h1, h2⟩ := alone_inv (P := fun s' pc => s.nextId ≤ s'.nextId ∧ pollAt s s' pc) (pc := .poll t) ha (by simp)
    ⟨Nat.le_refl _, rfl, rfl, fun f hf => Or.inl ⟨f, hf, rfl⟩⟩ (fun s' o pc hp => stepPc_pollAt o hp)
    (fun s' threads pc hp => ⟨hp.1, by
      rcases hp with ⟨-, hp⟩
      cases pc
      case done e => cases e <;> exact hp
      all_goals exact hp⟩)
  rw [hd] at h1
  obtain rfl := Option.some.inj h1
  exact h2.2

/-! ### How many connections when calls overlap -/

/-- The call has read the counter of connections in use, and may go on to open a connection. -/
def staleW (cfg : Cfg) : Pc → Nat
  | .countOngoing _ _ g => if g < cfg.max then 1 else 0
  | .create _ => 1
  | _ => 0

theorem held_stale (cfg : Cfg) (l : List Pc) : wsum heldW l + wsum (staleW cfg) l ≤ wsum busyW l := by
  induction l with
  | nil => simp
  | cons pc l ih =>
    have : heldW pc + staleW cfg pc ≤ busyW pc := by
      cases pc
      case countOngoing => simp only [heldW, CH.Spec.held, staleW, busyW]; split <;> simp
      case dec h p => cases h <;> simp [heldW, CH.Spec.held, staleW, busyW]
      case wakeAll h p => cases h <;> simp [heldW, CH.Spec.held, staleW, busyW]
      all_goals simp [heldW, CH.Spec.held, staleW, busyW]
    simp
    omega

/-- The connections outside the calls in progress. -/
def placed (s : St) : Nat := s.new.toList.length + s.idle.length + wsum liveW s.out

theorem connections_placed (s : St) : (connections s).length = placed s + wsum heldW s.threads := by
  rw [connections_length]
  simp only [placed]

theorem stepPc_placed (cfg : Cfg) (s : St) (o : Outcome) (pc : Pc) (hc : ∀ t n, pc ≠ .countNew t n) :
    placed (stepPc cfg s o pc).1 + heldW (stepPc cfg s o pc).2 + staleW cfg (stepPc cfg s o pc).2 ≤
      placed s + heldW pc + staleW cfg pc := by
  cases pc
  case polling t f =>
    simp only [stepPc, pollOpening]
    cases f.asked <;> simp <;> cases getAddr cfg.hosts s.connectionsNum <;> cases o <;>
      simp [placed, heldW, CH.Spec.held, staleW]
  case poll => simp only [stepPc]; cases h : s.new <;> simp [placed, heldW, CH.Spec.held, staleW, h]; omega
  case notYet => simp only [stepPc]; cases h : s.new <;> simp [placed, heldW, CH.Spec.held, staleW, h]; omega
  case create t => simp only [stepPc]; cases h : s.new <;> simp [placed, heldW, CH.Spec.held, staleW, h]; omega
  case take => simp only [stepPc]; cases h : s.idle <;> simp [placed, heldW, CH.Spec.held, staleW, h]; omega
  case wakeAll h p => simp only [stepPc]; cases s.tasks <;> simp [placed, heldW, CH.Spec.held, staleW]
  case releaseWake => simp only [stepPc]; cases s.tasks <;> simp [placed, heldW, CH.Spec.held, staleW]
  case opened => simp only [stepPc]; split <;> simp [placed, heldW, CH.Spec.held, staleW]; omega
  case giveBack h p => simp only [stepPc]; split <;> simp [placed, heldW, CH.Spec.held, staleW]
  case store h p => simp only [stepPc]; split <;> simp [placed, heldW, CH.Spec.held, staleW]; omega
  case countOngoing t n g =>
    simp only [stepPc, staleW]
    split
    · simp [placed, heldW, CH.Spec.held, staleW]
    · split
      · rename_i hlt
        rw [if_pos (by omega)]
        simp [placed, heldW, CH.Spec.held, staleW]
      · simp [placed, heldW, CH.Spec.held, staleW]
  case countNew t n => exact absurd rfl (hc t n)
  case taken t h => simp [stepPc, placed, heldW, CH.Spec.held, staleW, liveW]; omega
  all_goals simp [stepPc, placed, heldW, CH.Spec.held, staleW]

theorem other_placed {cfg : Cfg} {s s' : St} {e : Ev} (he : step cfg s e = some s') (hn : ∀ i o, e ≠ .run i o) :
    placed s' + wsum heldW s'.threads + wsum (staleW cfg) s'.threads ≤
      placed s + wsum heldW s.threads + wsum (staleW cfg) s.threads := by
  have dc : ∀ c, wsum heldW (dropConn c) = 0 ∧ wsum (staleW cfg) (dropConn c) = 0 := by
    intro c
    unfold dropConn
    split <;> simp [heldW, CH.Spec.held, staleW]
  have dh : ∀ x : UHandle, wsum heldW (dropHandle x) ≤ liveW x ∧ wsum (staleW cfg) (dropHandle x) = 0 := by
    intro x
    obtain ⟨c, b⟩ := x
    unfold dropHandle
    cases c with
    | none => simp
    | some c =>
      cases b with
      | none => exact ⟨by rw [(dc c).1]; exact Nat.zero_le _, (dc c).2⟩
      | attached => simp [heldW, CH.Spec.held, staleW, liveW]
      | detached => simp [heldW, CH.Spec.held, staleW, liveW]
  cases e with
  | poll t =>
    simp [step] at he
    subst he
    simp [placed, heldW, CH.Spec.held, staleW]
  | run i o => exact absurd rfl (hn i o)
  | drop j =>
    simp only [step] at he
    split at he
    · simp at he
    · rename_i x hx
      simp at he
      subst he
      obtain ⟨h1, h3⟩ := dh x
      have h2 := wsum_set liveW s.out j x ⟨none, .none⟩ hx
      have h4 : liveW ⟨none, .none⟩ = 0 := rfl
      simp only [placed, wsum_append]
      omega
  | lose j =>
    simp only [step] at he
    split at he
    · rename_i c b hx
      simp at he
      subst he
      obtain ⟨h1, h3⟩ := dc c
      have h2 := wsum_set liveW s.out j _ ⟨none, b⟩ hx
      have h4 : liveW ⟨none, b⟩ = 0 := rfl
      simp only [placed, wsum_append]
      omega
    · simp at he
  | rebind j b =>
    simp only [step] at he
    split at he
    · rename_i x hx
      split at he
      · simp at he
        subst he
        have h2 := wsum_set liveW s.out j x { x with binding := b } hx
        have h4 : liveW { x with binding := b } = liveW x := rfl
        simp only [placed]
        omega
      · simp at he
    · simp at he
  | io =>
    simp only [step] at he
    split at he
    · simp at he
      subst he
      exact Nat.le_refl _
    · simp at he

/-- A call that has panicked because the idle store was full stays as it is, or goes on to its end. -/
theorem step_calm_back {cfg : Cfg} {s s' : St} {e : Ev} (he : step cfg s e = some s') (h : ∀ pc ∈ s'.threads, miscounted pc = false) :
    ∀ pc ∈ s.threads, miscounted pc = false := by
  intro q hq
  by_cases hr : ∃ i o, e = .run i o
  · obtain ⟨i, o, rfl⟩ := hr
    obtain ⟨pc, hp, hn, rfl⟩ := run_inv he
    obtain ⟨j, hj, rfl⟩ := List.getElem_of_mem hq
    by_cases hij : i = j
    · subst hij
      have : pc = s.threads[i] := by
        rw [List.getElem?_eq_getElem hj] at hp
        exact (Option.some.inj hp).symm
      rw [← this]
      have h1 := h (stepPc cfg s o pc).2 (List.mem_of_getElem? (i := i) (by simp [hj]))
      cases pc <;> try rfl
      case wakeAll x p =>
        simp only [stepPc] at h1
        cases hs : s.tasks with
        | nil =>
          rw [hs] at h1
          cases p
          · rfl
          · simp [miscounted] at h1
        | cons a l =>
          rw [hs] at h1
          exact h1
      case done e => exact absurd rfl (hn e)
    · refine h _ (List.mem_of_getElem? (i := j) ?_)
      simp only
      rw [List.getElem?_set_ne hij]
      simp [hj]
  · obtain ⟨-, -, more, m1⟩ := step_other he (fun i o h => hr ⟨i, o, h⟩)
    exact h q (by rw [m1]; simp [hq])

theorem ReachAtMost.reach {cfg : Cfg} {k : Nat} {s : St} (h : ReachAtMost cfg k s) : Reach cfg s := by
  induction h with
  | init => exact .init
  | step e _ he _ ih => exact .step e ih he

theorem atMost_placed {cfg : Cfg} {k : Nat} {s : St} (hw : 2 * cfg.max + 2 * k < usize) (h : ReachAtMost cfg k s)
    (hm : ∀ pc ∈ s.threads, miscounted pc = false) :
    placed s + wsum heldW s.threads + wsum (staleW cfg) s.threads ≤ 2 * cfg.max + k ∧ inProgress s ≤ k := by
  induction h with
  | init => simp [placed, St.init, inProgress]
  | @step s s' e hr he hk ih =>
    have hm0 := step_calm_back he hm
    obtain ⟨h1, h3⟩ := ih hm0
    refine ⟨?_, hk⟩
    by_cases hr' : ∃ i o, e = .run i o
    · obtain ⟨i, o, rfl⟩ := hr'
      obtain ⟨pc, hp, hn, rfl⟩ := run_inv he
      have e1 := wsum_set heldW s.threads i pc (stepPc cfg s o pc).2 hp
      have e2 := wsum_set (staleW cfg) s.threads i pc (stepPc cfg s o pc).2 hp
      have e0 : placed { (stepPc cfg s o pc).1 with threads := s.threads.set i (stepPc cfg s o pc).2 } =
        placed (stepPc cfg s o pc).1 := rfl
      rw [e0]
      simp only
      by_cases hc : ∃ t n, pc = .countNew t n
      · obtain ⟨t, n, rfl⟩ := hc
        have z1 : heldW (.countNew t n) = 0 := rfl
        have z2 : staleW cfg (.countNew t n) = 0 := rfl
        have z3 : heldW (.countOngoing t n s.ongoing) = 0 := rfl
        have z4 : staleW cfg (.countOngoing t n s.ongoing) = if s.ongoing < cfg.max then 1 else 0 := rfl
        have z5 : (stepPc cfg s o (.countNew t n)) = (s, .countOngoing t n s.ongoing) := rfl
        rw [z5] at e1 e2 ⊢
        simp only at e1 e2 ⊢
        by_cases hg : s.ongoing < cfg.max
        · have hreach := ReachAtMost.reach hr
          have h5 := reach_balanced hreach
          have h6 := reach_idle hreach
          have h7 := reach_ongoing_lt hreach
          have h8 := held_stale cfg (s.threads.set i (.countOngoing t n s.ongoing))
          have h9 : wsum busyW (s.threads.set i (.countOngoing t n s.ongoing)) ≤ k := by
            have := hk
            rw [inProgress_eq] at this
            exact this
          have h10 : s.new.toList.length ≤ 1 := by cases s.new <;> simp
          have h11 : wsum under s.threads = 0 := by
            have : ∀ l : List Pc, (∀ pc ∈ l, miscounted pc = false) → wsum under l = 0 := by
              intro l
              induction l with
              | nil => simp
              | cons a l ih =>
                intro hl
                simp [ih (fun pc hp => hl pc (by simp [hp])), under, one, hl a (by simp)]
            exact this _ hm0
          have h12 : wsum (one stillCounted) s.threads ≤ k := by
            have : ∀ l : List Pc, wsum (one stillCounted) l ≤ wsum busyW l := by
              intro l
              induction l with
              | nil => simp
              | cons a l ih =>
                have : one stillCounted a ≤ busyW a := by
                  cases a <;> simp [one, stillCounted, busyW] <;> split <;> simp
                simp
                omega
            have h13 := this s.threads
            rw [inProgress_eq] at h3
            omega
          unfold Balanced at h5
          simp only [placed] at h1
          rw [h11, Nat.add_zero, Nat.mod_eq_of_lt h7, Nat.mod_eq_of_lt (by omega)] at h5
          simp only [placed]
          omega
        · rw [if_neg hg] at z4
          omega
      · have := stepPc_placed cfg s o pc (fun t n h => hc ⟨t, n, h⟩)
        omega
    · have := other_placed he (fun i o h => hr' ⟨i, o, h⟩)
      omega

end Keep

end CH.Pool
