import Verif.Spec.Pool

/-! # Lemmas about the connection pool -/

namespace CH.Pool

open CH.Spec

/-! ### Sums over lists -/

/-- Sum of a weight over a list. -/
def wsum {α : Type} (w : α → Nat) (l : List α) : Nat := (l.map w).sum

@[simp] theorem wsum_nil {α : Type} (w : α → Nat) : wsum w [] = 0 := rfl

@[simp] theorem wsum_cons {α : Type} (w : α → Nat) (a : α) (l : List α) : wsum w (a :: l) = w a + wsum w l := by
  simp [wsum]

@[simp] theorem wsum_append {α : Type} (w : α → Nat) (l l' : List α) : wsum w (l ++ l') = wsum w l + wsum w l' := by
  simp [wsum]

theorem wsum_set {α : Type} (w : α → Nat) (l : List α) (i : Nat) (a b : α) (h : l[i]? = some a) :
    wsum w (l.set i b) + w a = wsum w l + w b := by
  induction l generalizing i with
  | nil => simp at h
  | cons x l ih =>
    cases i with
    | zero =>
      simp at h
      subst h
      simp
      omega
    | succ i =>
      simp at h
      have := ih i h
      simp
      omega

theorem wsum_le {α : Type} {w : α → Nat} {l : List α} {i : Nat} {a : α} (h : l[i]? = some a) : w a ≤ wsum w l := by
  have := wsum_set w l i a a h
  induction l generalizing i with
  | nil => simp at h
  | cons x l ih =>
    cases i with
    | zero => simp at h; subst h; simp
    | succ i =>
      simp at h
      have := ih h (wsum_set w l i a a h)
      simp
      omega

theorem length_filterMap {α β : Type} (f : α → Option β) (l : List α) :
    (l.filterMap f).length = wsum (fun a => (f a).toList.length) l := by
  induction l with
  | nil => rfl
  | cons a l ih => cases h : f a <;> simp [h, ih] <;> omega

theorem count_filterMap {α : Type} (f : α → Option Nat) (k : Nat) (l : List α) :
    (l.filterMap f).count k = wsum (fun a => (f a).toList.count k) l := by
  induction l with
  | nil => rfl
  | cons a l ih => cases h : f a <;> simp [h, ih, List.count_cons] <;> omega

theorem countP_eq {α : Type} (p : α → Bool) (l : List α) : l.countP p = wsum (fun a => if p a then 1 else 0) l := by
  induction l with
  | nil => rfl
  | cons a l ih => by_cases h : p a <;> simp [h, ih] <;> omega

/-- One for a handle that has its connection. -/
def liveW (h : UHandle) : Nat := (h.conn.map (·.id)).toList.length

theorem inUse_length (s : St) : (inUse s).length = wsum liveW s.out := length_filterMap _ _

/-- One for a call that holds a connection. -/
def heldW (pc : Pc) : Nat := (held pc).toList.length

theorem connections_length (s : St) :
    (connections s).length = s.new.toList.length + s.idle.length + wsum liveW s.out + wsum heldW s.threads := by
  unfold connections
  rw [List.length_append, List.length_append, List.length_append, length_filterMap, length_filterMap]
  simp
  rfl

/-! ### One event -/

theorem pollOpening_threads (cfg : Cfg) (s : St) (t : Nat) (f : Opening) (o : Outcome) : (pollOpening cfg s t f o).1.threads = s.threads := by
  unfold pollOpening
  cases f.asked <;> simp <;> cases h : getAddr cfg.hosts s.connectionsNum <;> cases o <;> simp

/-- The shared state after one step of a call has the same calls in progress. -/
theorem stepPc_threads (cfg : Cfg) (s : St) (o : Outcome) (pc : Pc) : (stepPc cfg s o pc).1.threads = s.threads := by
  cases pc
  case polling => exact pollOpening_threads ..
  case poll => simp only [stepPc]; cases s.new <;> rfl
  case notYet => simp only [stepPc]; cases s.new <;> rfl
  case create => simp only [stepPc]; cases s.new <;> rfl
  case take => simp only [stepPc]; cases s.idle <;> rfl
  case wakeAll => simp only [stepPc]; cases s.tasks <;> rfl
  case releaseWake => simp only [stepPc]; cases s.tasks <;> rfl
  case opened => simp only [stepPc]; split <;> rfl
  case giveBack => simp only [stepPc]; split <;> rfl
  case store => simp only [stepPc]; split <;> rfl
  case countOngoing => simp only [stepPc]; (repeat' split) <;> rfl
  all_goals rfl

theorem run_inv {cfg : Cfg} {s s' : St} {i : Nat} {o : Outcome} (h : step cfg s (.run i o) = some s') :
    ∃ pc, s.threads[i]? = some pc ∧ (∀ e, pc ≠ .done e) ∧
      s' = { (stepPc cfg s o pc).1 with threads := s.threads.set i (stepPc cfg s o pc).2 } := by
  simp only [step] at h
  split at h
  · simp at h
  · simp at h
  · rename_i pc hn hp
    refine ⟨pc, hp, fun e he => hn e he, ?_⟩
    simpa using h.symm

/-! ### The in-use counter -/

theorem incr_mod (n : Nat) : incr n % usize = (n + 1) % usize := by
  unfold incr
  simp

theorem decr_mod (n : Nat) : (decr n + 1) % usize = n % usize := by
  unfold decr
  split
  · next h => subst h; simp [usize]
  · next h => rw [Nat.sub_add_cancel (by omega)]

/-- One if the condition holds. -/
def one (p : Pc → Bool) (pc : Pc) : Nat := if p pc then 1 else 0

/-- The connection of a call that has taken one is marked as in use. -/
def pcInside : Pc → Prop
  | .taken _ h => h.conn.inside = false
  | _ => True

/-- Connections in the hands of the users are marked so. -/
structure Marked (s : St) : Prop where
  out : ∀ h ∈ s.out, ∀ c, h.conn = some c → c.inside = false
  threads : ∀ pc ∈ s.threads, pcInside pc

theorem stepPc_marked {cfg : Cfg} {s : St} {o : Outcome} {pc : Pc} (h : Marked s) (hp : pc ∈ s.threads) :
    (∀ h ∈ (stepPc cfg s o pc).1.out, ∀ c, h.conn = some c → c.inside = false) ∧ pcInside (stepPc cfg s o pc).2 := by
  have hm := h.threads pc hp
  have ho := h.out
  cases pc
  case polling t f =>
    simp only [stepPc, pollOpening]
    cases f.asked <;> simp <;> cases getAddr cfg.hosts s.connectionsNum <;> cases o <;> simp [pcInside] <;> simpa using ho
  case poll => simp only [stepPc]; cases s.new <;> exact ⟨ho, trivial⟩
  case notYet => simp only [stepPc]; cases s.new <;> exact ⟨ho, trivial⟩
  case create => simp only [stepPc]; cases s.new <;> exact ⟨ho, trivial⟩
  case take =>
    simp only [stepPc]
    cases s.idle
    · exact ⟨ho, trivial⟩
    · exact ⟨ho, rfl⟩
  case wakeAll => simp only [stepPc]; cases s.tasks <;> exact ⟨ho, trivial⟩
  case releaseWake => simp only [stepPc]; cases s.tasks <;> exact ⟨ho, trivial⟩
  case opened => simp only [stepPc]; split <;> exact ⟨ho, trivial⟩
  case giveBack => simp only [stepPc]; split <;> exact ⟨ho, trivial⟩
  case store => simp only [stepPc]; split <;> exact ⟨ho, trivial⟩
  case countOngoing => simp only [stepPc]; (repeat' split) <;> exact ⟨ho, trivial⟩
  case taken t h =>
    refine ⟨?_, trivial⟩
    intro x hx c hc
    simp only [stepPc, List.mem_append, List.mem_singleton] at hx
    rcases hx with hx | hx
    · exact ho x hx c hc
    · subst hx
      simp at hc
      subst hc
      exact hm
  all_goals exact ⟨ho, trivial⟩

theorem mem_append_or {α : Type} {a : α} {l l' : List α} (h : a ∈ l ++ l') : a ∈ l ∨ a ∈ l' := by simpa using h

theorem dropConn_marked (c : PConn) : ∀ pc ∈ dropConn c, pcInside pc := by
  intro pc hp
  unfold dropConn at hp
  split at hp
  · simp at hp
  · simp at hp; subst hp; trivial

theorem dropHandle_marked (h : UHandle) : ∀ pc ∈ dropHandle h, pcInside pc := by
  intro pc hp
  unfold dropHandle at hp
  split at hp
  · simp at hp
  · exact dropConn_marked _ pc hp
  · simp at hp; subst hp; trivial

theorem step_marked {cfg : Cfg} {s s' : St} {e : Ev} (h : Marked s) (he : step cfg s e = some s') : Marked s' := by
  cases e with
  | poll t =>
    simp [step] at he
    subst he
    refine ⟨h.out, ?_⟩
    intro pc hp
    rcases mem_append_or hp with hp | hp
    · exact h.threads pc hp
    · simp at hp; subst hp; trivial
  | run i o =>
    obtain ⟨pc, hp, hn, rfl⟩ := run_inv he
    have := stepPc_marked (cfg := cfg) (o := o) h (List.mem_of_getElem? hp)
    refine ⟨this.1, ?_⟩
    intro x hx
    rcases List.mem_or_eq_of_mem_set hx with hx | hx
    · exact h.threads x hx
    · subst hx; exact this.2
  | drop j =>
    simp only [step] at he
    split at he
    · simp at he
    · rename_i x hx
      simp at he
      subst he
      refine ⟨?_, ?_⟩
      · intro y hy c hc
        rcases List.mem_or_eq_of_mem_set hy with hy | hy
        · exact h.out y hy c hc
        · subst hy; simp at hc
      · intro pc hp
        rcases mem_append_or hp with hp | hp
        · exact h.threads pc hp
        · exact dropHandle_marked _ pc hp
  | lose j =>
    simp only [step] at he
    split at he
    · rename_i c b hx
      simp at he
      subst he
      refine ⟨?_, ?_⟩
      · intro y hy c hc
        rcases List.mem_or_eq_of_mem_set hy with hy | hy
        · exact h.out y hy c hc
        · subst hy; simp at hc
      · intro pc hp
        rcases mem_append_or hp with hp | hp
        · exact h.threads pc hp
        · exact dropConn_marked _ pc hp
    · simp at he
  | rebind j b =>
    simp only [step] at he
    split at he
    · rename_i x hx
      split at he
      · simp at he
        subst he
        refine ⟨?_, h.threads⟩
        intro y hy c hc
        rcases List.mem_or_eq_of_mem_set hy with hy | hy
        · exact h.out y hy c hc
        · subst hy
          exact h.out x (List.mem_of_getElem? hx) c hc
      · simp at he
    · simp at he
  | io =>
    simp only [step] at he
    split at he
    · simp at he
      subst he
      exact ⟨h.out, h.threads⟩
    · simp at he

theorem reach_marked {cfg : Cfg} {s : St} (h : Reach cfg s) : Marked s := by
  induction h with
  | init => exact ⟨by simp [St.init], by simp [St.init]⟩
  | step e _ he ih => exact step_marked ih he

/-- What the counter leaves out, or counts too little. -/
def under (pc : Pc) : Nat := one miscounted pc

/-- The counter and the connections in use agree up to the calls in progress. -/
def Balanced (s : St) : Prop :=
  (s.ongoing + wsum under s.threads) % usize = (wsum liveW s.out + wsum (one stillCounted) s.threads) % usize

theorem stepPc_balance (cfg : Cfg) (s : St) (o : Outcome) (pc : Pc) :
    ((stepPc cfg s o pc).1.ongoing + under (stepPc cfg s o pc).2 + wsum liveW s.out + one stillCounted pc) % usize =
      (s.ongoing + under pc + wsum liveW (stepPc cfg s o pc).1.out + one stillCounted (stepPc cfg s o pc).2) % usize := by
  cases pc
  case polling t f =>
    simp only [stepPc, pollOpening]
    cases f.asked <;> simp <;> cases getAddr cfg.hosts s.connectionsNum <;> cases o <;>
      simp [under, one, miscounted, stillCounted]
  case poll => simp only [stepPc]; cases s.new <;> simp [under, one, miscounted, stillCounted]
  case notYet => simp only [stepPc]; cases s.new <;> simp [under, one, miscounted, stillCounted]
  case create => simp only [stepPc]; cases s.new <;> simp [under, one, miscounted, stillCounted]
  case take => simp only [stepPc]; cases s.idle <;> simp [under, one, miscounted, stillCounted]
  case wakeAll h p =>
    simp only [stepPc]; cases s.tasks <;> cases p <;> simp [under, one, miscounted, stillCounted]
  case releaseWake => simp only [stepPc]; cases s.tasks <;> simp [under, one, miscounted, stillCounted]
  case opened => simp only [stepPc]; split <;> simp [under, one, miscounted, stillCounted]
  case giveBack h p =>
    simp only [stepPc]; split <;> cases p <;> simp [under, one, miscounted, stillCounted]
  case store h p => simp only [stepPc]; split <;> cases p <;> simp [under, one, miscounted, stillCounted]
  case countOngoing =>
    simp only [stepPc]; (repeat' split) <;> simp [under, one, miscounted, stillCounted]
  case taken t h =>
    have := incr_mod s.ongoing
    simp [stepPc, under, one, miscounted, stillCounted, liveW]
    unfold usize at *
    omega
  case dec h p =>
    have := decr_mod s.ongoing
    cases p <;> simp [stepPc, under, one, miscounted, stillCounted] <;>
      unfold usize at * <;> omega
  case release =>
    have := decr_mod s.ongoing
    simp [stepPc, under, one, miscounted, stillCounted]
    unfold usize at *
    omega
  case done e => cases e <;> simp [stepPc, under, one, miscounted, stillCounted]
  all_goals simp [stepPc, under, one, miscounted, stillCounted]

theorem dropConn_balance {c : PConn} (h : c.inside = false) :
    wsum under (dropConn c) = 0 ∧ wsum (one stillCounted) (dropConn c) = 1 := by
  unfold dropConn
  simp [h, under, one, miscounted, stillCounted]

theorem dropHandle_balance {h : UHandle} (hi : ∀ c, h.conn = some c → c.inside = false) :
    wsum under (dropHandle h) = 0 ∧ wsum (one stillCounted) (dropHandle h) = liveW h := by
  unfold dropHandle
  obtain ⟨c, b⟩ := h
  cases c with
  | none => simp [liveW]
  | some c =>
    have hc := hi c rfl
    cases b with
    | none => exact dropConn_balance hc
    | attached => simp [under, one, miscounted, stillCounted, liveW]
    | detached => simp [under, one, miscounted, stillCounted, liveW]

theorem step_balance {cfg : Cfg} {s s' : St} {e : Ev} (hm : Marked s) (h : Balanced s) (he : step cfg s e = some s') :
    Balanced s' := by
  unfold Balanced at *
  cases e with
  | poll t =>
    simp [step] at he
    subst he
    simp [under, one, miscounted, stillCounted]
    simpa using h
  | run i o =>
    obtain ⟨pc, hp, hn, rfl⟩ := run_inv he
    have h1 := stepPc_balance cfg s o pc
    have h2 := wsum_set under s.threads i pc (stepPc cfg s o pc).2 hp
    have h3 := wsum_set (one stillCounted) s.threads i pc (stepPc cfg s o pc).2 hp
    simp only
    unfold usize at *
    omega
  | drop j =>
    simp only [step] at he
    split at he
    · simp at he
    · rename_i x hx
      simp at he
      subst he
      have h1 := dropHandle_balance (hm.out x (List.mem_of_getElem? hx))
      have h2 := wsum_set liveW s.out j x ⟨none, .none⟩ hx
      have h3 : liveW ⟨none, .none⟩ = 0 := rfl
      simp only [wsum_append]
      rw [h1.1, h1.2]
      unfold usize at *
      omega
  | lose j =>
    simp only [step] at he
    split at he
    · rename_i c b hx
      simp at he
      subst he
      have h1 := dropConn_balance (hm.out _ (List.mem_of_getElem? hx) c rfl)
      have h2 := wsum_set liveW s.out j _ ⟨none, b⟩ hx
      have h3 : liveW ⟨none, b⟩ = 0 := rfl
      have h4 : liveW ⟨some c, b⟩ = 1 := rfl
      simp only [wsum_append]
      rw [h1.1, h1.2]
      unfold usize at *
      omega
    · simp at he
  | rebind j b =>
    simp only [step] at he
    split at he
    · rename_i x hx
      split at he
      · simp at he
        subst he
        have h2 := wsum_set liveW s.out j x { x with binding := b } hx
        have h3 : liveW { x with binding := b } = liveW x := rfl
        simp only
        unfold usize at *
        omega
      · simp at he
    · simp at he
  | io =>
    simp only [step] at he
    split at he
    · simp at he
      subst he
      exact h
    · simp at he

theorem reach_balanced {cfg : Cfg} {s : St} (h : Reach cfg s) : Balanced s := by
  induction h with
  | init => rfl
  | step e hr he ih => exact step_balance (reach_marked hr) ih he

/-! ### No connection is in two places -/

/-- How often a number occurs among the connections outside the calls in progress. -/
def occ (k : Nat) (s : St) : Nat :=
  wsum (fun f : Opening => [f.id].count k) s.new.toList + wsum (fun h : PHandle => [h.conn.id].count k) s.idle
    + wsum (fun h : UHandle => (h.conn.map (·.id)).toList.count k) s.out

/-- How often it occurs in a call. -/
def occPc (k : Nat) (pc : Pc) : Nat := (held pc).toList.count k

theorem count_map {α : Type} (f : α → Nat) (k : Nat) (l : List α) : (l.map f).count k = wsum (fun a => [f a].count k) l := by
  induction l with
  | nil => rfl
  | cons a l ih => simp [ih, List.count_cons]; omega

theorem connections_count (s : St) (k : Nat) : (connections s).count k = occ k s + wsum (occPc k) s.threads := by
  unfold connections
  rw [List.count_append, List.count_append, List.count_append, count_filterMap, count_filterMap, count_map, count_map]
  rfl

theorem stepPc_occ (cfg : Cfg) (s : St) (o : Outcome) (pc : Pc) (k : Nat) :
    s.nextId ≤ (stepPc cfg s o pc).1.nextId ∧
    (occ k (stepPc cfg s o pc).1 + occPc k (stepPc cfg s o pc).2 ≤ occ k s + occPc k pc ∨
     k = s.nextId ∧ (stepPc cfg s o pc).1.nextId = s.nextId + 1 ∧
      occ k (stepPc cfg s o pc).1 + occPc k (stepPc cfg s o pc).2 ≤ occ k s + occPc k pc + 1) := by
  cases pc
  case polling t f =>
    refine ⟨?_, Or.inl ?_⟩ <;> simp only [stepPc, pollOpening] <;>
    cases f.asked <;> simp <;> cases getAddr cfg.hosts s.connectionsNum <;> cases o <;>
      simp [occ, occPc, held]
  case poll => simp only [stepPc]; cases h : s.new <;> simp [occ, occPc, held, h]; omega
  case notYet => simp only [stepPc]; cases h : s.new <;> simp [occ, occPc, held, h]; omega
  case create t =>
    simp only [stepPc]
    cases h : s.new
    · by_cases hk : k = s.nextId
      · simp [occ, occPc, held, h, hk]
        omega
      · simp [occ, occPc, held, h, Ne.symm hk]
    · simp [occ, occPc, held, h]
  case take => simp only [stepPc]; cases h : s.idle <;> simp [occ, occPc, held, h]; omega
  case wakeAll h p => simp only [stepPc]; cases s.tasks <;> simp [occ, occPc, held]
  case releaseWake => simp only [stepPc]; cases s.tasks <;> simp [occ, occPc, held]
  case opened => simp only [stepPc]; split <;> simp [occ, occPc, held]; omega
  case giveBack h p => simp only [stepPc]; split <;> simp [occ, occPc, held]
  case store h p => simp only [stepPc]; split <;> simp [occ, occPc, held]; omega
  case countOngoing => simp only [stepPc]; (repeat' split) <;> simp [occ, occPc, held]
  case taken t h => simp [stepPc, occ, occPc, held]; omega
  all_goals simp [stepPc, occ, occPc, held]

theorem dropConn_occ (c : PConn) (k : Nat) : wsum (occPc k) (dropConn c) = 0 := by
  unfold dropConn
  split <;> simp [occPc, held]

theorem dropHandle_occ (h : UHandle) (k : Nat) :
    wsum (occPc k) (dropHandle h) ≤ (h.conn.map (·.id)).toList.count k := by
  unfold dropHandle
  obtain ⟨c, b⟩ := h
  cases c with
  | none => simp
  | some c =>
    cases b with
    | none => simp [dropConn_occ]
    | attached => simp [occPc, held]
    | detached => simp [occPc, held]

/-- Every connection has a number of its own, given out before. -/
def Distinct (s : St) : Prop :=
  ∀ k, occ k s + wsum (occPc k) s.threads ≤ 1 ∧ (s.nextId ≤ k → occ k s + wsum (occPc k) s.threads = 0)

theorem step_distinct {cfg : Cfg} {s s' : St} {e : Ev} (h : Distinct s) (he : step cfg s e = some s') : Distinct s' := by
  intro k
  have hk := h k
  cases e with
  | poll t =>
    simp [step] at he
    subst he
    have : occ k { s with threads := s.threads ++ [.poll t] } = occ k s := rfl
    rw [this]
    simpa [occPc, held] using hk
  | run i o =>
    obtain ⟨pc, hp, hn, rfl⟩ := run_inv he
    obtain ⟨h1, h2⟩ := stepPc_occ cfg s o pc k
    have h3 := wsum_set (occPc k) s.threads i pc (stepPc cfg s o pc).2 hp
    have h4 := wsum_le (w := occPc k) hp
    have : occ k { (stepPc cfg s o pc).1 with threads := s.threads.set i (stepPc cfg s o pc).2 } =
      occ k (stepPc cfg s o pc).1 := rfl
    rw [this]
    simp only
    omega
  | drop j =>
    simp only [step] at he
    split at he
    · simp at he
    · rename_i x hx
      simp at he
      subst he
      have h1 := dropHandle_occ x k
      have h2 := wsum_set (fun h : UHandle => (h.conn.map (·.id)).toList.count k) s.out j x ⟨none, .none⟩ hx
      simp only [occ, wsum_append] at hk ⊢
      simp only [Option.map_none, Option.toList_none, List.count_nil] at h2
      omega
  | lose j =>
    simp only [step] at he
    split at he
    · rename_i c b hx
      simp at he
      subst he
      have h1 := dropConn_occ c k
      have h2 := wsum_set (fun h : UHandle => (h.conn.map (·.id)).toList.count k) s.out j _ ⟨none, b⟩ hx
      simp only [occ, wsum_append] at hk ⊢
      simp only [Option.map_none, Option.toList_none, List.count_nil] at h2
      omega
    · simp at he
  | rebind j b =>
    simp only [step] at he
    split at he
    · rename_i x hx
      split at he
      · simp at he
        subst he
        have h2 := wsum_set (fun h : UHandle => (h.conn.map (·.id)).toList.count k) s.out j x { x with binding := b } hx
        simp only [occ] at hk ⊢
        simp only at h2
        omega
      · simp at he
    · simp at he
  | io =>
    simp only [step] at he
    split at he
    · simp at he
      subst he
      exact hk
    · simp at he

theorem reach_distinct {cfg : Cfg} {s : St} (h : Reach cfg s) : Distinct s := by
  induction h with
  | init => intro k; simp [occ, St.init]
  | step e hr he ih => exact step_distinct ih he

/-! ### One call at a time -/

/-- One for a call in progress. -/
def busyW (pc : Pc) : Nat :=
  match pc with
  | .done _ => 0
  | _ => 1

/-- What is known when a call has got so far and no other call is in progress. -/
def pcOk (cfg : Cfg) (s : St) : Pc → Prop
  | .polling _ _ => s.new = none
  | .opened _ _ => s.new = none
  | .notYet _ f => s.new = none ∧ f.waker.isSome
  | .count _ => s.idle = []
  | .countNew _ n => s.idle = [] ∧ n = s.new.toList.length
  | .countOngoing _ n g => s.idle = [] ∧ n = s.new.toList.length ∧ g = s.ongoing
  | .create _ => s.idle = [] ∧ s.new.toList.length + s.idle.length + s.ongoing < cfg.max
  | .wait _ => s.idle = [] ∧ (s.new = none → cfg.max ≤ s.ongoing)
  | .giveBack _ p => p = false
  | .store _ p => p = false
  | .dec _ p => p = false
  | .wakeAll _ p => p = false
  | .done e => e ≠ .overflowed
  | _ => True

theorem decr_pos {n : Nat} (h : 0 < n) : decr n = n - 1 := by
  unfold decr
  rw [if_neg (by omega)]

theorem incr_small {n : Nat} (h : n + 1 < usize) : incr n = n + 1 := by
  unfold incr
  exact Nat.mod_eq_of_lt h

/-- What holds between events when calls do not overlap. -/
structure SeqInv (cfg : Cfg) (s : St) : Prop where
  busy : wsum busyW s.threads ≤ 1
  ok : ∀ pc ∈ s.threads, pcOk cfg s pc
  cap : s.new.toList.length + s.idle.length + wsum liveW s.out + wsum heldW s.threads ≤ cfg.max
  exact : s.ongoing = wsum liveW s.out + wsum (one stillCounted) s.threads
  waker : ∀ f, s.new = some f → f.waker.isSome ∨ ∃ t, .poll t ∈ s.threads

theorem stepPc_seq {cfg : Cfg} {s : St} {o : Outcome} {pc : Pc} (hw : cfg.max < usize) (hn : ∀ e, pc ≠ .done e)
    (hok : pcOk cfg s pc) (hcap : s.new.toList.length + s.idle.length + wsum liveW s.out + heldW pc ≤ cfg.max)
    (hex : s.ongoing = wsum liveW s.out + one stillCounted pc) :
    pcOk cfg (stepPc cfg s o pc).1 (stepPc cfg s o pc).2 ∧
    (stepPc cfg s o pc).1.new.toList.length + (stepPc cfg s o pc).1.idle.length + wsum liveW (stepPc cfg s o pc).1.out
      + heldW (stepPc cfg s o pc).2 ≤ cfg.max ∧
    (stepPc cfg s o pc).1.ongoing = wsum liveW (stepPc cfg s o pc).1.out + one stillCounted (stepPc cfg s o pc).2 := by
  cases pc
  case polling t f =>
    simp [pcOk] at hok
    simp only [stepPc, pollOpening]
    simp [hok, one, stillCounted, heldW, held] at hcap hex
    cases f.asked <;> simp <;> cases getAddr cfg.hosts s.connectionsNum <;> cases o <;>
      simp [pcOk, heldW, held, one, stillCounted, hok] <;> omega
  case poll =>
    simp [heldW, held, one, stillCounted] at hcap hex
    simp only [stepPc]
    cases h : s.new <;> simp [pcOk, heldW, held, one, stillCounted, h] at hcap ⊢ <;> omega
  case notYet =>
    simp [pcOk] at hok
    simp [heldW, held, one, stillCounted, hok] at hcap hex
    simp only [stepPc]
    simp [hok, pcOk, heldW, held, one, stillCounted]
    omega
  case create t =>
    simp [pcOk] at hok
    simp [heldW, held, one, stillCounted, hok] at hcap hex
    simp only [stepPc]
    cases h : s.new <;> simp [pcOk, heldW, held, one, stillCounted, h, hok] at hok hcap ⊢ <;> omega
  case take =>
    simp [heldW, held, one, stillCounted] at hcap hex
    simp only [stepPc]
    cases h : s.idle <;> simp [pcOk, heldW, held, one, stillCounted, h] at hcap ⊢ <;> omega
  case wakeAll h p =>
    simp [pcOk] at hok
    subst hok
    simp [heldW, held, one, stillCounted] at hcap hex
    simp only [stepPc]
    cases s.tasks <;> simp [pcOk, heldW, held, one, stillCounted] <;> omega
  case releaseWake =>
    simp [heldW, held, one, stillCounted] at hcap hex
    simp only [stepPc]
    cases s.tasks <;> simp [pcOk, heldW, held, one, stillCounted] <;> omega
  case opened =>
    simp [pcOk] at hok
    simp [heldW, held, one, stillCounted, hok] at hcap hex
    simp only [stepPc]
    rw [if_pos (by omega)]
    simp [pcOk, heldW, held, one, stillCounted, hok]
    omega
  case giveBack h p =>
    simp [pcOk] at hok
    subst hok
    simp [heldW, held, one, stillCounted] at hcap hex
    simp only [stepPc]
    split <;> simp [pcOk, heldW, held, one, stillCounted] <;> omega
  case store h p =>
    simp [pcOk] at hok
    subst hok
    simp [heldW, held, one, stillCounted] at hcap hex
    simp only [stepPc]
    split <;> simp [pcOk, heldW, held, one, stillCounted] <;> omega
  case dec h p =>
    simp [pcOk] at hok
    subst hok
    simp [heldW, held, one, stillCounted] at hcap hex
    simp only [stepPc]
    rw [decr_pos (by omega)]
    simp [pcOk, heldW, held, one, stillCounted]
    omega
  case release =>
    simp [heldW, held, one, stillCounted] at hcap hex
    simp only [stepPc]
    rw [decr_pos (by omega)]
    simp [pcOk, heldW, held, one, stillCounted]
    omega
  case count =>
    simp [pcOk] at hok
    simp [heldW, held, one, stillCounted] at hcap hex
    simp [stepPc, pcOk, heldW, held, one, stillCounted, hok] at hcap ⊢
    omega
  case countNew =>
    simp [pcOk] at hok
    simp [heldW, held, one, stillCounted] at hcap hex
    simp [stepPc, pcOk, heldW, held, one, stillCounted, hok] at hcap ⊢
    omega
  case countOngoing t n g =>
    obtain ⟨h1, h2, h3⟩ := hok
    subst h2 h3
    simp [heldW, held, one, stillCounted, h1] at hcap hex
    simp only [stepPc, h1]
    split
    · simp [pcOk, heldW, held, one, stillCounted, h1] <;> omega
    · split
      · simp [pcOk, heldW, held, one, stillCounted, h1] at * <;> omega
      · rename_i h
        refine ⟨⟨h1, ?_⟩, ?_⟩
        · intro h4
          have h4 : s.new = none := h4
          change cfg.max ≤ s.ongoing
          rw [h4] at h
          simp at h
          omega
        · simp [heldW, held, one, stillCounted, h1]; omega
  case taken t h =>
    simp [heldW, held, one, stillCounted] at hcap hex
    simp only [stepPc]
    rw [incr_small (by omega)]
    simp [pcOk, heldW, held, one, stillCounted, liveW]
    omega
  case wait t =>
    simp [heldW, held, one, stillCounted] at hcap hex
    simp [stepPc, pcOk, heldW, held, one, stillCounted]
    omega
  case done e => exact absurd rfl (hn e)

theorem heldW_done (e : End) : heldW (.done e) = 0 := rfl

theorem wsum_busy {w : Pc → Nat} {l : List Pc} {i : Nat} {pc : Pc} (hw : ∀ e, w (.done e) = 0)
    (hb : wsum busyW l ≤ 1) (hi : l[i]? = some pc) (hn : ∀ e, pc ≠ .done e) : wsum w l = w pc := by
  have key : ∀ l : List Pc, wsum busyW l = 0 → wsum w l = 0 := by
    intro l
    induction l with
    | nil => intro; rfl
    | cons x l ih =>
      intro h
      simp only [wsum_cons] at h ⊢
      have hx : busyW x = 0 := by omega
      have : w x = 0 := by
        cases x <;> simp [busyW] at hx
        exact hw _
      rw [this, ih (by omega)]
  have h1 : busyW pc = 1 := by
    cases pc <;> simp [busyW]
    exact hn _ rfl
  induction l generalizing i with
  | nil => simp at hi
  | cons x l ih =>
    simp only [wsum_cons] at hb ⊢
    cases i with
    | zero =>
      simp at hi
      subst hi
      rw [key l (by omega)]
      simp
    | succ i =>
      simp at hi
      have h2 := wsum_le (w := busyW) hi
      have hx : busyW x = 0 := by omega
      have : w x = 0 := by
        cases x <;> simp [busyW] at hx
        exact hw _
      rw [this, ih (by omega) hi]
      simp

theorem others_done {l : List Pc} {i : Nat} {pc : Pc} (hb : wsum busyW l ≤ 1) (hi : l[i]? = some pc)
    (hn : ∀ e, pc ≠ .done e) (j : Nat) (pc' : Pc) (hj : l[j]? = some pc') (hij : i ≠ j) : ∃ e, pc' = .done e := by
  have h1 : busyW pc = 1 := by
    cases pc <;> simp [busyW]
    exact hn _ rfl
  have h2 := wsum_set busyW l i pc (.done .finished) hi
  have h3 : (l.set i (.done .finished))[j]? = some pc' := by
    rw [List.getElem?_set_ne hij]
    exact hj
  have h4 := wsum_le (w := busyW) h3
  have h5 : busyW (.done .finished) = 0 := rfl
  have h6 : busyW pc' = 0 := by omega
  cases pc' <;> simp [busyW] at h6
  exact ⟨_, rfl⟩

theorem quiet_sums {s : St} (h : Quiet s) : wsum busyW s.threads = 0 ∧ wsum heldW s.threads = 0 ∧
    wsum (one stillCounted) s.threads = 0 := by
  unfold Quiet at h
  revert h
  generalize s.threads = l
  intro h
  induction l with
  | nil => simp
  | cons x l ih =>
    obtain ⟨e, rfl⟩ := h x (by simp)
    have := ih fun pc hp => h pc (by simp [hp])
    simp [this, busyW, heldW, held, one, stillCounted]

theorem pcOk_done (cfg : Cfg) (s : St) {e : End} (h : e ≠ .overflowed) : pcOk cfg s (.done e) := h

theorem quiet_ok {cfg : Cfg} {s s' : St} (h : Quiet s) (ho : ∀ pc ∈ s.threads, pcOk cfg s pc) :
    ∀ pc ∈ s.threads, pcOk cfg s' pc := by
  intro pc hp
  obtain ⟨e, rfl⟩ := h pc hp
  exact ho _ hp

theorem one_done (e : End) : one stillCounted (.done e) = 0 := rfl

/-- After a step the future in `new` has been polled, unless the call that put it there goes on to poll it. -/
theorem stepPc_waker {cfg : Cfg} {s : St} {o : Outcome} {pc : Pc} (hok : pcOk cfg s pc)
    (h : ∀ f, s.new = some f → f.waker.isSome ∨ ∃ t, pc = .poll t) :
    ∀ f, (stepPc cfg s o pc).1.new = some f → f.waker.isSome ∨ ∃ t, (stepPc cfg s o pc).2 = .poll t := by
  cases pc
  case poll => simp only [stepPc]; cases hn : s.new <;> simp [hn]
  case notYet t f =>
    simp [pcOk] at hok
    simp [stepPc, hok]
  case create t =>
    simp only [stepPc]
    cases hn : s.new
    · simp
    · simpa using h
  all_goals simp at h
  case polling t f =>
    simp [pcOk] at hok
    simp only [stepPc, pollOpening]
    cases f.asked <;> simp <;> cases getAddr cfg.hosts s.connectionsNum <;> cases o <;> simp [hok]
  all_goals intro f hf; refine Or.inl (h f ?_); simp only [stepPc] at hf
  case take => revert hf; cases s.idle <;> exact id
  case wakeAll => revert hf; cases s.tasks <;> exact id
  case releaseWake => revert hf; cases s.tasks <;> exact id
  all_goals first | exact hf | (revert hf; (repeat' split) <;> exact id)

theorem start_seq {cfg : Cfg} {s s' : St} {pcs : List Pc} (h : SeqInv cfg s) (hq : Quiet s)
    (ht : s'.threads = s.threads ++ pcs) (hnew : s'.new = s.new) (hidle : s'.idle = s.idle) (hon : s'.ongoing = s.ongoing)
    (hb : wsum busyW pcs ≤ 1) (hok : ∀ pc ∈ pcs, pcOk cfg s' pc)
    (hcap : wsum liveW s'.out + wsum heldW pcs ≤ wsum liveW s.out)
    (hex : wsum liveW s'.out + wsum (one stillCounted) pcs = wsum liveW s.out) : SeqInv cfg s' := by
  obtain ⟨q1, q2, q3⟩ := quiet_sums hq
  refine ⟨?_, ?_, ?_, ?_, ?_⟩
  · rw [ht, wsum_append]; omega
  · intro pc hp
    rw [ht] at hp
    rcases mem_append_or hp with hp | hp
    · exact quiet_ok hq h.ok pc hp
    · exact hok pc hp
  · rw [ht, wsum_append, hnew, hidle]
    have := h.cap
    omega
  · rw [ht, wsum_append, hon]
    have := h.exact
    omega
  · intro f hf
    rw [hnew] at hf
    rcases h.waker f hf with hw | ⟨t, hw⟩
    · exact Or.inl hw
    · obtain ⟨e, he⟩ := hq _ hw
      simp at he

theorem dropConn_seq {c : PConn} (h : c.inside = false) (cfg : Cfg) (s : St) : wsum busyW (dropConn c) ≤ 1 ∧
    (∀ pc ∈ dropConn c, pcOk cfg s pc) ∧ wsum heldW (dropConn c) = 0 ∧ wsum (one stillCounted) (dropConn c) = 1 := by
  unfold dropConn
  simp [h, busyW, heldW, held, one, stillCounted, pcOk]

theorem dropHandle_seq {h : UHandle} (hi : ∀ c, h.conn = some c → c.inside = false) (cfg : Cfg) (s : St) :
    wsum busyW (dropHandle h) ≤ 1 ∧ (∀ pc ∈ dropHandle h, pcOk cfg s pc) ∧ wsum heldW (dropHandle h) ≤ liveW h ∧
      wsum (one stillCounted) (dropHandle h) = liveW h := by
  unfold dropHandle
  obtain ⟨c, b⟩ := h
  cases c with
  | none => simp [liveW]
  | some c =>
    have hc := hi c rfl
    cases b with
    | none =>
      obtain ⟨h1, h2, h3, h4⟩ := dropConn_seq hc cfg s
      exact ⟨h1, h2, by simp [h3], h4⟩
    | attached => simp [busyW, heldW, held, one, stillCounted, pcOk, liveW]
    | detached => simp [busyW, heldW, held, one, stillCounted, pcOk, liveW]

theorem step_seq {cfg : Cfg} {s s' : St} {e : Ev} (hw : cfg.max < usize) (hm : Marked s) (h : SeqInv cfg s)
    (hq : starts e → Quiet s) (he : step cfg s e = some s') : SeqInv cfg s' := by
  cases e with
  | poll t =>
    simp [step] at he
    subst he
    exact start_seq h (hq trivial) (pcs := [.poll t]) rfl rfl rfl rfl (by simp [busyW]) (by simp [pcOk])
      (by simp [heldW, held]) (by simp [one, stillCounted])
  | run i o =>
    obtain ⟨pc, hp, hn, rfl⟩ := run_inv he
    have hmem := List.mem_of_getElem? hp
    have e1 := wsum_busy (w := heldW) heldW_done h.busy hp hn
    have e2 := wsum_busy (w := one stillCounted) one_done h.busy hp hn
    have hcap := h.cap
    have hex := h.exact
    rw [e1] at hcap
    rw [e2] at hex
    obtain ⟨h1, h2, h3⟩ := stepPc_seq (o := o) hw hn (h.ok pc hmem) hcap hex
    have w1 := wsum_set heldW s.threads i pc (stepPc cfg s o pc).2 hp
    have w2 := wsum_set (one stillCounted) s.threads i pc (stepPc cfg s o pc).2 hp
    have w3 := wsum_set busyW s.threads i pc (stepPc cfg s o pc).2 hp
    have b1 : busyW pc = 1 := by
      cases pc <;> simp [busyW]
      exact hn _ rfl
    have b2 : busyW (stepPc cfg s o pc).2 ≤ 1 := by
      generalize (stepPc cfg s o pc).2 = x
      cases x <;> simp [busyW]
    have hb := h.busy
    refine ⟨by simp only; omega, ?_, by simp only; omega, by simp only; omega, ?_⟩
    · intro x hx
      obtain ⟨j, hj⟩ := List.getElem?_of_mem hx
      by_cases hij : i = j
      · subst hij
        have hlt : i < s.threads.length := by
          have := List.getElem?_eq_some_iff.mp hp
          exact this.1
        simp [hlt] at hj
        subst hj
        revert h1
        generalize (stepPc cfg s o pc).2 = y
        intro h1
        cases y <;> exact h1
      · rw [List.getElem?_set_ne hij] at hj
        obtain ⟨e, rfl⟩ := others_done h.busy hp hn j x hj hij
        exact h.ok _ (List.mem_of_getElem? hj)
    · intro f hf
      have hk : ∀ f, s.new = some f → f.waker.isSome ∨ ∃ t, pc = .poll t := by
        intro f hf
        rcases h.waker f hf with hw | ⟨t, ht⟩
        · exact Or.inl hw
        · refine Or.inr ⟨t, ?_⟩
          obtain ⟨j, hj⟩ := List.getElem?_of_mem ht
          by_cases hij : i = j
          · subst hij
            rw [hp] at hj
            exact Option.some.inj hj
          · obtain ⟨e, he⟩ := others_done h.busy hp hn j _ hj hij
            simp at he
      rcases stepPc_waker (o := o) (h.ok pc hmem) hk f hf with hw | ⟨t, ht⟩
      · exact Or.inl hw
      · refine Or.inr ⟨t, ?_⟩
        simp only
        rw [ht]
        have hlt : i < s.threads.length := (List.getElem?_eq_some_iff.mp hp).1
        exact List.mem_iff_getElem?.mpr ⟨i, by simp [hlt]⟩
  | drop j =>
    simp only [step] at he
    split at he
    · simp at he
    · rename_i x hx
      simp at he
      subst he
      obtain ⟨h1, h2, h3, h4⟩ := dropHandle_seq (hm.out x (List.mem_of_getElem? hx)) cfg
        { s with out := s.out.set j ⟨none, .none⟩, threads := s.threads ++ dropHandle x }
      have h5 := wsum_set liveW s.out j x ⟨none, .none⟩ hx
      have h6 : liveW ⟨none, .none⟩ = 0 := rfl
      exact start_seq h (hq trivial) (pcs := dropHandle x) rfl rfl rfl rfl h1 h2 (by simp only; omega) (by simp only; omega)
  | lose j =>
    simp only [step] at he
    split at he
    · rename_i c b hx
      simp at he
      subst he
      obtain ⟨h1, h2, h3, h4⟩ := dropConn_seq (hm.out _ (List.mem_of_getElem? hx) c rfl) cfg
        { s with out := s.out.set j ⟨none, b⟩, threads := s.threads ++ dropConn c }
      have h5 := wsum_set liveW s.out j _ ⟨none, b⟩ hx
      have h6 : liveW ⟨none, b⟩ = 0 := rfl
      have h7 : liveW ⟨some c, b⟩ = 1 := rfl
      exact start_seq h (hq trivial) (pcs := dropConn c) rfl rfl rfl rfl h1 h2 (by simp only; omega) (by simp only; omega)
    · simp at he
  | rebind j b =>
    simp only [step] at he
    split at he
    · rename_i x hx
      split at he
      · simp at he
        subst he
        have h2 := wsum_set liveW s.out j x { x with binding := b } hx
        have h3 : liveW { x with binding := b } = liveW x := rfl
        have hc := h.cap
        have hx := h.exact
        refine ⟨h.busy, ?_, by simp only; omega, by simp only; omega, h.waker⟩
        intro pc hp
        have := h.ok pc hp
        cases pc <;> exact this
      · simp at he
    · simp at he
  | io =>
    simp only [step] at he
    split at he
    · simp at he
      subst he
      refine ⟨h.busy, ?_, h.cap, h.exact, h.waker⟩
      intro pc hp
      have := h.ok pc hp
      cases pc <;> exact this
    · simp at he

theorem SeqReach.reach {cfg : Cfg} {s : St} (h : SeqReach cfg s) : Reach cfg s := by
  induction h with
  | init => exact .init
  | step e _ _ he ih => exact .step e ih he

theorem seq_inv {cfg : Cfg} {s : St} (hw : cfg.max < usize) (h : SeqReach cfg s) : SeqInv cfg s := by
  induction h with
  | init => exact ⟨by simp [St.init], by simp [St.init], by simp [St.init], by simp [St.init], by simp [St.init]⟩
  | step e hr hq he ih => exact step_seq hw (reach_marked (SeqReach.reach hr)) ih hq he

/-! ### Small invariants of every interleaving -/

theorem word_pos : 0 < usize := by decide

theorem incr_lt (n : Nat) : incr n < usize := by
  unfold incr
  exact Nat.mod_lt _ word_pos

theorem decr_lt {n : Nat} (h : n < usize) : decr n < usize := by
  unfold decr
  have := word_pos
  split <;> omega

/-- A property of the shared state that no step of a call destroys, and that does not look at the calls and the handles, holds
always. -/
theorem reach_shared {cfg : Cfg} {P : St → Prop} (h0 : P St.init)
    (hs : ∀ s o pc, P s → P (stepPc cfg s o pc).1)
    (ht : ∀ s threads out woken, P s → P { s with threads := threads, out := out, woken := woken })
    {s : St} (h : Reach cfg s) : P s := by
  induction h with
  | init => exact h0
  | @step s s' e hr he ih =>
    cases e with
    | poll t =>
      simp [step] at he
      subst he
      exact ht s _ _ _ ih
    | run i o =>
      obtain ⟨pc, hp, hn, rfl⟩ := run_inv he
      exact ht _ _ _ _ (hs s o pc ih)
    | drop j =>
      simp only [step] at he
      split at he
      · simp at he
      · simp at he; subst he; exact ht s _ _ _ ih
    | lose j =>
      simp only [step] at he
      split at he
      · simp at he; subst he; exact ht s _ _ _ ih
      · simp at he
    | rebind j b =>
      simp only [step] at he
      split at he
      · split at he
        · simp at he; subst he; exact ht s _ _ _ ih
        · simp at he
      · simp at he
    | io =>
      simp only [step] at he
      split at he
      · simp at he; subst he; exact ht s _ _ _ ih
      · simp at he

theorem stepPc_ongoing (cfg : Cfg) (s : St) (o : Outcome) (pc : Pc) : (stepPc cfg s o pc).1.ongoing = s.ongoing ∨
    (stepPc cfg s o pc).1.ongoing = incr s.ongoing ∨ (stepPc cfg s o pc).1.ongoing = decr s.ongoing := by
  cases pc
  case polling t f =>
    left
    simp only [stepPc, pollOpening]
    cases f.asked <;> simp <;> cases getAddr cfg.hosts s.connectionsNum <;> cases o <;> simp
  case poll => left; simp only [stepPc]; cases s.new <;> rfl
  case notYet => left; simp only [stepPc]; cases s.new <;> rfl
  case create => left; simp only [stepPc]; cases s.new <;> rfl
  case take => left; simp only [stepPc]; cases s.idle <;> rfl
  case wakeAll => left; simp only [stepPc]; cases s.tasks <;> rfl
  case releaseWake => left; simp only [stepPc]; cases s.tasks <;> rfl
  case opened => left; simp only [stepPc]; split <;> rfl
  case giveBack => left; simp only [stepPc]; split <;> rfl
  case store => left; simp only [stepPc]; split <;> rfl
  case countOngoing => left; simp only [stepPc]; (repeat' split) <;> rfl
  case taken => exact Or.inr (Or.inl rfl)
  case dec => exact Or.inr (Or.inr rfl)
  case release => exact Or.inr (Or.inr rfl)
  all_goals exact Or.inl rfl

theorem reach_ongoing_lt {cfg : Cfg} {s : St} (h : Reach cfg s) : s.ongoing < usize := by
  refine reach_shared (P := fun s => s.ongoing < usize) (by decide) ?_ (fun _ _ _ _ h => h) h
  intro s o pc h
  rcases stepPc_ongoing cfg s o pc with e | e | e <;> simp only [e]
  · exact h
  · exact incr_lt _
  · exact decr_lt h

theorem stepPc_idle (cfg : Cfg) (s : St) (o : Outcome) (pc : Pc) (h : s.idle.length ≤ cfg.max) :
    (stepPc cfg s o pc).1.idle.length ≤ cfg.max := by
  cases pc
  case polling t f =>
    simp only [stepPc, pollOpening]
    cases f.asked <;> simp <;> cases getAddr cfg.hosts s.connectionsNum <;> cases o <;> simpa using h
  case poll => simp only [stepPc]; cases s.new <;> exact h
  case notYet => simp only [stepPc]; cases s.new <;> exact h
  case create => simp only [stepPc]; cases s.new <;> exact h
  case take => simp only [stepPc]; cases hi : s.idle <;> simp [hi] at h ⊢; omega
  case wakeAll => simp only [stepPc]; cases s.tasks <;> exact h
  case releaseWake => simp only [stepPc]; cases s.tasks <;> exact h
  case opened =>
    simp only [stepPc]
    split
    · simp; omega
    · exact h
  case giveBack => simp only [stepPc]; split <;> exact h
  case store =>
    simp only [stepPc]
    split
    · simp; omega
    · exact h
  case countOngoing => simp only [stepPc]; (repeat' split) <;> exact h
  all_goals exact h

theorem reach_idle {cfg : Cfg} {s : St} (h : Reach cfg s) : s.idle.length ≤ cfg.max :=
  reach_shared (P := fun s => s.idle.length ≤ cfg.max) (by simp [St.init]) (fun s o pc => stepPc_idle cfg s o pc)
    (fun _ _ _ _ h => h) h

/-! ### Addresses -/

/-- The addresses given so far are the first ones in rotation. -/
def Rotates (cfg : Cfg) (s : St) : Prop :=
  s.connectionsNum = s.addrs.length % usize ∧ ∀ i a, s.addrs[i]? = some a → a = i % usize % cfg.hosts

theorem getAddr_eq {n k : Nat} (h : n ≠ 0) : getAddr n k = some (k % n, incr k) := by
  unfold getAddr
  rw [if_neg h]

theorem rotates_next {cfg : Cfg} {s : St} (h : Rotates cfg s) (s' : St) (hc : s'.connectionsNum = incr s.connectionsNum)
    (ha : s'.addrs = s.addrs ++ [s.connectionsNum % cfg.hosts]) : Rotates cfg s' := by
  obtain ⟨h1, h2⟩ := h
  refine ⟨?_, ?_⟩
  · rw [hc, ha, h1]
    unfold incr
    simp
  · intro i a hi
    rw [ha] at hi
    by_cases hlt : i < s.addrs.length
    · rw [List.getElem?_append_left hlt] at hi
      exact h2 i a hi
    · rw [List.getElem?_append_right (by omega)] at hi
      have : i - s.addrs.length = 0 := by
        cases hj : i - s.addrs.length with
        | zero => rfl
        | succ n => simp [hj] at hi
      rw [this] at hi
      simp at hi
      have : i = s.addrs.length := by omega
      rw [← hi, h1, this]

theorem stepPc_rotates (cfg : Cfg) (s : St) (o : Outcome) (pc : Pc) (h : Rotates cfg s) :
    Rotates cfg (stepPc cfg s o pc).1 := by
  cases pc
  case polling t f =>
    simp only [stepPc, pollOpening]
    cases hf : f.asked
    · by_cases h0 : cfg.hosts = 0
      · simp [getAddr, h0]
        cases o <;> exact h
      · rw [getAddr_eq h0]
        cases o
        · exact rotates_next h _ rfl rfl
        · exact rotates_next h _ rfl rfl
        · exact rotates_next h _ rfl rfl
        · exact h
    · cases o <;> exact h
  case poll => simp only [stepPc]; cases s.new <;> exact h
  case notYet => simp only [stepPc]; cases s.new <;> exact h
  case create => simp only [stepPc]; cases s.new <;> exact h
  case take => simp only [stepPc]; cases hi : s.idle <;> exact h
  case wakeAll => simp only [stepPc]; cases s.tasks <;> exact h
  case releaseWake => simp only [stepPc]; cases s.tasks <;> exact h
  case opened => simp only [stepPc]; split <;> exact h
  case giveBack => simp only [stepPc]; split <;> exact h
  case store => simp only [stepPc]; split <;> exact h
  case countOngoing => simp only [stepPc]; (repeat' split) <;> exact h
  all_goals exact h

theorem reach_rotates {cfg : Cfg} {s : St} (h : Reach cfg s) : Rotates cfg s :=
  reach_shared (P := Rotates cfg) ⟨rfl, by simp [St.init]⟩ (fun s o pc => stepPc_rotates cfg s o pc)
    (fun _ _ _ _ h => h) h

/-! ### Waking -/

theorem stepPc_wakes (cfg : Cfg) (s : St) (o : Outcome) (pc : Pc) :
    ∃ added, (stepPc cfg s o pc).1.woken = s.woken ++ added ∧
      (∀ t ∈ s.tasks, t ∈ added ∨ t ∈ (stepPc cfg s o pc).1.tasks) ∧
      (frees pc → frees (stepPc cfg s o pc).2 ∨ s.tasks = []) := by
  cases pc
  case polling t f =>
    refine ⟨[], ?_⟩
    simp only [stepPc, pollOpening]
    cases f.asked <;> simp <;> cases getAddr cfg.hosts s.connectionsNum <;> cases o <;> simp [frees]
  case poll => exact ⟨[], by simp only [stepPc]; cases s.new <;> simp [frees]⟩
  case notYet => exact ⟨[], by simp only [stepPc]; cases s.new <;> simp [frees]⟩
  case create => exact ⟨[], by simp only [stepPc]; cases s.new <;> simp [frees]⟩
  case take => exact ⟨[], by simp only [stepPc]; cases s.idle <;> simp [frees]⟩
  case wakeAll =>
    simp only [stepPc]
    cases h : s.tasks with
    | nil => exact ⟨[], by simp⟩
    | cons t l => exact ⟨[t], by simp [frees]⟩
  case releaseWake =>
    simp only [stepPc]
    cases h : s.tasks with
    | nil => exact ⟨[], by simp⟩
    | cons t l => exact ⟨[t], by simp [frees]⟩
  case opened => exact ⟨[], by simp only [stepPc]; split <;> simp [frees]⟩
  case giveBack => exact ⟨[], by simp only [stepPc]; split <;> simp [frees]⟩
  case store => exact ⟨[], by simp only [stepPc]; split <;> simp [frees]⟩
  case countOngoing => exact ⟨[], by simp only [stepPc]; (repeat' split) <;> simp [frees]⟩
  case wait t => exact ⟨[], by simp [stepPc, frees]; exact fun t h => Or.inl h⟩
  all_goals exact ⟨[], by simp [stepPc, frees]⟩

/-- The other events: tasks stay registered, calls go on as before, `woken` grows. -/
theorem step_other {cfg : Cfg} {s s' : St} {e : Ev} (he : step cfg s e = some s') (hn : ∀ i o, e ≠ .run i o) :
    s'.tasks = s.tasks ∧ (∃ added, s'.woken = s.woken ++ added) ∧ ∃ more, s'.threads = s.threads ++ more := by
  cases e with
  | poll t => simp [step] at he; subst he; exact ⟨rfl, ⟨[], by simp⟩, _, rfl⟩
  | run i o => exact absurd rfl (hn i o)
  | drop j =>
    simp only [step] at he
    split at he
    · simp at he
    · simp at he; subst he; exact ⟨rfl, ⟨[], by simp⟩, _, rfl⟩
  | lose j =>
    simp only [step] at he
    split at he
    · simp at he; subst he; exact ⟨rfl, ⟨[], by simp⟩, _, rfl⟩
    · simp at he
  | rebind j b =>
    simp only [step] at he
    split at he
    · split at he
      · simp at he; subst he; exact ⟨rfl, ⟨[], by simp⟩, [], by simp⟩
      · simp at he
    · simp at he
  | io =>
    simp only [step] at he
    split at he
    · simp at he; subst he; exact ⟨rfl, ⟨_, rfl⟩, [], by simp⟩
    · simp at he

theorem steps_wakes {cfg : Cfg} {s s' : St} {i t : Nat} {pc : Pc} (h : Steps cfg s s') (hp : s.threads[i]? = some pc)
    (hf : frees pc) (ht : t ∈ s.tasks) :
    ∃ added, s'.woken = s.woken ++ added ∧ (t ∈ added ∨ t ∈ s'.tasks ∧ ∃ pc, s'.threads[i]? = some pc ∧ frees pc) := by
  induction h with
  | refl => exact ⟨[], by simp, Or.inr ⟨ht, pc, hp, hf⟩⟩
  | @step s' s'' e _ he ih =>
    obtain ⟨added, h1, h2⟩ := ih
    by_cases hr : ∃ j o, e = .run j o
    · obtain ⟨j, o, rfl⟩ := hr
      obtain ⟨q, hq, hn, rfl⟩ := run_inv he
      obtain ⟨a, a1, a2, a3⟩ := stepPc_wakes cfg s' o q
      refine ⟨added ++ a, by simp [a1, h1], ?_⟩
      rcases h2 with h2 | ⟨h2, q', hq', hf'⟩
      · exact Or.inl (by simp [h2])
      · rcases a2 t h2 with h3 | h3
        · exact Or.inl (by simp [h3])
        · refine Or.inr ⟨h3, ?_⟩
          by_cases hij : j = i
          · subst hij
            rw [hq] at hq'
            injection hq' with hq'
            subst hq'
            refine ⟨(stepPc cfg s' o q).2, ?_, ?_⟩
            · have hlt : j < s'.threads.length := (List.getElem?_eq_some_iff.mp hq).1
              simp [hlt]
            · rcases a3 hf' with h4 | h4
              · exact h4
              · rw [h4] at h2; simp at h2
          · exact ⟨q', by simp only; rw [List.getElem?_set_ne hij]; exact hq', hf'⟩
    · obtain ⟨o1, ⟨a, o2⟩, more, o3⟩ := step_other he (fun i o h => hr ⟨i, o, h⟩)
      refine ⟨added ++ a, by simp [o2, h1], ?_⟩
      rcases h2 with h2 | ⟨h2, q', hq', hf'⟩
      · exact Or.inl (by simp [h2])
      · refine Or.inr ⟨by rw [o1]; exact h2, q', ?_, hf'⟩
        rw [o3, List.getElem?_append_left (List.getElem?_eq_some_iff.mp hq').1]
        exact hq'

/-! ### Given executions -/

/-- No call is in progress, as a test. -/
def isQuiet (s : St) : Bool := s.threads.all fun pc => match pc with
  | .done _ => true
  | _ => false

theorem isQuiet_quiet {s : St} (h : isQuiet s = true) : Quiet s := by
  intro pc hp
  have := List.all_eq_true.mp h pc hp
  cases pc <;> simp at this
  exact ⟨_, rfl⟩

/-- Whether the event starts a call, as a test. -/
def startsB : Ev → Bool
  | .poll _ => true
  | .drop _ => true
  | .lose _ => true
  | _ => false

/-- The execution given by a list of events, if calls do not overlap in it. -/
def seqExec (cfg : Cfg) : St → List Ev → Option St
  | s, [] => some s
  | s, e :: es => if startsB e && !isQuiet s then none else (step cfg s e).bind fun s => seqExec cfg s es

theorem exec_reach {cfg : Cfg} {es : List Ev} {s s' : St} (hr : Reach cfg s) (h : exec cfg s es = some s') : Reach cfg s' := by
  induction es generalizing s with
  | nil => simp [exec] at h; subst h; exact hr
  | cons e es ih =>
    simp only [exec] at h
    cases hs : step cfg s e with
    | none => simp [hs] at h
    | some x =>
      simp [hs] at h
      exact ih (.step e hr hs) h

theorem seqExec_reach {cfg : Cfg} {es : List Ev} {s s' : St} (hr : SeqReach cfg s) (h : seqExec cfg s es = some s') :
    SeqReach cfg s' := by
  induction es generalizing s with
  | nil => simp [seqExec] at h; subst h; exact hr
  | cons e es ih =>
    simp only [seqExec] at h
    split at h
    · simp at h
    · rename_i hq
      cases hs : step cfg s e with
      | none => simp [hs] at h
      | some x =>
        simp [hs] at h
        refine ih (.step e hr ?_ hs) h
        intro hst
        have : startsB e = true := by cases e <;> simp [starts] at hst <;> rfl
        simp [this] at hq
        exact isQuiet_quiet hq

end CH.Pool
