import Verif.Spec.PoolCall

/-! Lemmas for C95: how many steps a call of the pool has left when it is left alone. -/

namespace CH.PoolCall
open CH.Pool CH.Spec

/-- A bound for the steps left. -/
def left (s : St) : Pc → Nat
  | .poll _ => if s.new.isSome then s.tasks.length + 15 else s.tasks.length + 21
  | .polling _ _ => s.tasks.length + 14
  | .opened _ _ => s.tasks.length + 6
  | .notYet _ _ => 7
  | .take _ => if s.idle ≠ [] then 2 else if s.new.isSome then 6 else s.tasks.length + 20
  | .taken _ _ => 1
  | .count _ => if s.new.isSome then 5 else s.tasks.length + 19
  | .countNew _ _ => if s.new.isSome then 4 else s.tasks.length + 18
  | .countOngoing _ _ _ => if s.new.isSome then 3 else s.tasks.length + 17
  | .create _ => if s.new.isSome then 2 else s.tasks.length + 16
  | .wait _ => 1
  | .giveBack _ _ => s.tasks.length + 5
  | .store _ _ => s.tasks.length + 4
  | .dec _ _ => s.tasks.length + 3
  | .wakeAll _ _ => s.tasks.length + 1
  | .release => s.tasks.length + 3
  | .releaseWake => s.tasks.length + 1
  | .done _ => 0

theorem pollOpening_left (cfg : Cfg) (s : St) (t : Nat) (f : Opening) (o : Outcome) :
    left (pollOpening cfg s t f o).1 (pollOpening cfg s t f o).2 < left s (.polling t f) := by
  rw [pollOpening]
  split
  · simp [left]
  · cases hA : f.asked <;> simp only [Bool.false_eq_true, if_false, if_true]
    · cases getAddr cfg.hosts s.connectionsNum with
      | none => simp [left]
      | some a => cases o <;> simp [left]
    · cases o <;> simp [left]

theorem stepPc_left (cfg : Cfg) (s : St) (o : Outcome) (pc : Pc) (h : ∀ e, pc ≠ .done e) :
    left (stepPc cfg s o pc).1 (stepPc cfg s o pc).2 < left s pc := by
  cases pc with
  | done e => exact absurd rfl (h e)
  | polling t f => exact pollOpening_left cfg s t f o
  | poll t =>
    simp only [stepPc]
    cases hn : s.new <;> simp [left, hn]
    split <;> omega
  | opened t h =>
    simp only [stepPc]
    split <;> simp [left]
  | notYet t f =>
    simp only [stepPc]
    cases hn : s.new <;> simp [left, hn] <;> split <;> omega
  | take t =>
    simp only [stepPc]
    cases hi : s.idle <;> simp [left, hi]
    split <;> omega
  | taken t h => simp [stepPc, left]
  | count t => cases hn : s.new <;> simp [stepPc, left, hn]
  | countNew t n => cases hn : s.new <;> simp [stepPc, left, hn]
  | countOngoing t n g =>
    simp only [stepPc]
    split
    · simp only [left]; split <;> omega
    · split <;> simp only [left] <;> split <;> omega
  | create t =>
    simp only [stepPc]
    cases hn : s.new <;> simp [left, hn]
  | wait t => simp [stepPc, left]
  | giveBack h p =>
    simp only [stepPc]
    split <;> simp [left]
  | store h p =>
    simp only [stepPc]
    split <;> simp [left]
  | dec h p => simp [stepPc, left]
  | wakeAll h p =>
    simp only [stepPc]
    cases ht : s.tasks <;> simp [left, ht]
  | release => simp [stepPc, left]
  | releaseWake =>
    simp only [stepPc]
    cases ht : s.tasks <;> simp [left, ht]

/-- Only the shared state counts. -/
theorem left_threads (s : St) (ts : List Pc) (pc : Pc) : left { s with threads := ts } pc = left s pc := by
  cases pc <;> rfl

theorem left_le (s : St) (pc : Pc) : left s pc ≤ s.tasks.length + 21 := by
  cases pc <;> simp only [left] <;> (try split) <;> (try split) <;> omega

end CH.PoolCall

namespace CH.PoolCall
open CH.Pool CH.Spec

/-- The call is run alone from one point to another. -/
inductive Alone (cfg : Cfg) (o : Outcome) : St → Pc → St → Pc → Prop where
  | refl (s : St) (pc : Pc) : Alone cfg o s pc s pc
  | step {s s' : St} {pc pc' : Pc} : (∀ e, pc ≠ .done e) → Alone cfg o (stepPc cfg s o pc).1 (stepPc cfg s o pc).2 s' pc' →
      Alone cfg o s pc s' pc'

theorem Alone.trans {cfg : Cfg} {o : Outcome} {s s' s'' : St} {pc pc' pc'' : Pc} (h : Alone cfg o s pc s' pc')
    (h' : Alone cfg o s' pc' s'' pc'') : Alone cfg o s pc s'' pc'' := by
  induction h with
  | refl => exact h'
  | step hp _ ih => exact .step hp (ih h')

theorem stepPc_threads (cfg : Cfg) (s : St) (o : Outcome) (pc : Pc) (ts : List Pc) :
    stepPc cfg { s with threads := ts } o pc = ({ (stepPc cfg s o pc).1 with threads := ts }, (stepPc cfg s o pc).2) := by
  cases pc with
  | polling t f =>
    simp only [stepPc, pollOpening]
    split
    · rfl
    · cases f.asked <;> simp only [Bool.false_eq_true, if_false, if_true]
      · cases getAddr cfg.hosts s.connectionsNum with
        | none => rfl
        | some a => cases o <;> rfl
      · cases o <;> rfl
  | poll t => cases hn : s.new <;> simp [stepPc, hn]
  | notYet t f => cases hn : s.new <;> simp [stepPc, hn]
  | create t => cases hn : s.new <;> simp [stepPc, hn]
  | take t => cases hn : s.idle <;> simp [stepPc, hn]
  | wakeAll h p => cases hn : s.tasks <;> simp [stepPc, hn]
  | releaseWake => cases hn : s.tasks <;> simp [stepPc, hn]
  | opened t h => simp only [stepPc]; split <;> rfl
  | countOngoing t n g =>
    simp only [stepPc]
    split
    · rfl
    · split <;> rfl
  | giveBack h p => simp only [stepPc]; split <;> rfl
  | store h p => simp only [stepPc]; split <;> rfl
  | _ => rfl

theorem step_run (cfg : Cfg) (s : St) (o : Outcome) (pc : Pc) (ts : List Pc) (h : ∀ e, pc ≠ .done e) :
    step cfg { s with threads := ts ++ [pc] } (.run ts.length o) =
      some { (stepPc cfg s o pc).1 with threads := ts ++ [(stepPc cfg s o pc).2] } := by
  have e : step cfg { s with threads := ts ++ [pc] } (.run ts.length o) =
      some { (stepPc cfg { s with threads := ts ++ [pc] } o pc).1 with
        threads := (ts ++ [pc]).set ts.length (stepPc cfg { s with threads := ts ++ [pc] } o pc).2 } := by
    simp only [step]
    have : (ts ++ [pc])[ts.length]? = some pc := by simp
    rw [this]
    cases pc <;> first | rfl | exact absurd rfl (h _)
  rw [e, stepPc_threads]
  simp

theorem Alone.exec {cfg : Cfg} {o : Outcome} {s s' : St} {pc pc' : Pc} (h : Alone cfg o s pc s' pc') (ts : List Pc) :
    ∃ n, CH.Spec.exec cfg { s with threads := ts ++ [pc] } (List.replicate n (.run ts.length o)) = some { s' with threads := ts ++ [pc'] } := by
  induction h with
  | refl => exact ⟨0, rfl⟩
  | step hp _ ih =>
    obtain ⟨n, hn⟩ := ih
    refine ⟨n + 1, ?_⟩
    rw [List.replicate_succ, CH.Spec.exec, step_run _ _ _ _ _ hp]
    exact hn

theorem Alone.seq {cfg : Cfg} {o : Outcome} {s s' : St} {pc pc' : Pc} (h : Alone cfg o s pc s' pc') (ts : List Pc)
    (hr : SeqReach cfg { s with threads := ts ++ [pc] }) : SeqReach cfg { s' with threads := ts ++ [pc'] } := by
  induction h with
  | refl => exact hr
  | step hp _ ih => exact ih (.step (.run ts.length o) hr (by simp [starts]) (step_run _ _ _ _ _ hp))

theorem take_some {cfg : Cfg} {o : Outcome} {s : St} {t : Nat} {h : PHandle} {rest : List PHandle} (hi : s.idle = h :: rest) :
    Alone cfg o s (.take t) { s with idle := rest, ongoing := incr s.ongoing, out := s.out ++ [⟨some ⟨h.conn.id, false⟩, .attached⟩] }
      (.done (.handed t)) := by
  refine .step (by simp) ?_
  simp only [stepPc, hi]
  refine .step (by simp) ?_
  simp only [stepPc]
  exact .refl _ _

theorem count_create {cfg : Cfg} {o : Outcome} {s : St} {t n g : Nat} (h1 : n + s.idle.length + g < usize)
    (h2 : n + s.idle.length + g < cfg.max) : stepPc cfg s o (.countOngoing t n g) = (s, .create t) := by
  rw [stepPc, if_neg (by omega), if_pos h2]

theorem count_wait {cfg : Cfg} {o : Outcome} {s : St} {t n g : Nat} (h1 : n + s.idle.length + g < usize)
    (h2 : cfg.max ≤ n + s.idle.length + g) : stepPc cfg s o (.countOngoing t n g) = (s, .wait t) := by
  rw [stepPc, if_neg (by omega), if_neg (by omega)]

theorem take_opening {cfg : Cfg} {o : Outcome} {s : St} {t : Nat} {f : Opening} (hi : s.idle = []) (hn : s.new = some f)
    (hu : s.ongoing + 1 < usize) :
    Alone cfg o s (.take t) { s with tasks := s.tasks ++ [t] } (.done (.pending t)) := by
  obtain ⟨new, idle, tasks, ongoing, num, threads, out, nextId, addrs, woken⟩ := s
  dsimp only at *
  subst hi hn
  refine .step (by simp) ?_
  simp only [stepPc]
  refine .step (by simp) ?_
  simp only [stepPc]
  refine .step (by simp) ?_
  simp only [stepPc]
  refine .step (by simp) ?_
  rcases Nat.lt_or_ge (1 + 0 + ongoing) cfg.max with hm | hm
  · rw [count_create (by simp; omega) (by simpa using hm)]
    refine .step (by simp) ?_
    simp only [stepPc]
    refine .step (by simp) ?_
    simp only [stepPc]
    exact .refl _ _
  · rw [count_wait (by simp; omega) (by simpa using hm)]
    refine .step (by simp) ?_
    simp only [stepPc]
    exact .refl _ _

theorem take_full {cfg : Cfg} {o : Outcome} {s : St} {t : Nat} (hi : s.idle = []) (hn : s.new = none) (hu : s.ongoing + 1 < usize)
    (hm : cfg.max ≤ s.ongoing) :
    Alone cfg o s (.take t) { s with tasks := s.tasks ++ [t] } (.done (.pending t)) := by
  obtain ⟨new, idle, tasks, ongoing, num, threads, out, nextId, addrs, woken⟩ := s
  dsimp only at *
  subst hi hn
  refine .step (by simp) ?_
  simp only [stepPc]
  refine .step (by simp) ?_
  simp only [stepPc]
  refine .step (by simp) ?_
  simp only [stepPc]
  refine .step (by simp) ?_
  rw [count_wait (by simp; omega) (by simpa using hm)]
  refine .step (by simp) ?_
  simp only [stepPc]
  exact .refl _ _

theorem take_create {cfg : Cfg} {o : Outcome} {s : St} {t : Nat} (hi : s.idle = []) (hn : s.new = none) (hu : s.ongoing + 1 < usize)
    (hm : s.ongoing < cfg.max) :
    Alone cfg o s (.take t) { s with new := some ⟨s.nextId, false, none⟩, nextId := s.nextId + 1 } (.poll t) := by
  obtain ⟨new, idle, tasks, ongoing, num, threads, out, nextId, addrs, woken⟩ := s
  dsimp only at *
  subst hi hn
  refine .step (by simp) ?_
  simp only [stepPc]
  refine .step (by simp) ?_
  simp only [stepPc]
  refine .step (by simp) ?_
  simp only [stepPc]
  refine .step (by simp) ?_
  rw [count_create (by simp; omega) (by simpa using hm)]
  refine .step (by simp) ?_
  simp only [stepPc]
  exact .refl _ _

theorem poll_none {cfg : Cfg} {o : Outcome} {s : St} {t : Nat} (hn : s.new = none) : Alone cfg o s (.poll t) s (.take t) := by
  refine .step (by simp) ?_
  simp only [stepPc, hn]
  exact .refl _ _

theorem getAddr_some {cfg : Cfg} (hh : 0 < cfg.hosts) (n : Nat) : ∃ a m, getAddr cfg.hosts n = some (a, m) := by
  rw [getAddr, if_neg (by omega)]; exact ⟨_, _, rfl⟩

theorem poll_ready {cfg : Cfg} {s : St} {t : Nat} {f : Opening} (hh : 0 < cfg.hosts) (hn : s.new = some f) (hi : s.idle.length < cfg.max) :
    ∃ num addrs, Alone cfg .ready s (.poll t)
      { s with new := none, connectionsNum := num, addrs := addrs, idle := s.idle ++ [⟨⟨f.id, true⟩, .detached⟩] } (.take t) := by
  obtain ⟨id, asked, w⟩ := f
  obtain ⟨a, m, hg⟩ := getAddr_some hh s.connectionsNum
  cases asked
  · refine ⟨m, s.addrs ++ [a], .step (by simp) ?_⟩
    simp only [stepPc, hn]
    refine .step (by simp) ?_
    simp only [stepPc, pollOpening, hg]
    simp only [reduceCtorEq, and_false, if_false, Bool.false_eq_true, Option.map_some]
    refine .step (by simp) ?_
    simp only [stepPc, hi, if_true]
    exact .refl _ _
  · refine ⟨s.connectionsNum, s.addrs, .step (by simp) ?_⟩
    simp only [stepPc, hn]
    refine .step (by simp) ?_
    simp only [stepPc, pollOpening]
    simp only [reduceCtorEq, and_false, if_false, if_true]
    refine .step (by simp) ?_
    simp only [stepPc, hi, if_true]
    exact .refl _ _

theorem poll_pending {cfg : Cfg} {s : St} {t : Nat} {f : Opening} (hh : 0 < cfg.hosts) (hn : s.new = some f) :
    ∃ num addrs, Alone cfg .pending s (.poll t)
      { s with new := some ⟨f.id, true, some t⟩, connectionsNum := num, addrs := addrs } (.take t) := by
  obtain ⟨id, asked, w⟩ := f
  obtain ⟨a, m, hg⟩ := getAddr_some hh s.connectionsNum
  cases asked
  · refine ⟨m, s.addrs ++ [a], .step (by simp) ?_⟩
    simp only [stepPc, hn]
    refine .step (by simp) ?_
    simp only [stepPc, pollOpening, hg]
    simp only [reduceCtorEq, and_false, if_false, Bool.false_eq_true, Option.map_some]
    refine .step (by simp) ?_
    simp only [stepPc]
    exact .refl _ _
  · refine ⟨s.connectionsNum, s.addrs, .step (by simp) ?_⟩
    simp only [stepPc, hn]
    refine .step (by simp) ?_
    simp only [stepPc, pollOpening]
    simp only [reduceCtorEq, and_false, if_false, if_true]
    refine .step (by simp) ?_
    simp only [stepPc]
    exact .refl _ _

theorem poll_fails {cfg : Cfg} {s : St} {t : Nat} {f : Opening} {o : Outcome} (hh : 0 < cfg.hosts) (hn : s.new = some f)
    (ho : o = .failed ∨ o = .refused) :
    ∃ num addrs, Alone cfg o s (.poll t)
      { s with new := none, connectionsNum := num, addrs := addrs } (.done (.failed t)) := by
  obtain ⟨id, asked, w⟩ := f
  obtain ⟨a, m, hg⟩ := getAddr_some hh s.connectionsNum
  by_cases hr : asked = false ∧ o = .refused
  · refine ⟨s.connectionsNum, s.addrs, .step (by simp) ?_⟩
    simp only [stepPc, hn]
    refine .step (by simp) ?_
    simp only [stepPc, pollOpening]
    rw [if_pos hr]
    exact .refl _ _
  · cases asked
    · refine ⟨m, s.addrs ++ [a], .step (by simp) ?_⟩
      simp only [stepPc, hn]
      refine .step (by simp) ?_
      simp only [stepPc, pollOpening, hg]
      rcases ho with rfl | rfl
      · simp only [reduceCtorEq, and_false, if_false, Bool.false_eq_true, Option.map_some]
        exact .refl _ _
      · exact absurd ⟨rfl, rfl⟩ hr
    · refine ⟨s.connectionsNum, s.addrs, .step (by simp) ?_⟩
      simp only [stepPc, hn]
      refine .step (by simp) ?_
      simp only [stepPc, pollOpening]
      rcases ho with rfl | rfl <;> simp only [reduceCtorEq, and_false, false_and, if_false, if_true] <;> exact .refl _ _

end CH.PoolCall
