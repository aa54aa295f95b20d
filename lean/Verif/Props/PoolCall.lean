import Verif.Props.Pool
import Verif.Lemmas.PoolCall

/-! C95: a task that waits for a connection is served. -/

namespace CH.Props
open CH CH.Spec CH.Pool CH.PoolCall

/-- C95, every interleaving: wherever a call of the pool has got to, it ends when it is left alone, after as many steps as there
are waiting tasks and twenty-one more at most, however the opening of connections goes. -/
theorem C95_ends {cfg : Cfg} {s : St} {i : Nat} {pc : Pc} (h : s.threads[i]? = some pc) (os : Nat → Outcome) :
    ∃ n s' e, n ≤ s.tasks.length + 21 ∧ exec cfg s ((List.range n).map fun k => .run i (os k)) = some s' ∧
      s'.threads[i]? = some (.done e) := by
  suffices H : ∀ k s pc (os : Nat → Outcome), s.threads[i]? = some pc → left s pc ≤ k →
      ∃ n s' e, n ≤ k ∧ exec cfg s ((List.range n).map fun k => .run i (os k)) = some s' ∧ s'.threads[i]? = some (.done e) by
    exact H _ s pc os h (left_le s pc)
  intro k
  induction k with
  | zero =>
    intro s pc os h hl
    by_cases hd : ∃ e, pc = .done e
    · obtain ⟨e, rfl⟩ := hd
      exact ⟨0, s, e, Nat.le_refl _, rfl, h⟩
    · have := stepPc_left cfg s (os 0) pc (fun e he => hd ⟨e, he⟩)
      omega
  | succ k ih =>
    intro s pc os h hl
    by_cases hd : ∃ e, pc = .done e
    · obtain ⟨e, rfl⟩ := hd
      exact ⟨0, s, e, Nat.zero_le _, rfl, h⟩
    · have hd' : ∀ e, pc ≠ .done e := fun e he => hd ⟨e, he⟩
      have h1 := stepPc_left cfg s (os 0) pc hd'
      have hs : step cfg s (.run i (os 0)) =
          some { (stepPc cfg s (os 0) pc).1 with threads := s.threads.set i (stepPc cfg s (os 0) pc).2 } := by
        simp only [step, h]
      have hi : i < s.threads.length := by
        rcases Nat.lt_or_ge i s.threads.length with hi | hi
        · exact hi
        · rw [List.getElem?_eq_none hi] at h; cases h
      obtain ⟨n, s', e, e1, e2, e3⟩ := ih { (stepPc cfg s (os 0) pc).1 with threads := s.threads.set i (stepPc cfg s (os 0) pc).2 }
        (stepPc cfg s (os 0) pc).2 (fun m => os (m + 1))
        (by show (s.threads.set i _)[i]? = _; rw [List.getElem?_set_self hi]) (by rw [left_threads]; omega)
      refine ⟨n + 1, s', e, by omega, ?_, e3⟩
      rw [List.range_succ_eq_map, List.map_cons, exec, hs, List.map_map]
      exact e2

-- task 8 has begun to poll while task 7 has the connection
example : ∃ s pc, Reach cfg1 s ∧ s.threads[1]? = some pc ∧ pc = .poll 8 := by
  obtain ⟨s, hs⟩ : ∃ s, exec cfg1 St.init (openOne ++ [.poll 8]) = some s := Option.isSome_iff_exists.mp (by decide +kernel)
  have : (exec cfg1 St.init (openOne ++ [.poll 8])).map (fun s => s.threads[1]?) = some (some (.poll 8)) := by decide +kernel
  rw [hs] at this
  exact ⟨s, _, exec_reach .init hs, by simpa using this, rfl⟩

/-- C95, any state: what a task is told that polls while no other call makes a step. -/
theorem C95_told_alone (cfg : Cfg) (s : St) (t : Nat) (o : Outcome) (hh : 0 < cfg.hosts) (hu : s.ongoing + 1 < usize)
    (hi : s.new.isSome → s.idle.length < cfg.max) :
    ∃ n s', exec cfg s (.poll t :: List.replicate n (.run s.threads.length o)) = some s' ∧
      WasTold s s' t (telling cfg.max (s.new.map (·.id)) (s.idle.map (·.conn.id)) s.ongoing s.nextId o) := by
  have fin : ∀ {s' : St} {e : End}, Alone cfg o s (.poll t) s' (.done e) →
      ∃ n, exec cfg s (.poll t :: List.replicate n (.run s.threads.length o)) = some { s' with threads := s.threads ++ [.done e] } := by
    intro s' e ha
    obtain ⟨n, hn⟩ := ha.exec s.threads
    exact ⟨n, hn⟩
  cases hn : s.new with
  | some f =>
    cases o with
    | ready =>
      obtain ⟨num, addrs, h1⟩ := poll_ready (t := t) hh hn (hi (by rw [hn]; rfl))
      cases hl : s.idle with
      | nil =>
        rw [hl] at h1
        obtain ⟨n, h⟩ := fin (h1.trans (take_some rfl))
        exact ⟨n, _, h, rfl, rfl⟩
      | cons a rest =>
        rw [hl] at h1
        obtain ⟨n, h⟩ := fin (h1.trans (take_some rfl))
        exact ⟨n, _, h, rfl, rfl⟩
    | pending =>
      obtain ⟨num, addrs, h1⟩ := poll_pending (t := t) hh hn
      cases hl : s.idle with
      | nil =>
        obtain ⟨n, h⟩ := fin (h1.trans (take_opening hl rfl hu))
        refine ⟨n, _, h, rfl, rfl, by simp, ?_⟩
        intro g hg
        cases hg
        rfl
      | cons a rest =>
        obtain ⟨n, h⟩ := fin (h1.trans (take_some hl))
        exact ⟨n, _, h, rfl, rfl⟩
    | failed =>
      obtain ⟨num, addrs, h1⟩ := poll_fails (t := t) hh hn (Or.inl rfl)
      obtain ⟨n, h⟩ := fin h1
      exact ⟨n, _, h, rfl, rfl⟩
    | refused =>
      obtain ⟨num, addrs, h1⟩ := poll_fails (t := t) hh hn (Or.inr rfl)
      obtain ⟨n, h⟩ := fin h1
      exact ⟨n, _, h, rfl, rfl⟩
  | none =>
    have h0 := poll_none (cfg := cfg) (o := o) (t := t) hn
    cases hl : s.idle with
    | cons a rest =>
      obtain ⟨n, h⟩ := fin (h0.trans (take_some hl))
      exact ⟨n, _, h, rfl, rfl⟩
    | nil =>
      simp only [telling, Option.map_none, List.map_nil]
      rcases Nat.lt_or_ge s.ongoing cfg.max with hm | hm
      · rw [if_neg (by omega)]
        have h1 := h0.trans (take_create hl hn hu hm)
        cases o with
        | ready =>
          obtain ⟨num, addrs, h2⟩ := poll_ready (cfg := cfg) (t := t)
            (s := { s with new := some ⟨s.nextId, false, none⟩, nextId := s.nextId + 1 }) hh rfl (by simp [hl]; omega)
          simp only [hl] at h2
          obtain ⟨n, h⟩ := fin ((h1.trans (by simpa [hl] using h2)).trans (take_some rfl))
          exact ⟨n, _, h, rfl, rfl⟩
        | pending =>
          obtain ⟨num, addrs, h2⟩ := poll_pending (cfg := cfg) (t := t)
            (s := { s with new := some ⟨s.nextId, false, none⟩, nextId := s.nextId + 1 }) hh rfl
          obtain ⟨n, h⟩ := fin ((h1.trans h2).trans (take_opening hl rfl hu))
          refine ⟨n, _, h, rfl, rfl, by simp, ?_⟩
          intro g hg
          cases hg
          rfl
        | failed =>
          obtain ⟨num, addrs, h2⟩ := poll_fails (cfg := cfg) (t := t) (o := .failed)
            (s := { s with new := some ⟨s.nextId, false, none⟩, nextId := s.nextId + 1 }) hh rfl (Or.inl rfl)
          obtain ⟨n, h⟩ := fin (h1.trans h2)
          exact ⟨n, _, h, rfl, rfl⟩
        | refused =>
          obtain ⟨num, addrs, h2⟩ := poll_fails (cfg := cfg) (t := t) (o := .refused)
            (s := { s with new := some ⟨s.nextId, false, none⟩, nextId := s.nextId + 1 }) hh rfl (Or.inr rfl)
          obtain ⟨n, h⟩ := fin (h1.trans h2)
          exact ⟨n, _, h, rfl, rfl⟩
      · rw [if_pos hm]
        obtain ⟨n, h⟩ := fin (h0.trans (take_full hl hn hu hm))
        refine ⟨n, _, h, rfl, rfl, by simp, ?_⟩
        intro g hg
        rw [show s.new = some g from hg] at hn
        cases hn

-- the store has two connections and a third is being opened
example : (⟨some ⟨5, true, none⟩, [⟨⟨3, true⟩, .none⟩, ⟨⟨4, true⟩, .none⟩], [], 0, 0, [], [], 6, [], []⟩ : St).ongoing + 1 < usize ∧
    telling 3 (some 5) [3, 4] 0 6 .ready = .gets 3 ∧ telling 3 (some 5) [3, 4] 0 6 .failed = .fails := by
  refine ⟨by decide, by decide, by decide⟩

/-- C95, on one thread: a task gets the connection that has been available for longest; if there is none, one is opened for it
unless the maximum of connections is in use; otherwise it is registered to be woken. -/
theorem C95_told {cfg : Cfg} {s : St} (t : Nat) (o : Outcome) (hh : 0 < cfg.hosts) (hw : cfg.max + 1 < usize) (hr : SeqReach cfg s)
    (hq : Quiet s) :
    ∃ n s', exec cfg s (.poll t :: List.replicate n (.run s.threads.length o)) = some s' ∧
      WasTold s s' t (telling cfg.max (s.new.map (·.id)) (s.idle.map (·.conn.id)) (inUse s).length s.nextId o) := by
  have hi := seq_inv (by omega) hr
  obtain ⟨q1, q2, q3⟩ := quiet_sums hq
  have h1 := hi.cap
  have h2 := hi.exact
  have h3 := inUse_length s
  have hu : s.ongoing = (inUse s).length := by omega
  rw [← hu]
  refine C95_told_alone cfg s t o hh (by omega) ?_
  intro hn
  obtain ⟨f, hf⟩ := Option.isSome_iff_exists.mp hn
  rw [hf] at h1
  simp at h1
  omega

-- after the sample execution no call is in progress, one connection is idle and one is being opened
example : ∃ s, SeqReach cfg2 s ∧ Quiet s ∧ 0 < cfg2.hosts ∧ cfg2.max + 1 < usize ∧ s.new.isSome ∧ s.idle.length = 1 := by
  obtain ⟨s, hs⟩ : ∃ s, seqExec cfg2 St.init sampleRun = some s := Option.isSome_iff_exists.mp (by decide +kernel)
  have : (seqExec cfg2 St.init sampleRun).map (fun s => (isQuiet s, s.new.isSome, s.idle.length)) = some (true, true, 1) := by decide +kernel
  rw [hs] at this
  simp at this
  exact ⟨s, seqExec_reach .init hs, isQuiet_quiet this.1, by decide, by decide, this.2.1, this.2.2⟩

/-- Giving back a connection, left alone, leaves one in the store if any is to be kept. -/
theorem giveBack_alone {cfg : Cfg} {o : Outcome} (s : St) (c : PConn) (h0 : 0 < cfg.min) (h1 : 0 < cfg.max) :
    ∃ a rest, Alone cfg o s (.giveBack ⟨c, .attached⟩ false)
      { s with idle := a :: rest, ongoing := decr s.ongoing, tasks := [], woken := s.woken ++ s.tasks } (.done .finished) ∧
      (s.idle = [] → a = ⟨{ c with inside := true }, .none⟩ ∧ rest = []) := by
  have wakes : ∀ (ts : List Nat) (s : St) (h : Option PHandle), s.tasks = ts → Alone cfg o s (.wakeAll h false)
      { s with tasks := [], woken := s.woken ++ ts } (.done .finished) := by
    intro ts
    induction ts with
    | nil =>
      intro s h ht
      refine .step (by simp) ?_
      simp only [stepPc, ht, Bool.false_eq_true, if_false, List.append_nil]
      rw [show ({ s with tasks := [] } : St) = s by cases s; simp at ht; simp [ht]]
      exact .refl _ _
    | cons t ts ih =>
      intro s h ht
      refine .step (by simp) ?_
      simp only [stepPc, ht]
      have := ih { s with tasks := ts, woken := s.woken ++ [t] } h rfl
      simpa using this
  by_cases hl : s.idle.length < cfg.min
  · have g1 : ∀ (o : Outcome), stepPc cfg s o (.giveBack ⟨c, .attached⟩ false) = (s, .store ⟨{ c with inside := true }, .none⟩ false) := by
      intro o
      simp only [stepPc]
      rw [if_pos ⟨hl, trivial⟩]
    by_cases hm : s.idle.length < cfg.max
    · obtain ⟨a, rest, hx⟩ : ∃ a rest, s.idle ++ [⟨{ c with inside := true }, .none⟩] = a :: rest := by
        cases s.idle <;> exact ⟨_, _, rfl⟩
      refine ⟨a, rest, .step (by simp) ?_, ?_⟩
      · rw [g1]
        refine .step (by simp) ?_
        simp only [stepPc, hm, if_true]
        rw [hx]
        refine .step (by simp) ?_
        exact wakes s.tasks { s with idle := a :: rest, ongoing := decr s.ongoing } none rfl
      · intro hi
        rw [hi] at hx
        cases hx
        exact ⟨rfl, rfl⟩
    · cases hi : s.idle with
      | nil => rw [hi] at hm; exact absurd h1 hm
      | cons a rest =>
        refine ⟨a, rest, .step (by simp) ?_, by simp⟩
        rw [g1]
        refine .step (by simp) ?_
        simp only [stepPc, hm, if_false]
        refine .step (by simp) ?_
        rw [← hi]
        exact wakes s.tasks { s with ongoing := decr s.ongoing } none rfl
  · cases hi : s.idle with
    | nil => rw [hi] at hl; exact absurd h0 hl
    | cons a rest =>
      refine ⟨a, rest, .step (by simp) ?_, by simp⟩
      simp only [stepPc]
      rw [if_neg (by intro h; exact hl h.1)]
      refine .step (by simp) ?_
      rw [← hi]
      exact wakes s.tasks { s with ongoing := decr s.ongoing } _ rfl

theorem exec_append (cfg : Cfg) (s : St) (as bs : List Ev) : exec cfg s (as ++ bs) = (exec cfg s as).bind fun s => exec cfg s bs := by
  induction as generalizing s with
  | nil => rfl
  | cons e as ih =>
    simp only [List.cons_append, exec]
    cases step cfg s e with
    | none => rfl
    | some x => exact ih x

/-- C95, any state in which no connection is being opened: when a handle is dropped, and nothing disturbs it, all waiting tasks are
woken, and the first of all tasks to poll gets a connection. (`_partial`: which task that is, is left to chance.) -/
theorem C95_first_partial {cfg : Cfg} {s : St} {j : Nat} {c : PConn} (t : Nat) (o : Outcome) (h0 : 0 < cfg.min) (h1 : 0 < cfg.max)
    (hj : s.out[j]? = some ⟨some c, .attached⟩) (hn : s.new = none) :
    ∃ n m s' id, exec cfg s (.drop j :: List.replicate n (.run s.threads.length o) ++
        .poll t :: List.replicate m (.run (s.threads.length + 1) o)) = some s' ∧
      s'.threads = s.threads ++ [.done .finished, .done (.handed t)] ∧ s'.woken = s.woken ++ s.tasks ∧
      s'.out = s.out.set j ⟨none, .none⟩ ++ [⟨some ⟨id, false⟩, .attached⟩] := by
  obtain ⟨a, rest, h, -⟩ := giveBack_alone (o := o) { s with out := s.out.set j ⟨none, .none⟩ } c h0 h1
  obtain ⟨n, e1⟩ := h.exec s.threads
  have hn' : (St.mk s.new (a :: rest) [] (decr s.ongoing) s.connectionsNum s.threads (s.out.set j ⟨none, .none⟩) s.nextId s.addrs
      (s.woken ++ s.tasks)).new = none := hn
  have h2 := (poll_none (cfg := cfg) (o := o) (t := t) hn').trans (take_some rfl)
  obtain ⟨m, e2⟩ := h2.exec (s.threads ++ [.done .finished])
  have hd : step cfg s (.drop j) = some { s with out := s.out.set j ⟨none, .none⟩, threads := s.threads ++ [.giveBack ⟨c, .attached⟩ false] } := by
    simp only [step, hj]; rfl
  have ex := exec_append cfg s (.drop j :: List.replicate n (.run s.threads.length o)) (.poll t :: List.replicate m (.run (s.threads.length + 1) o))
  rw [exec, hd, Option.bind_some, e1, Option.bind_some, exec] at ex
  rw [List.length_append] at e2
  refine ⟨n, m, _, a.conn.id, ex.trans e2, ?_, rfl, rfl⟩
  simp

-- task 7 has the only connection, task 8 waits
example : ∃ s c, SeqReach cfg1 s ∧ s.out[0]? = some ⟨some c, .attached⟩ ∧ s.new = none ∧ s.tasks = [8] ∧ 0 < cfg1.min ∧ 0 < cfg1.max := by
  obtain ⟨s, hs⟩ : ∃ s, seqExec cfg1 St.init (openOne ++ .poll 8 :: runs 1 6 .pending) = some s :=
    Option.isSome_iff_exists.mp (by decide +kernel)
  have : (seqExec cfg1 St.init (openOne ++ .poll 8 :: runs 1 6 .pending)).map (fun s => (s.out[0]?, s.new, s.tasks)) =
      some (some ⟨some ⟨0, false⟩, .attached⟩, none, [8]) := by decide +kernel
  rw [hs] at this
  simp only [Option.map_some, Option.some.injEq, Prod.mk.injEq] at this
  exact ⟨s, _, seqExec_reach .init hs, this.1, this.2.1, this.2.2, by decide, by decide⟩

/-- C95 is violated: however often task 8 is woken and polls again, task 7 can come first each time. (One thread, and a pool of one
connection.) -/
theorem C95_starves_violated (n : Nat) : ∃ s, SeqReach cfg1 s ∧ n ≤ timesServed s 7 ∧ n ≤ timesWoken s 8 ∧ n ≤ timesWaiting s 8 ∧
    timesServed s 8 = 0 ∧ timesWaiting s 7 = 0 := by
  have h1 : incr 0 = 1 := by unfold incr; rfl
  have h2 : decr 1 = 0 := by unfold decr; rfl
  suffices H : ∃ ts out c num nid addrs wk, SeqReach cfg1 ⟨none, [], [8], 1, num, ts, out ++ [⟨some c, .attached⟩], nid, addrs, wk⟩ ∧
      (∀ pc ∈ ts, ∃ e, pc = .done e) ∧ n ≤ ts.count (.done (.handed 7)) ∧ n ≤ wk.count 8 ∧ n ≤ ts.count (.done (.pending 8)) ∧
      ts.count (.done (.handed 8)) = 0 ∧ ts.count (.done (.pending 7)) = 0 by
    obtain ⟨ts, out, c, num, nid, addrs, wk, hr, -, a1, a2, a3, a4, a5⟩ := H
    exact ⟨_, hr, a1, a2, a3, a4, a5⟩
  induction n with
  | zero =>
    obtain ⟨s, hs⟩ : ∃ s, seqExec cfg1 St.init (openOne ++ .poll 8 :: runs 1 6 .pending) = some s :=
      Option.isSome_iff_exists.mp (by decide +kernel)
    have hr := seqExec_reach .init hs
    have hx : (seqExec cfg1 St.init (openOne ++ .poll 8 :: runs 1 6 .pending)).map (fun s => ((s.new, s.idle, s.tasks), (s.ongoing, s.threads, s.out))) =
        some ((none, [], [8]), (1, [.done (.handed 7), .done (.pending 8)], [⟨some ⟨0, false⟩, .attached⟩])) := by decide +kernel
    rw [hs] at hx
    obtain ⟨new, idle, tasks, ongoing, num, ts, out, nid, addrs, wk⟩ := s
    simp at hx
    obtain ⟨⟨rfl, rfl, rfl⟩, rfl, rfl, rfl⟩ := hx
    refine ⟨_, [], _, _, _, _, _, hr, ?_, Nat.zero_le _, Nat.zero_le _, Nat.zero_le _, by decide, by decide⟩
    intro pc hp
    simp at hp
    rcases hp with rfl | rfl <;> exact ⟨_, rfl⟩
  | succ n ih =>
    obtain ⟨ts, out, c, num, nid, addrs, wk, hr, hq, a1, a2, a3, a4, a5⟩ := ih
    -- the handle of task 7 is dropped
    have r1 : SeqReach cfg1 ⟨none, [], [8], 1, num, ts ++ [.giveBack ⟨c, .attached⟩ false], out ++ [⟨none, .none⟩], nid, addrs, wk⟩ :=
      .step (.drop out.length) hr (fun _ => hq) (by simp [step, dropHandle])
    obtain ⟨a, rest, g1, g2⟩ := giveBack_alone (cfg := cfg1) (o := .ready)
      ⟨none, [], [8], 1, num, ts ++ [.giveBack ⟨c, .attached⟩ false], out ++ [⟨none, .none⟩], nid, addrs, wk⟩ c (by decide) (by decide)
    obtain ⟨rfl, rfl⟩ := g2 rfl
    have r2 := g1.seq ts r1
    dsimp only at r2
    rw [h2] at r2
    have hq2 : ∀ pc ∈ ts ++ [Pc.done .finished], ∃ e, pc = .done e := by
      intro pc hp
      rcases List.mem_append.mp hp with hp | hp
      · exact hq pc hp
      · simp at hp; exact ⟨_, hp⟩
    -- task 7 polls again
    have r3 := SeqReach.step (.poll 7) r2 (fun _ => hq2) rfl
    have g3 := ((poll_none (cfg := cfg1) (o := .ready) (t := 7) rfl).trans (take_some rfl)).seq _ r3
    dsimp only at g3
    rw [h1] at g3
    have hq3 : ∀ pc ∈ (ts ++ [Pc.done .finished]) ++ [.done (.handed 7)], ∃ e, pc = .done e := by
      intro pc hp
      rcases List.mem_append.mp hp with hp | hp
      · exact hq2 pc hp
      · simp at hp; exact ⟨_, hp⟩
    -- task 8 polls
    have r4 := SeqReach.step (.poll 8) g3 (fun _ => hq3) rfl
    have g4 := ((poll_none (cfg := cfg1) (o := .ready) (t := 8) rfl).trans (take_full rfl rfl (show 1 + 1 < usize by decide) (by exact Nat.le_refl 1))).seq _ r4
    dsimp only at g4
    refine ⟨_, _, _, _, _, _, _, g4, ?_, ?_, ?_, ?_, ?_, ?_⟩
    · intro pc hp
      rcases List.mem_append.mp hp with hp | hp
      · exact hq3 pc hp
      · simp at hp; exact ⟨_, hp⟩
    all_goals simp [List.count_append, a4, a5] <;> omega

-- `C95_starves_violated`, the first round
example : (seqExec cfg1 St.init (openOne ++ .poll 8 :: runs 1 6 .pending ++ .drop 0 :: runs 2 5 .pending ++ .poll 7 :: runs 3 3 .pending ++
    .poll 8 :: runs 4 6 .pending)).map (fun s => (timesServed s 7, timesWoken s 8, timesWaiting s 8)) = some (2, 1, 2) := by decide +kernel

end CH.Props
