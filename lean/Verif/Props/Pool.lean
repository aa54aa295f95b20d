import Verif.Lemmas.Pool

/-!
# The connection pool: C48, C49, C50, C53

`Reach` ranges over every interleaving of the atomic operations of any number of concurrent calls; `SeqReach` over the executions
in which calls do not overlap (every use of the pool is on one thread, which runs `poll`, `return_conn` and `release_conn` to
their end: none of them awaits anything).
-/

namespace CH.Props

open CH.Pool CH.Spec

/-! ### Sample executions -/

/-- The `i`-th call takes `n` steps; futures give the outcome `o`. -/
def runs (i n : Nat) (o : Outcome) : List Ev := List.replicate n (.run i o)

/-- A pool of at most two connections, keeping one. -/
def cfg2 : Cfg := ⟨1, 2, 3⟩

/-- A pool of at most one connection. -/
def cfg1 : Cfg := ⟨1, 1, 1⟩

/-- Task 7 opens a connection and gets it. -/
def openOne : List Ev := .poll 7 :: runs 0 11 .ready

/-- Task 7 gets a connection; task 8 starts opening one and waits; the first handle is dropped. -/
def sampleRun : List Ev := openOne ++ .poll 8 :: runs 1 14 .pending ++ .drop 0 :: runs 2 5 .pending

example : (seqExec cfg2 St.init openOne).map (fun s => (connections s, inUse s, s.ongoing, isQuiet s)) =
    some ([0], [0], 1, true) := by decide +kernel

example : (seqExec cfg2 St.init sampleRun).map
    (fun s => ((connections s, inUse s, s.ongoing), s.tasks, s.woken, isQuiet s)) =
    some (([1, 0], [], 0), [], [8], true) := by decide +kernel

/-! ### C48 -/

/-- C48 on one thread: the connections being opened, idle, in use and passing through a call are never more than the maximum.
Missing for the full property: calls that overlap, for which it fails (`C48_exceeds_violated`). -/
theorem C48_single_thread_partial {cfg : Cfg} {s : St} (hw : cfg.max < usize) (h : SeqReach cfg s) :
    (connections s).length ≤ cfg.max := by
  rw [connections_length]
  exact (seq_inv hw h).cap

/-- There is an execution that reaches the maximum. -/
example : ∃ s, SeqReach cfg2 s ∧ cfg2.max < usize ∧ (connections s).length = 2 := by
  obtain ⟨s, hs⟩ : ∃ s, seqExec cfg2 St.init sampleRun = some s :=
    Option.isSome_iff_exists.mp (by decide +kernel)
  refine ⟨s, seqExec_reach .init hs, by decide, ?_⟩
  have : (seqExec cfg2 St.init sampleRun).map (fun s => (connections s).length) = some 2 := by decide +kernel
  rw [hs] at this
  exact Option.some.inj this

/-- A call creates the future of a connection and takes it out of `new` to poll it; another call counts the connections
meanwhile. -/
def raceOpen : List Ev := .poll 1 :: .poll 2 :: runs 0 7 .pending ++ runs 1 6 .pending

/-- C48 fails when two calls overlap: a pool limited to one connection opens two, because a connection being opened is not
counted while a call polls it (/repo/src/pool/mod.rs:224-234 and 41-46). -/
theorem C48_exceeds_violated : ∃ s, Reach cfg1 s ∧ cfg1.max < (connections s).length := by
  obtain ⟨s, hs⟩ : ∃ s, exec cfg1 St.init raceOpen = some s := Option.isSome_iff_exists.mp (by decide +kernel)
  refine ⟨s, exec_reach .init hs, ?_⟩
  have : (exec cfg1 St.init raceOpen).map (fun s => (connections s).length) = some 2 := by decide +kernel
  rw [hs] at this
  have this : (connections s).length = 2 := Option.some.inj this
  rw [this]
  decide

/-! ### C49 -/

/-- C49, every interleaving: a connection is never in two places (being opened, idle, in the hands of two users, in a call). -/
theorem C49_no_sharing {cfg : Cfg} {s : St} (h : Reach cfg s) : (connections s).Nodup := by
  rw [List.nodup_iff_count]
  intro k
  rw [connections_count]
  exact (reach_distinct h k).1

/-- C49, every interleaving: the in-use counter is the number of connections in use and of those whose return or loss is being
processed, less one for every call that panicked because the idle store was full. The counter is a machine word. -/
theorem C49_counter {cfg : Cfg} {s : St} (h : Reach cfg s) :
    (s.ongoing + s.threads.countP miscounted) % usize = ((inUse s).length + s.threads.countP stillCounted) % usize := by
  rw [inUse_length, countP_eq, countP_eq]
  exact reach_balanced h

/-- C49, every interleaving without such a panic: when no call is in progress the counter is exact. Missing for the full
property: the panic itself (`C49_underflow_violated`). -/
theorem C49_exact_partial {cfg : Cfg} {s : St} (h : Reach cfg s) (hq : Quiet s) (hp : .done .overflowed ∉ s.threads)
    (hw : (inUse s).length < usize) : s.ongoing = (inUse s).length := by
  have h1 := C49_counter h
  have h2 : s.threads.countP miscounted = 0 := by
    rw [List.countP_eq_zero]
    intro pc hpc
    obtain ⟨e, rfl⟩ := hq pc hpc
    cases e <;> simp [miscounted]
    exact hp hpc
  have h3 : s.threads.countP stillCounted = 0 := by
    rw [List.countP_eq_zero]
    intro pc hpc
    obtain ⟨e, rfl⟩ := hq pc hpc
    simp [stillCounted]
  rw [h2, h3] at h1
  simpa [Nat.mod_eq_of_lt hw, Nat.mod_eq_of_lt (reach_ongoing_lt h)] using h1

/-- Two calls overlap. -/
example : (exec cfg2 St.init (.poll 1 :: .poll 2 :: runs 0 7 .ready ++ runs 1 7 .ready ++ runs 0 4 .ready ++ runs 1 4 .ready)).map
    (fun s => (connections s, inUse s, s.ongoing, isQuiet s)) = some ([0, 1], [0, 1], 2, true) := by decide +kernel

/-- C49, every interleaving: the idle store holds at most the maximum. -/
theorem C49_idle_bounded {cfg : Cfg} {s : St} (h : Reach cfg s) : s.idle.length ≤ cfg.max := reach_idle h

/-- C49 on one thread: the counter is exact up to the call in progress (so it never wraps around), and no call panics because the
idle store is full. -/
theorem C49_single_thread {cfg : Cfg} {s : St} (hw : cfg.max < usize) (h : SeqReach cfg s) :
    s.ongoing = (inUse s).length + s.threads.countP stillCounted ∧ .done .overflowed ∉ s.threads ∧
      ∀ h, Pc.giveBack h true ∉ s.threads := by
  have hi := seq_inv hw h
  refine ⟨?_, ?_, ?_⟩
  · rw [inUse_length, countP_eq]
    exact hi.exact
  · intro hm
    exact hi.ok _ hm rfl
  · intro x hm
    have := hi.ok _ hm
    simp [pcOk] at this

/-- The hypotheses hold of the sample execution above, in which the counter goes up and down. -/
example : ∃ s, SeqReach cfg2 s ∧ cfg2.max < usize ∧ s.ongoing = 1 := by
  obtain ⟨s, hs⟩ : ∃ s, seqExec cfg2 St.init openOne = some s := Option.isSome_iff_exists.mp (by decide +kernel)
  refine ⟨s, seqExec_reach .init hs, by decide, ?_⟩
  have : (seqExec cfg2 St.init openOne).map (fun s => s.ongoing) = some 1 := by decide +kernel
  rw [hs] at this
  exact Option.some.inj this

/-- The two connections of `raceOpen` become ready: the idle store, which has room for one, is full for the second. -/
def raceStore : List Ev := raceOpen ++ runs 0 1 .ready ++ runs 1 1 .ready ++ runs 0 1 .ready ++ runs 1 5 .ready

/-- C49 fails when two calls overlap: a call panics because the idle store is full, the connection it had opened is dropped as if
it had been in use, and the in-use counter goes below zero (wraps around) although nothing is in use
(/repo/src/pool/mod.rs:227, 279-295, 265). -/
theorem C49_underflow_violated : ∃ s, Reach cfg1 s ∧ inUse s = [] ∧ s.ongoing = usize - 1 := by
  obtain ⟨s, hs⟩ : ∃ s, exec cfg1 St.init raceStore = some s := Option.isSome_iff_exists.mp (by decide +kernel)
  refine ⟨s, exec_reach .init hs, ?_⟩
  have : (exec cfg1 St.init raceStore).map (fun s => (inUse s, s.ongoing)) = some ([], usize - 1) := by decide +kernel
  rw [hs] at this
  simpa using Option.some.inj this

/-! ### C50 -/

/-- C50, every interleaving: a call that gives back or closes a connection ends only when every task that was registered as
waiting has been woken (by this call or by another). -/
theorem C50_release_wakes_partial {cfg : Cfg} {s s' : St} {i t : Nat} {pc : Pc} {e : End} (h : Steps cfg s s')
    (hp : s.threads[i]? = some pc) (hf : frees pc) (ht : t ∈ s.tasks) (hd : s'.threads[i]? = some (.done e)) :
    ∃ added, s'.woken = s.woken ++ added ∧ t ∈ added := by
  obtain ⟨added, h1, h2⟩ := steps_wakes h hp hf ht
  refine ⟨added, h1, ?_⟩
  rcases h2 with h2 | ⟨-, q, hq, hf'⟩
  · exact h2
  · rw [hd] at hq
    injection hq with hq
    subst hq
    simp [frees] at hf'

/-- In the sample execution task 8 is registered when the handle of task 7 is dropped. -/
example : (exec cfg2 St.init (openOne ++ .poll 8 :: runs 1 14 .pending ++ [.drop 0])).map
    (fun s => (s.tasks, s.threads[2]?)) = some ([8], some (.giveBack ⟨⟨0, false⟩, .attached⟩ false)) := by decide +kernel

/-- C50 on one thread: a task is told to wait only if a connection is being opened, or if as many connections as allowed are in
use — and then giving back any of them wakes it, by `C50_release_wakes_partial`. -/
theorem C50_waits_for_reason_partial {cfg : Cfg} {s : St} {t : Nat} (hw : cfg.max < usize) (h : SeqReach cfg s)
    (ht : .wait t ∈ s.threads) : s.new.isSome ∨ (inUse s).length = cfg.max := by
  have hi := seq_inv hw h
  obtain ⟨h1, h2⟩ := hi.ok _ ht
  cases hn : s.new with
  | some f => exact Or.inl rfl
  | none =>
    right
    have h3 := h2 hn
    obtain ⟨i, hx⟩ := List.getElem?_of_mem ht
    have h4 := wsum_busy (w := one stillCounted) one_done hi.busy hx (by simp)
    have h5 := hi.exact
    have h6 := hi.cap
    rw [inUse_length]
    simp [h4, one, stillCounted] at h5
    omega

/-- Both reasons occur. -/
example : (seqExec cfg1 St.init (openOne ++ .poll 8 :: runs 1 5 .pending)).map
    (fun s => (s.threads[1]?, s.new.isSome, (inUse s).length)) = some (some (.wait 8), false, 1) := by decide +kernel
example : (seqExec cfg2 St.init (.poll 8 :: runs 0 14 .pending)).map
    (fun s => (s.threads[0]?, s.new.isSome, (inUse s).length)) = some (some (.wait 8), true, 0) := by decide +kernel

/-- C50 on one thread: whenever no call is in progress and a connection is being opened, some task has polled it, and progress of
the connection wakes that task. -/
theorem C50_opening_has_waker_partial {cfg : Cfg} {s : St} (hw : cfg.max < usize) (h : SeqReach cfg s) (hq : Quiet s)
    (hn : s.new.isSome) : ∃ t s', step cfg s .io = some s' ∧ s'.woken = s.woken ++ [t] := by
  have hi := seq_inv hw h
  cases hf : s.new with
  | none => simp [hf] at hn
  | some f =>
    rcases hi.waker f hf with h1 | ⟨t, ht⟩
    · obtain ⟨id, asked, waker⟩ := f
      obtain ⟨t, rfl⟩ := Option.isSome_iff_exists.mp h1
      exact ⟨t, { s with woken := s.woken ++ [t] }, by simp only [step, hf], rfl⟩
    · obtain ⟨e, he⟩ := hq _ ht
      simp at he

example : (seqExec cfg2 St.init (.poll 8 :: runs 0 15 .pending)).map (fun s => (isQuiet s, s.new)) =
    some (true, some ⟨0, true, some 8⟩) := by decide +kernel

/-- Task 1 starts opening a connection and waits; task 2 polls the same connection and waits too; the connection makes progress,
which wakes task 2 (the last to poll it); it fails, and task 2 is told so. -/
def lost : List Ev := .poll 1 :: runs 0 15 .pending ++ .poll 2 :: runs 1 9 .pending ++ .io :: .poll 2 :: runs 2 2 .failed

/-- C50 fails even on one thread: task 1 is waiting, it has not been woken, the pool is empty and could open connections, and no
event can happen any more except that some task polls the pool again (/repo/src/pool/mod.rs:223-242 gives the error to the task
that happens to poll, and wakes nobody). -/
theorem C50_forgotten_violated : ∃ s, SeqReach cfg2 s ∧ Waits s 1 ∧ 1 ∉ s.woken ∧ connections s = [] ∧
    ∀ e s', step cfg2 s e = some s' → ∃ t, e = .poll t := by
  obtain ⟨s, hs⟩ : ∃ s, seqExec cfg2 St.init lost = some s := Option.isSome_iff_exists.mp (by decide +kernel)
  have h1 : (seqExec cfg2 St.init lost).map (fun s => ((s.threads, s.woken, connections s), s.new, s.out)) =
      some (([.done (.pending 1), .done (.pending 2), .done (.failed 2)], [2], []), none, []) := by decide +kernel
  rw [hs] at h1
  simp at h1
  obtain ⟨⟨h1, h2, h3⟩, h4, h5⟩ := h1
  refine ⟨s, seqExec_reach .init hs, ?_, ?_, h3, ?_⟩
  · unfold Waits; rw [h1]; simp
  · rw [h2]; simp
  · intro e s' he
    cases e with
    | poll t => exact ⟨t, rfl⟩
    | run i o =>
      simp only [step, h1] at he
      match i with
      | 0 => simp at he
      | 1 => simp at he
      | 2 => simp at he
      | n + 3 => simp at he
    | drop j => simp [step, h5] at he
    | lose j => simp [step, h5] at he
    | rebind j b => simp [step, h5] at he
    | io => simp [step, h4] at he

/-- Task 7 has the only connection; task 8 counts the connections and is about to register; the handle is dropped, and its
connection stored, before it does. -/
def lateWaiter : List Ev := openOne ++ .poll 8 :: runs 1 5 .pending ++ .drop 0 :: runs 2 4 .pending ++ runs 1 1 .pending

/-- C50 fails also for a task that waits because the pool is full, when calls overlap: the connection is given back between the
count and the registration of the waiting task (/repo/src/pool/mod.rs:199-204), which then waits although a connection is idle
and nothing will wake it. -/
theorem C50_race_violated : ∃ s, Reach cfg1 s ∧ Waits s 8 ∧ 8 ∉ s.woken ∧ s.idle.length = 1 ∧ inUse s = [] ∧ Quiet s := by
  obtain ⟨s, hs⟩ : ∃ s, exec cfg1 St.init lateWaiter = some s := Option.isSome_iff_exists.mp (by decide +kernel)
  have h1 : (exec cfg1 St.init lateWaiter).map (fun s => (s.threads, s.woken, s.idle.length, inUse s)) =
      some ([.done (.handed 7), .done (.pending 8), .done .finished], [], 1, []) := by decide +kernel
  rw [hs] at h1
  simp at h1
  obtain ⟨h1, h2, h3, h4⟩ := h1
  refine ⟨s, exec_reach .init hs, ?_, ?_, h3, h4, ?_⟩
  · unfold Waits; rw [h1]; simp
  · rw [h2]; simp
  · intro pc hp
    rw [h1] at hp
    simp at hp
    rcases hp with rfl | rfl | rfl <;> exact ⟨_, rfl⟩

/-! ### C53 -/

/-- C53, every interleaving: the `k`-th address asked for (from zero) is number `k` modulo the number of hosts, as long as the
counter has not wrapped around, that is for the first 2⁶⁴ connections. -/
theorem C53_rotation_partial {cfg : Cfg} {s : St} {k a : Nat} (h : Reach cfg s) (hk : k < 18446744073709551616)
    (ha : s.addrs[k]? = some a) : a = k % cfg.hosts := by
  rw [(reach_rotates h).2 k a ha, Nat.mod_eq_of_lt (show k < usize from hk)]

/-- Any `n` connections in a row use all the `n` hosts. -/
theorem C53_all_hosts_partial {cfg : Cfg} {s : St} {k j : Nat} (h : Reach cfg s) (hk : k + cfg.hosts ≤ s.addrs.length)
    (hw : k + cfg.hosts ≤ 18446744073709551616) (hj : j < cfg.hosts) :
    ∃ i, k ≤ i ∧ i < k + cfg.hosts ∧ s.addrs[i]? = some j := by
  have key : ∃ i, k ≤ i ∧ i < k + cfg.hosts ∧ i % cfg.hosts = j := by
    have hpos : 0 < cfg.hosts := by omega
    have hm := Nat.mod_lt k hpos
    have hd := Nat.div_add_mod k cfg.hosts
    by_cases hc : k % cfg.hosts ≤ j
    · refine ⟨k - k % cfg.hosts + j, by omega, by omega, ?_⟩
      have : k - k % cfg.hosts + j = j + cfg.hosts * (k / cfg.hosts) := by omega
      rw [this, Nat.add_mul_mod_self_left, Nat.mod_eq_of_lt hj]
    · refine ⟨k - k % cfg.hosts + cfg.hosts + j, by omega, by omega, ?_⟩
      have : k - k % cfg.hosts + cfg.hosts + j = j + cfg.hosts * (k / cfg.hosts + 1) := by
        rw [Nat.mul_add]
        omega
      rw [this, Nat.add_mul_mod_self_left, Nat.mod_eq_of_lt hj]
  obtain ⟨i, h1, h2, h3⟩ := key
  have hi : i < s.addrs.length := by omega
  refine ⟨i, h1, h2, ?_⟩
  rw [List.getElem?_eq_getElem hi, C53_rotation_partial h (by omega : i < 18446744073709551616) (List.getElem?_eq_getElem hi), h3]

/-- The hosts are the address of the URL and the alternative ones. -/
theorem C53_hosts (o : Options) : (Cfg.new (some o)).hosts = (o.addr :: o.altHosts).length := by
  simp [Cfg.new]
  omega

/-- Four connections to three hosts, one of which fails. -/
example : (seqExec ⟨0, 9, 3⟩ St.init (.poll 1 :: runs 0 11 .ready ++ .poll 1 :: runs 1 11 .ready ++ .poll 1 :: runs 2 8 .failed
    ++ .poll 1 :: runs 3 11 .ready)).map (fun s => s.addrs) = some [0, 1, 2, 0] := by decide +kernel

/-- C53 fails when the counter wraps around, unless the number of hosts divides 2⁶⁴: of three hosts the first is used twice in a
row. -/
theorem C53_wraps_violated : ∃ k k' k'', getAddr 3 k = some (0, k') ∧ getAddr 3 k' = some (0, k'') :=
  ⟨usize - 1, 0, 1, by decide +kernel, by decide +kernel⟩

end CH.Props
