import Verif.Lemmas.Keep
import Verif.Props.Pool
import Verif.Model.PoolUse

/-!
# Which connections a pool keeps: C88

Every interleaving of any number of concurrent calls, unless said otherwise.
-/

namespace CH.Props

open CH.Pool CH.Spec

/-- The execution given by a list of events, if never more than `k` calls are in progress in it. -/
def execAtMost (cfg : Cfg) (k : Nat) : St → List Ev → Option St
  | s, [] => some s
  | s, e :: es => (step cfg s e).bind fun s => if inProgress s ≤ k then execAtMost cfg k s es else none

theorem execAtMost_reach {cfg : Cfg} {k : Nat} {es : List Ev} {s s' : St} (hr : ReachAtMost cfg k s)
    (h : execAtMost cfg k s es = some s') : ReachAtMost cfg k s' := by
  induction es generalizing s with
  | nil => simp [execAtMost] at h; subst h; exact hr
  | cons e es ih =>
    simp only [execAtMost] at h
    cases hs : step cfg s e with
    | none => simp [hs] at h
    | some x =>
      simp only [hs, Option.bind_some] at h
      split at h
      · rename_i hk
        exact ih (.step e hr hs hk) h
      · simp at h

/-- A pool of at most three connections, keeping two. -/
def cfg3 : Cfg := ⟨2, 3, 1⟩

/-- Two tasks open a connection each; both handles are dropped, one after the other. -/
def twoKept : List Ev :=
  .poll 7 :: runs 0 11 .ready ++ .poll 8 :: runs 1 11 .ready ++ .drop 0 :: runs 2 4 .ready ++ .drop 1 :: runs 3 4 .ready

/-! ### The order -/

/-- C88, every interleaving: while a connection is idle nothing overtakes it. Those ahead of it leave from the front, those behind
it stay behind it in their order, and others come in behind them. -/
theorem C88_order {cfg : Cfg} {x : Nat} {s s' : St} {a b : List Nat} (hr : Reach cfg s) (h : StaysIdle cfg x s s')
    (hs : idleIds s = a ++ x :: b) : ∃ n more, idleIds s' = a.drop n ++ x :: (b ++ more) := by
  obtain ⟨n, more, h1, -⟩ := Keep.stays_order h hr hs
  exact ⟨n, more, h1⟩

/-- Two connections are idle; a poll takes the first. -/
example : ∃ s s', Reach cfg3 s ∧ StaysIdle cfg3 1 s s' ∧ idleIds s = [0] ++ 1 :: [] ∧ idleIds s' = [1] := by
  obtain ⟨s, hs⟩ : ∃ s, exec cfg3 St.init twoKept = some s := Option.isSome_iff_exists.mp (by decide +kernel)
  have k0 : (exec cfg3 St.init twoKept).map idleIds = some [0, 1] := by decide +kernel
  obtain ⟨s1, h1⟩ : ∃ s1, exec cfg3 St.init (twoKept ++ [.poll 9]) = some s1 := Option.isSome_iff_exists.mp (by decide +kernel)
  have k1 : (exec cfg3 St.init (twoKept ++ [.poll 9])).map idleIds = some [0, 1] := by decide +kernel
  obtain ⟨s2, h2⟩ : ∃ s2, exec cfg3 St.init (twoKept ++ [.poll 9, .run 4 .ready]) = some s2 :=
    Option.isSome_iff_exists.mp (by decide +kernel)
  have k2 : (exec cfg3 St.init (twoKept ++ [.poll 9, .run 4 .ready])).map idleIds = some [0, 1] := by decide +kernel
  obtain ⟨s3, h3⟩ : ∃ s3, exec cfg3 St.init (twoKept ++ [.poll 9, .run 4 .ready, .run 4 .ready]) = some s3 :=
    Option.isSome_iff_exists.mp (by decide +kernel)
  have k3 : (exec cfg3 St.init (twoKept ++ [.poll 9, .run 4 .ready, .run 4 .ready])).map idleIds = some [1] := by decide +kernel
  have app : ∀ (es : List Ev) (es' : List Ev) (s : St), exec cfg3 s (es ++ es') = (exec cfg3 s es).bind (exec cfg3 · es') := by
    intro es
    induction es with
    | nil => intro es' s; rfl
    | cons e es ih =>
      intro es' s
      simp only [List.cons_append, exec]
      cases step cfg3 s e with
      | none => rfl
      | some x => exact ih es' x
  rw [hs] at k0
  rw [h1] at k1
  rw [h2] at k2
  rw [h3] at k3
  simp at k0 k1 k2 k3
  rw [app, hs] at h1 h2 h3
  simp only [exec, Option.bind_some, Option.bind_eq_some_iff] at h1 h2 h3
  obtain ⟨x1, a1, a2⟩ := h1
  obtain ⟨y1, b1, y2, b2, b3⟩ := h2
  obtain ⟨z1, c1, z2, c2, z3, c3, c4⟩ := h3
  rw [a1] at b1 c1
  obtain rfl := Option.some.inj b1
  obtain rfl := Option.some.inj c1
  rw [b2] at c2
  obtain rfl := Option.some.inj c2
  obtain rfl := Option.some.inj a2
  obtain rfl := Option.some.inj b3
  obtain rfl := Option.some.inj c4
  exact ⟨s, z3, exec_reach .init hs,
    .step _ (.step _ (.step _ (.refl s (by simp [k0])) a1 (by simp [k1])) b2 (by simp [k2])) c3 (by simp [k3]), by simp [k0], k3⟩

/-- C88, every interleaving: an idle connection only leaves the queue as its first, taken by a call that will hand it out, attached
and no longer marked as the pool's. -/
theorem C88_oldest {cfg : Cfg} {s s' : St} {e : Ev} {x : Nat} (he : step cfg s e = some s') (hx : x ∈ idleIds s)
    (hn : x ∉ idleIds s') :
    idleIds s = x :: idleIds s' ∧ ∃ i o t, e = .run i o ∧ s.threads[i]? = some (.take t) ∧
      s'.threads[i]? = some (.taken t ⟨⟨x, false⟩, .attached⟩) := by
  rcases Keep.step_queue he with hq | ⟨i, o, t, h, h1, h2, h3, h4⟩ | ⟨i, o, pc, h, _, _, hq, _⟩
  · exact absurd (by simpa [idleIds, hq] using hx) hn
  · have h5 : idleIds s = h.conn.id :: idleIds s' := by simp [idleIds, h3]
    rw [h5] at hx
    have hx : x = h.conn.id := by
      rcases List.mem_cons.mp hx with hx | hx
      · exact hx
      · exact absurd hx hn
    subst hx
    exact ⟨h5, i, o, t, h1, h2, h4⟩
  · refine absurd ?_ hn
    have h5 : idleIds s' = idleIds s ++ [h.conn.id] := by simp [idleIds, hq]
    rw [h5]
    simp [hx]

/-- An idle connection is taken. -/
example : ∃ s s', step cfg3 s (.run 4 .ready) = some s' ∧ 0 ∈ idleIds s ∧ 0 ∉ idleIds s' := by
  obtain ⟨s, hs⟩ : ∃ s, exec cfg3 St.init (twoKept ++ [.poll 9, .run 4 .ready]) = some s :=
    Option.isSome_iff_exists.mp (by decide +kernel)
  have k0 : (exec cfg3 St.init (twoKept ++ [.poll 9, .run 4 .ready])).map
      (fun s => (idleIds s, (step cfg3 s (.run 4 .ready)).map idleIds)) = some ([0, 1], some [1]) := by decide +kernel
  rw [hs] at k0
  simp at k0
  obtain ⟨k0, s', k1, k2⟩ := k0
  exact ⟨s, s', k1, by simp [k0], by simp [k2]⟩

/-! ### How many -/

/-- C88: when at no time more than `k` calls were in progress, and now none is, the pool keeps at most `k - 1` connections more
than the minimum, and none if the minimum is zero. Missing for the full property: that it keeps at most the minimum, which fails
when handles are dropped at the same time (`C88_minimum_violated`). -/
theorem C88_kept_partial {cfg : Cfg} {k : Nat} {s : St} (h : ReachAtMost cfg k s) (hq : Quiet s) :
    (idleIds s).length ≤ cfg.min + k - 1 ∧ (cfg.min = 0 → idleIds s = []) := by
  have h1 := (Keep.atMost_few h).1
  unfold Keep.Few at h1
  have hz : ∀ (w : Pc → Nat), (∀ e, w (.done e) = 0) → ∀ l : List Pc, (∀ pc ∈ l, ∃ e, pc = .done e) → wsum w l = 0 := by
    intro w hw l
    induction l with
    | nil => simp
    | cons a l ih =>
      intro hl
      obtain ⟨e, rfl⟩ := hl a (by simp)
      simp [ih (fun pc hp => hl pc (by simp [hp])), hw]
  rw [hz Keep.storeW (fun _ => rfl) _ hq, hz Keep.takeW (fun _ => rfl) _ hq] at h1
  have h2 : (idleIds s).length = s.idle.length := by simp [idleIds]
  by_cases hm : cfg.min = 0
  · rw [if_pos hm] at h1
    refine ⟨by omega, fun _ => List.eq_nil_of_length_eq_zero (by omega)⟩
  · rw [if_neg hm] at h1
    exact ⟨by omega, fun h => absurd h hm⟩

/-- Two connections are kept by a pool used by one task at a time: the bound is met. -/
example : ∃ s, ReachAtMost cfg3 1 s ∧ Quiet s ∧ (idleIds s).length = cfg3.min + 1 - 1 := by
  obtain ⟨s, hs⟩ : ∃ s, execAtMost cfg3 1 St.init twoKept = some s := Option.isSome_iff_exists.mp (by decide +kernel)
  have k : (execAtMost cfg3 1 St.init twoKept).map (fun s => (isQuiet s, (idleIds s).length)) = some (true, 2) := by decide +kernel
  rw [hs] at k
  simp at k
  exact ⟨s, execAtMost_reach .init hs, isQuiet_quiet k.1, k.2⟩

/-- Two tasks have a connection each and drop their handles at the same time: both find that fewer than the minimum are idle. -/
def bothKept : List Ev :=
  .poll 7 :: runs 0 11 .ready ++ .poll 8 :: runs 1 11 .ready ++ [.drop 0, .drop 1, .run 2 .ready, .run 3 .ready] ++
    runs 2 3 .ready ++ runs 3 3 .ready

/-- C88 fails when two handles are dropped at the same time: a pool that should keep one connection keeps two, since the length of
the queue is read before the connection is put there (/repo/src/pool/mod.rs:262-263). They stay until they are used. -/
theorem C88_minimum_violated : ∃ s, ReachAtMost cfg2 2 s ∧ Quiet s ∧ cfg2.min < (idleIds s).length := by
  obtain ⟨s, hs⟩ : ∃ s, execAtMost cfg2 2 St.init bothKept = some s := Option.isSome_iff_exists.mp (by decide +kernel)
  have k : (execAtMost cfg2 2 St.init bothKept).map (fun s => (isQuiet s, (idleIds s).length)) = some (true, 2) := by decide +kernel
  rw [hs] at k
  simp at k
  exact ⟨s, execAtMost_reach .init hs, isQuiet_quiet k.1, by rw [k.2]; decide⟩

/-! ### How many there are -/

/-- C48 when calls overlap: with at most `k` calls in progress at any time, and no panic over a full idle store, there are never
more than twice the maximum and `k` connections. Missing for the full property: the maximum itself, which is exceeded by as much as
itself (`C48_twice_violated`); what happens after such a panic, which leaves the counter wrong (`C49_underflow_violated`). -/
theorem C48_overlapping_partial {cfg : Cfg} {k : Nat} {s : St} (hw : 2 * cfg.max + 2 * k < 18446744073709551616)
    (h : ReachAtMost cfg k s) (hm : ∀ pc ∈ s.threads, miscounted pc = false) :
    (connections s).length ≤ 2 * cfg.max + k := by
  have := (Keep.atMost_placed hw h hm).1
  rw [Keep.connections_placed]
  omega

/-- A pool of two connections that keeps both. -/
def cfg22 : Cfg := ⟨2, 2, 1⟩

/-- Two tasks get a connection each. Twice, a poll reads that few connections are in use while handles are given back, and then
that none is idle, because they have been taken again, and opens one more. -/
def staleRun : List Ev :=
  .poll 1 :: runs 0 11 .ready ++ .poll 2 :: runs 1 11 .ready ++
  .poll 3 :: runs 2 3 .ready ++ .drop 0 :: runs 3 4 .ready ++ .drop 1 :: runs 4 4 .ready ++ runs 2 1 .ready ++
  .poll 4 :: runs 5 3 .ready ++ .poll 5 :: runs 6 3 .ready ++ runs 2 7 .ready ++
  .poll 6 :: runs 7 3 .ready ++ .drop 2 :: runs 8 4 .ready ++ .drop 3 :: runs 9 4 .ready ++ runs 7 1 .ready ++
  .poll 7 :: runs 10 3 .ready ++ .poll 8 :: runs 11 3 .ready ++ runs 7 7 .ready

theorem staleRun_reach : ∃ s, ReachAtMost cfg22 2 s ∧ (∀ pc ∈ s.threads, miscounted pc = false) ∧ Quiet s ∧ (inUse s).length = 4 := by
  obtain ⟨s, hs⟩ : ∃ s, execAtMost cfg22 2 St.init staleRun = some s := Option.isSome_iff_exists.mp (by decide +kernel)
  have k : (execAtMost cfg22 2 St.init staleRun).map (fun s => (s.threads.all fun pc => !miscounted pc, isQuiet s, (inUse s).length)) =
      some (true, true, 4) := by decide +kernel
  rw [hs] at k
  simp at k
  exact ⟨s, execAtMost_reach .init hs, k.1, isQuiet_quiet k.2.1, k.2.2⟩

/-- The hypotheses of `C48_overlapping_partial` are met with more connections than the maximum. -/
example : ∃ s, 2 * cfg22.max + 2 * 2 < 18446744073709551616 ∧ ReachAtMost cfg22 2 s ∧
    (∀ pc ∈ s.threads, miscounted pc = false) ∧ cfg22.max < (inUse s).length := by
  obtain ⟨s, h1, h2, -, h3⟩ := staleRun_reach
  exact ⟨s, by decide, h1, h2, by rw [h3]; decide⟩

/-- C48 fails by as much as the maximum itself although only two calls ever overlap: four connections are handed out of a pool of
two and in use at the same time, with no call in progress. The three reads of `conn_count` (/repo/src/pool/mod.rs:41-46) are not
one. -/
theorem C48_twice_violated : ∃ s, ReachAtMost cfg22 2 s ∧ Quiet s ∧ (inUse s).length = 2 * cfg22.max := by
  obtain ⟨s, h1, -, h2, h3⟩ := staleRun_reach
  exact ⟨s, h1, h2, h3⟩

/-! ### What is not kept -/

/-- C88, every interleaving: a connection lost by an operation is gone. It is never idle, in use or in the hands of a call again. -/
theorem C88_lost {cfg : Cfg} {s s1 s2 : St} {j : Nat} {c : PConn} {b : Binding} (hr : Reach cfg s)
    (h : s.out[j]? = some ⟨some c, b⟩) (he : step cfg s (.lose j) = some s1) (hs : Steps cfg s1 s2) :
    c.id ∉ connections s2 :=
  (Keep.steps_gone (Keep.lose_gone hr h he) hs).not_mem

/-- A connection is handed out and lost. -/
example : ∃ s s1, Reach cfg2 s ∧ s.out[0]? = some ⟨some ⟨0, false⟩, .attached⟩ ∧ step cfg2 s (.lose 0) = some s1 := by
  obtain ⟨s, hs⟩ : ∃ s, exec cfg2 St.init openOne = some s := Option.isSome_iff_exists.mp (by decide +kernel)
  have k : (exec cfg2 St.init openOne).map (fun s => (s.out[0]?, (step cfg2 s (.lose 0)).isSome)) =
      some (some ⟨some ⟨0, false⟩, .attached⟩, true) := by decide +kernel
  rw [hs] at k
  have k := Option.some.inj k
  obtain ⟨k1, k2⟩ := Prod.mk.inj k
  obtain ⟨s1, k2⟩ := Option.isSome_iff_exists.mp k2
  exact ⟨s, s1, exec_reach .init hs, k1, k2⟩

/-- C88, every interleaving: a connection whose handle is dropped while it is detached, that is after an operation that was not
finished, is neither kept nor handed out again, and is closed when the calls in progress have come to their end. -/
theorem C88_unfinished {cfg : Cfg} {s s1 s2 : St} {j : Nat} {c : PConn} {b : Binding} (hr : Reach cfg s)
    (h : s.out[j]? = some ⟨some c, b⟩) (hb : b ≠ .attached) (he : step cfg s (.drop j) = some s1) (hs : Steps cfg s1 s2) :
    c.id ∉ idleIds s2 ∧ c.id ∉ inUse s2 ∧ (Quiet s2 → c.id ∉ connections s2) :=
  (Keep.steps_doomed (Keep.drop_doomed hr h hb he) hs).spec

/-- A connection is handed out, an operation detaches its handle, and the handle is dropped. -/
example : ∃ s s1, Reach cfg2 s ∧ s.out[0]? = some ⟨some ⟨0, false⟩, .detached⟩ ∧ step cfg2 s (.drop 0) = some s1 := by
  obtain ⟨s, hs⟩ : ∃ s, exec cfg2 St.init (openOne ++ [.rebind 0 .detached]) = some s :=
    Option.isSome_iff_exists.mp (by decide +kernel)
  have k : (exec cfg2 St.init (openOne ++ [.rebind 0 .detached])).map (fun s => (s.out[0]?, (step cfg2 s (.drop 0)).isSome)) =
      some (some ⟨some ⟨0, false⟩, .detached⟩, true) := by decide +kernel
  rw [hs] at k
  have k := Option.some.inj k
  obtain ⟨k1, k2⟩ := Prod.mk.inj k
  obtain ⟨s1, k2⟩ := Option.isSome_iff_exists.mp k2
  exact ⟨s, s1, exec_reach .init hs, k1, k2⟩

/-! ### A call that is not disturbed -/

theorem alone_runs {cfg : Cfg} {i n : Nat} {o : Outcome} {s0 s s' : St} (h0 : Alone cfg i s0 s) (h : exec cfg s (runs i n o) = some s') :
    Alone cfg i s0 s' := by
  induction n generalizing s with
  | zero => simp [runs, exec] at h; subst h; exact h0
  | succ n ih =>
    simp only [runs, List.replicate_succ, exec] at h
    cases hs : step cfg s (.run i o) with
    | none => simp [hs] at h
    | some x =>
      simp only [hs, Option.bind_some] at h
      exact ih (.step o h0 hs) h

/-- A task opens a connection and drops its handle. -/
theorem exGiven : ∃ s s1 s2, s.out[0]? = some ⟨some ⟨0, false⟩, .attached⟩ ∧ step cfg3 s (.drop 0) = some s1 ∧
    Alone cfg3 s.threads.length s1 s2 ∧ s2.threads[s.threads.length]? = some (.done .finished) ∧ idleIds s = [] ∧ idleIds s2 = [0] := by
  obtain ⟨s, hs⟩ : ∃ s, exec cfg3 St.init openOne = some s := Option.isSome_iff_exists.mp (by decide +kernel)
  have k0 : (exec cfg3 St.init openOne).map (fun s => (s.out[0]?, s.threads.length, idleIds s)) =
      some (some ⟨some ⟨0, false⟩, .attached⟩, 1, []) := by decide +kernel
  have k : ((exec cfg3 St.init openOne).bind fun s => (step cfg3 s (.drop 0)).bind fun s1 =>
      (exec cfg3 s1 (runs 1 4 .ready)).map fun s2 => (s2.threads[1]?, idleIds s2)) =
      some (some (.done .finished), [0]) := by decide +kernel
  rw [hs] at k k0
  simp only [Option.map_some, Option.some.injEq, Prod.mk.injEq, Option.map_eq_some_iff, Option.bind_some,
    Option.bind_eq_some_iff] at k k0
  obtain ⟨k1, k2, k3⟩ := k0
  obtain ⟨s1, k4, s2, k5, k6, k7⟩ := k
  exact ⟨s, s1, s2, k1, k4, by rw [k2]; exact alone_runs (.refl s1) k5, by rw [k2]; exact k6, k3, k7⟩

/-- A task polls a pool that keeps two connections. -/
theorem exHanded : ∃ s s1 s2, step cfg3 s (.poll 9) = some s1 ∧ Alone cfg3 s.threads.length s1 s2 ∧
    s2.threads[s.threads.length]? = some (.done (.handed 9)) ∧ s.new = none ∧ idleIds s = [0, 1] ∧ idleIds s2 = [1] := by
  obtain ⟨s, hs⟩ : ∃ s, exec cfg3 St.init twoKept = some s := Option.isSome_iff_exists.mp (by decide +kernel)
  have k0 : (exec cfg3 St.init twoKept).map (fun s => (s.new, s.threads.length, idleIds s)) =
      some (none, 4, [0, 1]) := by decide +kernel
  have k : ((exec cfg3 St.init twoKept).bind fun s => (step cfg3 s (.poll 9)).bind fun s1 =>
      (exec cfg3 s1 (runs 4 3 .ready)).map fun s2 => (s2.threads[4]?, idleIds s2)) =
      some (some (.done (.handed 9)), [1]) := by decide +kernel
  rw [hs] at k k0
  simp only [Option.map_some, Option.some.injEq, Prod.mk.injEq, Option.map_eq_some_iff, Option.bind_some,
    Option.bind_eq_some_iff] at k k0
  obtain ⟨k1, k2, k3⟩ := k0
  obtain ⟨s1, k4, s2, k5, k6, k7⟩ := k
  exact ⟨s, s1, s2, k4, by rw [k2]; exact alone_runs (.refl s1) k5, by rw [k2]; exact k6, k1, k3, k7⟩

/-- C88: when nothing else happens, a handle dropped with its connection is put at the end of the queue if it is attached and the
queue has fewer than the minimum and the maximum; otherwise the queue is as before. -/
theorem C88_given_back {cfg : Cfg} {s s1 s2 : St} {j : Nat} {c : PConn} {b : Binding} {e : End}
    (h : s.out[j]? = some ⟨some c, b⟩) (hb : b ≠ .none) (he : step cfg s (.drop j) = some s1)
    (ha : Alone cfg s.threads.length s1 s2) (hd : s2.threads[s.threads.length]? = some (.done e)) :
    idleIds s2 = if b = .attached ∧ s.idle.length < cfg.min ∧ s.idle.length < cfg.max then idleIds s ++ [c.id] else idleIds s :=
  Keep.drop_alone h hb he ha hd

/-- The conditions are met: `exGiven`. -/
example : ∃ s s1 s2, step cfg3 s (.drop 0) = some s1 ∧ Alone cfg3 s.threads.length s1 s2 ∧ idleIds s2 = idleIds s ++ [0] := by
  obtain ⟨s, s1, s2, -, h2, h3, -, h5, h6⟩ := exGiven
  exact ⟨s, s1, s2, h2, h3, by simp [h5, h6]⟩

/-- This is what `dropHandle` of `Model/PoolUse` does, which C86 is about: the numbers of the connections that it keeps. -/
theorem C88_given_back_is_dropHandle {cfg : Cfg} {s s1 s2 : St} {j : Nat} {c : PConn} {b : Binding} {e : End}
    (h : s.out[j]? = some ⟨some c, b⟩) (hb : b ≠ .none) (he : step cfg s (.drop j) = some s1)
    (ha : Alone cfg s.threads.length s1 s2) (hd : s2.threads[s.threads.length]? = some (.done e))
    (number : CH.Handle → Nat) (hn : ∀ x b, number { x with binding := b } = number x) (idle : List CH.Handle) (x : CH.Handle)
    (hi : idle.map number = idleIds s) (hx : number x = c.id) (hxc : x.inner.isSome) (hxb : x.binding = b) :
    (CH.dropHandle cfg.min cfg.max idle x).map number = idleIds s2 := by
  rw [C88_given_back h hb he ha hd]
  have hl : idle.length = s.idle.length := by
    have := congrArg List.length hi
    simpa [idleIds] using this
  unfold CH.dropHandle
  obtain ⟨y, hy⟩ := Option.isSome_iff_exists.mp hxc
  rw [hy]
  simp only
  rw [if_neg (by rw [hxb]; exact hb), hl, hxb]
  by_cases hc : b = .attached ∧ s.idle.length < cfg.min ∧ s.idle.length < cfg.max
  · rw [if_pos hc, if_pos ⟨hc.2.1, hc.1, hc.2.2⟩]
    have h1 := hn x .none
    rw [hx, hy] at h1
    rw [List.map_append, hi]
    exact congrArg (idleIds s ++ [·]) h1
  · rw [if_neg hc, if_neg (fun h => hc ⟨h.2.1, h.1, h.2.2⟩), hi]

/-- The numbers of handles can be kept in their contexts, here as the number of retries. -/
example : ∃ s s1 s2, step cfg3 s (.drop 0) = some s1 ∧ Alone cfg3 s.threads.length s1 s2 ∧
    ([] : List CH.Handle).map (fun x => x.context.options.sendRetries) = idleIds s := by
  obtain ⟨s, s1, s2, -, h2, h3, -, h5, -⟩ := exGiven
  exact ⟨s, s1, s2, h2, h3, by simp [h5]⟩

example : ∀ (x : CH.Handle) b, ({ x with binding := b } : CH.Handle).context.options.sendRetries = x.context.options.sendRetries :=
  fun _ _ => rfl

/-- C88: when nothing else happens, a poll that hands out a connection hands out the one that has been idle longest, attached. If
a connection being opened became ready it was put at the end of the queue before that; it is the one that was being opened, or a
new one if nothing was idle. A poll that fails or has to wait leaves the queue as it was, and waits only if it is empty. -/
theorem C88_handed {cfg : Cfg} {s s1 s2 : St} {t : Nat} {e : End} (he : step cfg s (.poll t) = some s1)
    (ha : Alone cfg s.threads.length s1 s2) (hd : s2.threads[s.threads.length]? = some (.done e)) :
    (∀ u, e = .handed u → ∃ k opened, s2.out = s.out ++ [⟨some ⟨k, false⟩, .attached⟩] ∧ k :: idleIds s2 = idleIds s ++ opened ∧
      (opened = [] ∨ ∃ n, opened = [n] ∧ ((∃ f, s.new = some f ∧ f.id = n) ∨ idleIds s = [] ∧ s.nextId ≤ n))) ∧
    ((∀ u, e ≠ .handed u) → s2.out = s.out ∧ idleIds s2 = idleIds s) ∧ (∀ u, e = .pending u → idleIds s = []) := by
  have h := Keep.poll_alone he ha hd
  refine ⟨?_, ?_, ?_⟩
  · rintro u rfl
    obtain ⟨k, h1, opened, h2, h3⟩ := h
    refine ⟨k, opened, h1, h2, h3.imp id ?_⟩
    rintro ⟨n, h4, h5⟩
    refine ⟨n, h4, h5.imp id ?_⟩
    rintro ⟨h6, h7⟩
    exact ⟨by simp [idleIds, h6], h7⟩
  · intro hn
    cases e with
    | handed u => exact absurd rfl (hn u)
    | failed u => exact ⟨h.2, by simp [idleIds, h.1]⟩
    | pending u => exact ⟨h.2.1, by simp [idleIds, h.1]⟩
    | panicked => exact ⟨h.2, by simp [idleIds, h.1]⟩
    | overflowed => exact ⟨h.2, by simp [idleIds, h.1]⟩
    | finished => exact ⟨h.2, by simp [idleIds, h.1]⟩
  · rintro u rfl
    simp [idleIds, h.2.2]

/-- The conditions are met: `exHanded`. -/
example : ∃ s s1 s2, step cfg3 s (.poll 9) = some s1 ∧ Alone cfg3 s.threads.length s1 s2 ∧
    s2.threads[s.threads.length]? = some (.done (.handed 9)) ∧ 0 :: idleIds s2 = idleIds s := by
  obtain ⟨s, s1, s2, h1, h2, h3, -, h5, h6⟩ := exHanded
  exact ⟨s, s1, s2, h1, h2, h3, by simp [h5, h6]⟩

/-- This is what `getHandle` of `Model/PoolUse` does when no connection is being opened. -/
theorem C88_handed_is_getHandle {cfg : Cfg} {s s1 s2 : St} {t u : Nat} (he : step cfg s (.poll t) = some s1)
    (ha : Alone cfg s.threads.length s1 s2) (hd : s2.threads[s.threads.length]? = some (.done (.handed u))) (hw : s.new = none)
    (number : CH.Handle → Nat) (hn : ∀ x b, number { x with binding := b } = number x) (idle : List CH.Handle)
    (hi : idle.map number = idleIds s) :
    ∃ k, s2.out = s.out ++ [⟨some ⟨k, false⟩, .attached⟩] ∧ (idleIds s = [] → s.nextId ≤ k) ∧
      ∀ opened : CH.Handle, (idleIds s = [] → number opened = k) →
        ∃ x rest, getHandle idle opened = some (x, rest) ∧ number x = k ∧ x.binding = .attached ∧ rest.map number = idleIds s2 := by
  obtain ⟨k, opened, h1, h2, h3⟩ := (C88_handed he ha hd).1 u rfl
  cases hs : idle with
  | nil =>
    rw [hs] at hi
    have hi : idleIds s = [] := hi.symm
    rw [hi] at h2
    rcases h3 with rfl | ⟨n, rfl, h3⟩
    · simp at h2
    · simp at h2
      obtain ⟨rfl, h4⟩ := h2
      refine ⟨k, h1, ?_, ?_⟩
      · intro _
        rcases h3 with ⟨f, h5, -⟩ | ⟨-, h5⟩
        · rw [hw] at h5; simp at h5
        · exact h5
      · intro x hx
        exact ⟨_, _, rfl, by rw [hn]; exact hx hi, rfl, by rw [h4]; rfl⟩
  | cons y l =>
    rw [hs] at hi
    simp at hi
    have hne : idleIds s ≠ [] := by rw [← hi]; simp
    rcases h3 with rfl | ⟨n, rfl, h3⟩
    · rw [← hi] at h2
      simp at h2
      refine ⟨k, h1, fun h => absurd h hne, fun x _ => ⟨_, _, rfl, by rw [hn]; exact h2.1.symm, rfl, h2.2.symm⟩⟩
    · rcases h3 with ⟨f, h5, -⟩ | ⟨h5, -⟩
      · rw [hw] at h5; simp at h5
      · exact absurd h5 hne

/-- A pool that keeps two connections, and the handles that stand for them. -/
example : ∃ s s1 s2, step cfg3 s (.poll 9) = some s1 ∧ Alone cfg3 s.threads.length s1 s2 ∧
    s2.threads[s.threads.length]? = some (.done (.handed 9)) ∧ s.new = none ∧
    ∃ idle : List CH.Handle, idle.map (fun x => x.context.options.sendRetries) = idleIds s := by
  obtain ⟨s, s1, s2, h1, h2, h3, h4, h5, -⟩ := exHanded
  exact ⟨s, s1, s2, h1, h2, h3, h4, [⟨none, ⟨0, "", { Options.default with sendRetries := 0 }⟩, .none⟩,
    ⟨none, ⟨0, "", { Options.default with sendRetries := 1 }⟩, .none⟩], by simp [h5]⟩

end CH.Props
