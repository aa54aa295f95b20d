import Verif.Lemmas.PoolCall
import Verif.Props.Keep

/-! Property C88: how many connections a pool may keep beyond its minimum, for any number of calls in progress. -/

namespace CH.Props
open CH CH.Spec CH.Pool

namespace Kept
open CH.PoolCall (take_create poll_none poll_ready take_some)

theorem step_at (cfg : Cfg) (s : St) (o : Outcome) (pc : Pc) (l1 l2 : List Pc) (h : ∀ e, pc ≠ .done e) :
    step cfg { s with threads := l1 ++ pc :: l2 } (.run l1.length o) =
      some { (stepPc cfg s o pc).1 with threads := l1 ++ (stepPc cfg s o pc).2 :: l2 } := by
  have e : step cfg { s with threads := l1 ++ pc :: l2 } (.run l1.length o) =
      some { (stepPc cfg { s with threads := l1 ++ pc :: l2 } o pc).1 with
        threads := (l1 ++ pc :: l2).set l1.length (stepPc cfg { s with threads := l1 ++ pc :: l2 } o pc).2 } := by
    simp only [step]
    have : (l1 ++ pc :: l2)[l1.length]? = some pc := by simp
    rw [this]
    cases pc <;> first | rfl | exact absurd rfl (h _)
  rw [e, PoolCall.stepPc_threads]
  simp

theorem count_le (l1 l2 : List Pc) (pc : Pc) : (l1 ++ pc :: l2).countP ongoingCall ≤ (l1 ++ l2).countP ongoingCall + 1 := by
  rw [List.countP_append, List.countP_append, List.countP_cons]
  split <;> omega

/-- A call goes on while the others stand. -/
theorem goes_on {cfg : Cfg} {k : Nat} {o : Outcome} {s s' : St} {pc pc' : Pc} (h : PoolCall.Alone cfg o s pc s' pc') (l1 l2 : List Pc)
    (hk : (l1 ++ l2).countP ongoingCall < k) (hr : ReachAtMost cfg k { s with threads := l1 ++ pc :: l2 }) :
    ReachAtMost cfg k { s' with threads := l1 ++ pc' :: l2 } := by
  induction h with
  | refl => exact hr
  | step hp _ ih =>
    refine ih (.step (.run l1.length o) hr (step_at _ _ _ _ _ _ hp) ?_)
    exact Nat.le_trans (count_le _ _ _) hk

/-- A handle in use. -/
def live (c : PConn) : UHandle := ⟨some c, .attached⟩

theorem quiet_count {s : St} (h : Quiet s) : s.threads.countP ongoingCall = 0 := by
  rw [List.countP_eq_zero]
  intro pc hp
  obtain ⟨e, rfl⟩ := h pc hp
  simp [ongoingCall]

/-- One task after the other opens a connection. -/
theorem gets (cfg : Cfg) (k : Nat) (hk : 0 < k) (hh : 0 < cfg.hosts) (hu : cfg.max + 1 < usize) : ∀ n, n ≤ cfg.max →
    ∃ (s : St) (cs : List PConn), ReachAtMost cfg k s ∧ Quiet s ∧ s.new = none ∧ s.idle = [] ∧ s.tasks = [] ∧ s.ongoing = n ∧ s.out = cs.map live ∧
      cs.length = n := by
  intro n
  induction n with
  | zero => exact fun _ => ⟨St.init, [], .init, (fun pc hp => by cases hp), rfl, rfl, rfl, rfl, rfl, rfl⟩
  | succ n ih =>
    intro hn
    obtain ⟨s, cs, hr, hq, h1, h2, h3, h4, h5, h6⟩ := ih (by omega)
    have hc := quiet_count hq
    have hp : ReachAtMost cfg k { s with threads := s.threads ++ Pc.poll 0 :: [] } :=
      .step (.poll 0) hr rfl (by show (s.threads ++ [Pc.poll 0]).countP ongoingCall ≤ k; rw [List.countP_append, hc]; simp [ongoingCall]; omega)
    have a1 := (poll_none (cfg := cfg) (o := .ready) (t := 0) h1).trans (take_create h2 h1 (by omega) (by omega))
    obtain ⟨num, addrs, a2⟩ := poll_ready (cfg := cfg) (t := 0)
      (s := { s with new := some ⟨s.nextId, false, none⟩, nextId := s.nextId + 1 }) hh rfl (by simp [h2]; omega)
    simp only [h2] at a2
    have a3 := (a1.trans (by simpa [h2] using a2)).trans (take_some rfl)
    have hr' := goes_on a3 s.threads [] (by rw [List.append_nil, hc]; exact hk) hp
    refine ⟨_, cs ++ [⟨s.nextId, false⟩], hr', ?_, rfl, rfl, h3, ?_, ?_, by simp [h6]⟩
    · intro pc hpc
      rcases List.mem_append.mp hpc with h | h
      · exact hq pc h
      · simp only [List.mem_singleton] at h
        exact ⟨_, h⟩
    · show incr s.ongoing = n + 1
      unfold incr
      rw [h4, Nat.mod_eq_of_lt (by omega)]
    · show s.out ++ [_] = _
      rw [h5, List.map_append]
      rfl

theorem to_store {cfg : Cfg} {o : Outcome} {s : St} {c : PConn} (h : s.idle.length < cfg.min) :
    PoolCall.Alone cfg o s (.giveBack ⟨c, .attached⟩ false) s (.store ⟨{ c with inside := true }, .none⟩ false) := by
  refine .step (by simp) ?_
  rw [stepPc, if_pos ⟨h, rfl⟩]
  exact .refl _ _

theorem stored {cfg : Cfg} {o : Outcome} {s : St} {h : PHandle} (hi : s.idle.length < cfg.max) (ht : s.tasks = []) :
    PoolCall.Alone cfg o s (.store h false) { s with idle := s.idle ++ [h], ongoing := decr s.ongoing } (.done .finished) := by
  refine .step (by simp) ?_
  rw [stepPc, if_pos hi]
  refine .step (by simp) ?_
  rw [stepPc]
  refine .step (by simp) ?_
  simp only [stepPc, ht, Bool.false_eq_true, if_false]
  exact .refl _ _

/-- What is put into the store. -/
def kept (c : PConn) : PHandle := ⟨{ c with inside := true }, .none⟩

theorem drop_step {cfg : Cfg} {s : St} {dead : List UHandle} {c : PConn} {cs : List PConn} (ho : s.out = dead ++ (c :: cs).map live) :
    step cfg s (.drop dead.length) = some
      { s with out := (dead ++ [⟨none, .none⟩]) ++ cs.map live, threads := s.threads ++ Pc.giveBack ⟨c, .attached⟩ false :: [] } := by
  have e : s.out[dead.length]? = some (live c) := by rw [ho]; simp
  rw [step, e]
  dsimp only
  rw [ho]
  simp [live, Pool.dropHandle]

/-- Handles are dropped one after the other. -/
theorem gives_back (cfg : Cfg) (k : Nat) (hk : 0 < k) (hm : cfg.min ≤ cfg.max) (rest : List PConn) : ∀ (cs : List PConn) (s : St)
    (dead : List UHandle),
    ReachAtMost cfg k s → Quiet s → s.tasks = [] → s.idle.length + cs.length ≤ cfg.min → s.out = dead ++ (cs ++ rest).map live →
    ∃ s' dead', ReachAtMost cfg k s' ∧ Quiet s' ∧ s'.tasks = [] ∧ s'.idle.length = s.idle.length + cs.length ∧
      s'.out = dead' ++ rest.map live := by
  intro cs
  induction cs with
  | nil => exact fun s dead hr hq ht _ ho => ⟨s, dead, hr, hq, ht, rfl, ho⟩
  | cons c cs ih =>
    intro s dead hr hq ht hi ho
    have hc := quiet_count hq
    simp only [List.length_cons] at hi
    have hp := ReachAtMost.step (k := k) _ hr (drop_step (cfg := cfg) ho)
      (by show (s.threads ++ [Pc.giveBack _ _]).countP ongoingCall ≤ k; rw [List.countP_append, hc]; simp [ongoingCall]; omega)
    have hr' := goes_on (k := k) (o := .ready) (s := { s with out := (dead ++ [⟨none, .none⟩]) ++ (cs ++ rest).map live })
      ((to_store (c := c) (by dsimp only; omega)).trans (stored (cfg := cfg) (by dsimp only; omega) ht)) s.threads [] (by rw [List.append_nil, hc]; exact hk) hp
    obtain ⟨s', dead', g1, g2, g3, g4, g5⟩ := ih _ (dead ++ [⟨none, .none⟩]) hr' (by
      intro pc hpc
      rcases List.mem_append.mp hpc with h | h
      · exact hq pc h
      · simp only [List.mem_singleton] at h
        exact ⟨_, h⟩) ht (by simp; omega) rfl
    exact ⟨s', dead', g1, g2, g3, by rw [g4]; simp; omega, g5⟩

/-- Handles are dropped at the same time: all find the store below the minimum. -/
theorem all_find_room (cfg : Cfg) (k : Nat) : ∀ (cs : List PConn) (s : St) (dead : List UHandle),
    ReachAtMost cfg k s → s.threads.countP ongoingCall + cs.length ≤ k → s.idle.length < cfg.min →
    s.out = dead ++ cs.map live →
    ∃ s', ReachAtMost cfg k s' ∧ s'.threads = s.threads ++ cs.map (fun c => Pc.store (kept c) false) ∧ s'.idle = s.idle ∧
      s'.tasks = s.tasks := by
  intro cs
  induction cs with
  | nil => exact fun s dead hr _ _ _ => ⟨s, hr, by simp, rfl, rfl⟩
  | cons c cs ih =>
    intro s dead hr hk hi ho
    simp only [List.length_cons] at hk
    have hp := ReachAtMost.step (k := k) _ hr (drop_step (cfg := cfg) ho)
      (by show (s.threads ++ [Pc.giveBack _ _]).countP ongoingCall ≤ k; rw [List.countP_append]; simp [ongoingCall]; omega)
    have hr' := goes_on (k := k) (o := .ready) (s := { s with out := (dead ++ [⟨none, .none⟩]) ++ cs.map live })
      (to_store (cfg := cfg) (c := c) hi) s.threads [] (by rw [List.append_nil]; omega) hp
    obtain ⟨s', g1, g2, g3, g4⟩ := ih _ (dead ++ [⟨none, .none⟩]) hr'
      (by show (s.threads ++ [Pc.store _ _]).countP ongoingCall + _ ≤ k; rw [List.countP_append]; simp [ongoingCall]; omega) hi rfl
    refine ⟨s', g1, ?_, g3, g4⟩
    rw [g2]
    simp [kept]

/-- Then they all put their connection into the store. -/
theorem all_store (cfg : Cfg) (k : Nat) : ∀ (cs : List PConn) (s : St) (l1 : List Pc),
    ReachAtMost cfg k s → s.threads = l1 ++ cs.map (fun c => Pc.store (kept c) false) → (∀ pc ∈ l1, ∃ e, pc = .done e) →
    cs.length ≤ k → s.tasks = [] → s.idle.length + cs.length ≤ cfg.max →
    ∃ s', ReachAtMost cfg k s' ∧ Quiet s' ∧ s'.idle = s.idle ++ cs.map kept := by
  intro cs
  induction cs with
  | nil =>
    intro s l1 hr ht hq _ _ _
    exact ⟨s, hr, (by intro pc hp; rw [ht] at hp; exact hq pc (by simpa using hp)), by simp⟩
  | cons c cs ih =>
    intro s l1 hr ht hq hk hn hi
    simp only [List.length_cons] at hk hi
    have hz : l1.countP ongoingCall = 0 := by
      rw [List.countP_eq_zero]
      intro pc hp
      obtain ⟨e, rfl⟩ := hq pc hp
      simp [ongoingCall]
    have hr0 : ReachAtMost cfg k { s with threads := l1 ++ Pc.store (kept c) false :: cs.map (fun c => Pc.store (kept c) false) } := by
      rw [List.map_cons] at ht
      rw [← ht]
      exact hr
    have hle := List.countP_le_length (p := ongoingCall) (l := cs.map (fun c => Pc.store (kept c) false))
    rw [List.length_map] at hle
    have hr' := goes_on (o := .ready) (stored (by omega) hn) l1 (cs.map (fun c => Pc.store (kept c) false))
      (by rw [List.countP_append, hz]; omega) hr0
    obtain ⟨s', g1, g2, g3⟩ := ih _ (l1 ++ [.done .finished]) hr' (by simp)
      (by
        intro pc hpc
        rcases List.mem_append.mp hpc with h | h
        · exact hq pc h
        · simp only [List.mem_singleton] at h
          exact ⟨_, h⟩) (by omega) hn (by simp; omega)
    refine ⟨s', g1, g2, ?_⟩
    rw [g3]
    simp

end Kept

/-- C88: the bound of `C88_kept_partial` is the best there is. Whatever the limits of the pool and however many calls may be in
progress at a time, there is an execution after which the pool keeps `k - 1` connections more than the minimum: `k` handles are
dropped at the same time when one more connection is wanted. -/
theorem C88_kept_tight (cfg : Cfg) (k : Nat) (hk : 0 < k) (h0 : 0 < cfg.min) (hm : cfg.min + k - 1 ≤ cfg.max) (hh : 0 < cfg.hosts)
    (hu : cfg.max + 1 < usize) : ∃ s, ReachAtMost cfg k s ∧ Quiet s ∧ (idleIds s).length = cfg.min + k - 1 := by
  obtain ⟨s, cs, hr, hq, _, hi, ht, _, ho, hl⟩ := Kept.gets cfg k hk hh hu (cfg.min + k - 1) hm
  have hsplit : cs = cs.take (cfg.min - 1) ++ cs.drop (cfg.min - 1) := (List.take_append_drop _ _).symm
  obtain ⟨s1, dead, hr1, hq1, ht1, hi1, ho1⟩ := Kept.gives_back cfg k hk (by omega) (cs.drop (cfg.min - 1)) (cs.take (cfg.min - 1)) s []
    hr hq ht (by rw [hi]; simp; omega) (by rw [ho, ← hsplit]; rfl)
  have e1 : s1.idle.length = cfg.min - 1 := by rw [hi1, hi]; simp; omega
  have e2 : (cs.drop (cfg.min - 1)).length = k := by simp; omega
  obtain ⟨s2, hr2, ht2, hi2, hn2⟩ := Kept.all_find_room cfg k (cs.drop (cfg.min - 1)) s1 dead hr1
    (by rw [Kept.quiet_count hq1]; omega) (by omega) ho1
  obtain ⟨s3, hr3, hq3, hi3⟩ := Kept.all_store cfg k (cs.drop (cfg.min - 1)) s2 s1.threads hr2 ht2 hq1 (by omega) (by rw [hn2, ht1])
    (by rw [hi2]; omega)
  refine ⟨s3, hr3, hq3, ?_⟩
  rw [idleIds, List.length_map, hi3, List.length_append, hi2, List.length_map]
  omega

-- the limits of the default options with five calls at a time: fourteen connections are kept where ten are wanted
example : (0 < 5) ∧ 0 < (Cfg.new (some Options.default)).min ∧
    (Cfg.new (some Options.default)).min + 5 - 1 ≤ (Cfg.new (some Options.default)).max ∧ 0 < (Cfg.new (some Options.default)).hosts ∧
    (Cfg.new (some Options.default)).max + 1 < usize := by decide

end CH.Props
