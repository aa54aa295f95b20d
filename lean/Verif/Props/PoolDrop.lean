import Verif.Lemmas.PoolDrop
import Verif.Props.Pool

/-! # C62: what happens when a pool is no longer used -/

namespace CH.Props

open CH CH.Spec CH.Pool

/-- C62: while the user has a clone of the pool, or a handle that belongs to it, or a call is in progress, the pool is not freed, and
it is in one of the states that the theorems about the pool are about. -/
theorem C62_alive {cfg : Cfg} {l : Life} (h : LReach cfg l)
    (hu : 0 < l.users ∨ (∃ u ∈ l.st.out, u.binding ≠ .none) ∨ ¬ Quiet l.st) :
    l.freed = false ∧ Reach cfg l.st := by
  have hf : l.freed = false := by
    cases hf : l.freed
    · rfl
    · obtain ⟨h1, h2, _⟩ := (reach_life h).freed hf
      obtain ⟨a, _, _, d⟩ := owners_zero h2
      rcases hu with hu | ⟨u, hm, hb⟩ | hq
      · omega
      · exact absurd (a u hm) hb
      · exact absurd d hq
  exact ⟨hf, alive_reach h hf⟩

/-- C62: when the user has dropped the pool and all handles, every connection is closed exactly if no connection is being opened and
no idle handle has a reference to the pool. -/
theorem C62_closed_iff {cfg : Cfg} {l : Life} (h : LReach cfg l) (ho : Over l) :
    connections l.st = [] ↔ l.st.new = none ∧ ∀ h ∈ l.st.idle, h.binding = .none := by
  constructor
  · intro hc
    simp only [connections, List.append_eq_nil_iff, List.map_eq_nil_iff] at hc
    obtain ⟨⟨⟨h1, h2⟩, -⟩, -⟩ := hc
    refine ⟨?_, ?_⟩
    · cases hn : l.st.new with
      | none => rfl
      | some f => rw [hn] at h1; simp at h1
    · rw [h2]
      exact fun x hx => absurd hx (by simp)
  · intro ⟨h1, h2⟩
    have hz : l.st.owners = 0 :=
      owners_of (fun x hx => by rw [ho.handles x hx]) h2 h1 ho.calls
    have hi := (reach_life h).settled (by rw [ho.pools, hz])
    have h3 : l.st.out.filterMap (fun h => h.conn.map (·.id)) = [] := by
      rw [List.filterMap_eq_nil_iff]
      intro x hx
      rw [ho.handles x hx]
      rfl
    have h4 : l.st.threads.filterMap held = [] := by
      rw [List.filterMap_eq_nil_iff]
      intro x hx
      obtain ⟨e, rfl⟩ := ho.calls x hx
      rfl
    simp [connections, h1, hi, h3, h4]

/-- C62, the part that holds: if the pool is used on one thread, no handle was dropped while a connection was being opened, and none is
being opened at the end, every connection is closed once the user has dropped the pool and all handles. Missing: the other
executions, see `C62_idle_violated` and `C62_opening_violated`. -/
theorem C62_closed_partial {cfg : Cfg} {l : Life} (h : CalmReach cfg l) (ho : Over l) (hn : l.st.new = none) :
    connections l.st = [] := by
  refine (C62_closed_iff (CalmReach.reach h) ho).mpr ⟨hn, ?_⟩
  rcases (calm_inv h).calm with ⟨t, ht, -⟩ | hc
  · obtain ⟨e, he⟩ := ho.calls _ ht
    exact absurd he (by simp)
  · exact hc.1

/-- C62: once the user has dropped everything nothing changes any more: connections that are open then stay open. -/
theorem C62_permanent {cfg : Cfg} {l l' : Life} (h : LReach cfg l) (ho : Over l) (hs : LSteps cfg l l') :
    connections l'.st = connections l.st := (over_steps ho (reach_life h) hs).2.2

/-- Events of the pool itself. -/
def base (es : List Ev) : List LEv := es.map .pool

/-- A connection is opened, used, given back, and the pool is dropped. -/
def goodRun : List LEv := base (openOne ++ [.drop 0] ++ runs 1 4 .ready) ++ [.drop]

/-- The pool and a clone of it are used; a connection is idle. -/
def halfRun : List LEv := .clone :: base (openOne ++ [.drop 0] ++ runs 1 4 .ready) ++ [.drop]

/-- A connection is in use. A second task finds none idle and starts to open another; the first is given back meanwhile. The
second task is polled again, when the new connection is open: it gets the idle one. Then everything is dropped. -/
def idleLeak : List LEv :=
  base (openOne ++ .poll 8 :: runs 1 14 .pending ++ [.drop 0] ++ runs 2 5 .ready ++ .poll 8 :: runs 3 5 .ready ++
    [.drop 1] ++ runs 4 3 .ready) ++ [.drop]

/-- A task gives up waiting while the connection is being opened, and the pool is dropped. -/
def openingLeak : List LEv := base (.poll 8 :: runs 0 15 .pending) ++ [.drop]

-- For `C62_alive` and the hypotheses of `C62_closed_partial`: the connection is kept while the pool is, and closed with it.
example : ((lexec cfg2 Life.init halfRun).map fun l => (l.users, l.freed, connections l.st)) = some (1, false, [0]) := by
  decide +kernel

example : ((calmExec cfg2 Life.init goodRun).map fun l => (isOver l, l.freed, l.st.new.isNone, connections l.st)) =
    some (true, true, true, []) := by decide +kernel

theorem good_reach : ∃ l, CalmReach cfg2 l ∧ Over l ∧ l.st.new = none ∧ l.st.nextId = 1 := by
  have h : ((calmExec cfg2 Life.init goodRun).map fun l => (isOver l, l.st.new.isNone, l.st.nextId)) =
      some (true, true, 1) := by decide +kernel
  cases hl : calmExec cfg2 Life.init goodRun with
  | none => rw [hl] at h; exact absurd h (by simp)
  | some l =>
    rw [hl] at h
    simp at h
    exact ⟨l, calmExec_reach .init hl, isOver_over h.1, h.2.1, h.2.2⟩

theorem leaks {cfg : Cfg} {es : List LEv} {ids : List Nat} (hne : ids ≠ [])
    (h : ((lexec cfg Life.init es).map fun l => (isOver l, connections l.st)) = some (true, ids)) :
    ∃ l, lexec cfg Life.init es = some l ∧ LReach cfg l ∧ Over l ∧ ∀ l', LSteps cfg l l' → connections l'.st = ids := by
  cases hl : lexec cfg Life.init es with
  | none => rw [hl] at h; exact absurd h (by simp)
  | some l =>
    rw [hl] at h
    simp at h
    have hr : LReach cfg l := lexec_reach .init hl
    have ho := isOver_over h.1
    exact ⟨l, rfl, hr, ho, fun l' hs => by rw [C62_permanent hr ho hs, h.2]⟩

/-- C62 does not hold: a connection that becomes open while another is idle stays in the pool with a reference to the pool, and if
the user then drops everything it is never closed. -/
theorem C62_idle_violated : ∃ l, LReach cfg2 l ∧ Over l ∧
    l.st.new = none ∧ ∀ l', LSteps cfg2 l l' → connections l'.st = [1] := by
  obtain ⟨l, hl, hr, ho, h⟩ := leaks (cfg := cfg2) (es := idleLeak) (ids := [1]) (by simp) (by decide +kernel)
  refine ⟨l, hr, ho, ?_, h⟩
  have hn : ((lexec cfg2 Life.init idleLeak).map fun l => l.st.new.isNone) = some true := by decide +kernel
  rw [hl] at hn
  exact Option.isNone_iff_eq_none.mp (by simpa using hn)

/-- C62 does not hold: if a task gives up waiting for a connection that is being opened and the user then drops everything, the
connection is left half open for ever. -/
theorem C62_opening_violated : ∃ l, LReach cfg2 l ∧ Over l ∧ ∀ l', LSteps cfg2 l l' → connections l'.st = [0] := by
  obtain ⟨l, -, hr, ho, h⟩ := leaks (cfg := cfg2) (es := openingLeak) (ids := [0]) (by simp) (by decide +kernel)
  exact ⟨l, hr, ho, h⟩

end CH.Props
