import Verif.Spec.Fetch
import Verif.Lemmas.Client
import Verif.Lemmas.Column

/-! Lemmas about gathering the blocks and the rows of an answer. -/

namespace CH
open Spec

theorem gather_eq (s : BStream) (h : Handle) (acc : List Block) :
    s.gather h acc = match s.next h with
      | (.block b, s', h') => s'.gather h' (if b.isEmpty then acc else acc ++ [b])
      | (.ended, s', h') => (.ok acc, s', h')
      | (.err e, s', h') => (.err e, s', h')
      | (.panic, s', h') => (.panic, s', h')
      | (.waits, s', h') => (.waits, s', h') := by
  rw [BStream.gather]
  split <;> simp_all

/-- What gathering comes to when this item stops it. -/
def stopped (acc : List Block) : BItem → OpRes (List Block)
  | .ended => .ok acc
  | .err e => .err e
  | .panic => .panic
  | .waits => .waits
  | .block _ => .panic

def isBlockItem : BItem → Bool
  | .block _ => true
  | _ => false

theorem gather_of_run (bs : List Block) : ∀ (s s' : BStream) (h h' : Handle) (acc : List Block) (x : BItem),
    isBlockItem x = false → (∀ b ∈ bs, b.columns ≠ []) →
    run (bs.length + 1) s h = (bs.map .block ++ [x], s', h') → s.gather h acc = (stopped (acc ++ bs) x, s', h') := by
  induction bs with
  | nil =>
    intro s s' h h' acc x hx _ e
    rw [gather_eq]
    obtain ⟨i, s1, h1, hn⟩ : ∃ i s1 h1, s.next h = (i, s1, h1) := ⟨_, _, _, rfl⟩
    rw [List.length_nil, run_next hn] at e
    simp [run] at e
    obtain ⟨rfl, rfl, rfl⟩ := e
    rw [hn]
    cases i <;> simp [stopped, isBlockItem] at hx ⊢
  | cons b bs ih =>
    intro s s' h h' acc x hx hne e
    rw [gather_eq]
    obtain ⟨i, s1, h1, hn⟩ : ∃ i s1 h1, s.next h = (i, s1, h1) := ⟨_, _, _, rfl⟩
    rw [List.length_cons, run_next hn] at e
    simp only [List.map_cons, List.cons_append, Prod.mk.injEq, List.cons.injEq] at e
    obtain ⟨⟨rfl, e1⟩, e2⟩ := e
    rw [hn]
    simp only
    have hb : b.isEmpty = false := by
      rw [isEmpty_iff]
      simp [hne b (by simp)]
    rw [ih s1 s' h1 h' (if b.isEmpty then acc else acc ++ [b]) x hx (fun c hc => hne c (by simp [hc])) (Prod.ext e1 e2), hb]
    simp

theorem gather_ok (n : Nat) : ∀ (s s' : BStream) (h h' : Handle) (acc out : List Block), s.inner.fuel < n →
    s.gather h acc = (.ok out, s', h') →
    ∃ bs : List Block, run (bs.length + 1) s h = (bs.map .block ++ [.ended], s', h') ∧ out = acc ++ bs.filter fun b => !b.isEmpty := by
  induction n with
  | zero => intro s s' h h' acc out hf; omega
  | succ n ih =>
    intro s s' h h' acc out hf e
    rw [gather_eq] at e
    obtain ⟨i, s1, h1, hn⟩ : ∃ i s1 h1, s.next h = (i, s1, h1) := ⟨_, _, _, rfl⟩
    rw [hn] at e
    cases i with
    | block b =>
      simp only at e
      have := BStream.next_fuel hn
      obtain ⟨bs, h2, h3⟩ := ih s1 s' h1 h' _ out (by omega) e
      refine ⟨b :: bs, ?_, ?_⟩
      · rw [List.length_cons, run_next hn, h2]
        rfl
      · rw [h3]
        rw [List.filter_cons]
        cases b.isEmpty <;> simp
    | ended =>
      simp only [Prod.mk.injEq, OpRes.ok.injEq] at e
      obtain ⟨rfl, rfl, rfl⟩ := e
      refine ⟨[], ?_, by simp⟩
      rw [List.length_nil, run_next hn]
      rfl
    | err e' => simp at e
    | panic => simp at e
    | waits => simp at e

theorem read_ended_state (n : Nat) : ∀ (s : BStream) (h : Handle), s.inner.fuel < n →
    ∀ s' h', s.read h = (.ended, s', h') → s'.state = .finished := by
  induction n with
  | zero => intro s h hs; omega
  | succ n ih =>
    intro s h hs s' h' e
    unfold BStream.read at e
    split at e
    · simp at e
    · simp at e
    · simp at e
    · simp only at e
      split at e
      · simp only [Prod.mk.injEq] at e
        rw [← e.2.1]
      · split at e
        · simp only [Prod.mk.injEq] at e
          rw [← e.2.1]
        · simp at e
    · rename_i hn
      have := CStream.next_item hn
      exact ih _ _ (by simp only; omega) _ _ e
    · rename_i hn
      have := CStream.next_item hn
      exact ih _ _ (by simp only; omega) _ _ e
    · simp at e
    · rename_i hn
      have := CStream.next_item hn
      split at e
      · simp at e
      · exact ih _ _ (by simp only; omega) _ _ e
    · simp at e

theorem next_ended_state {s s' : BStream} {h h' : Handle} (e : s.next h = (.ended, s', h')) : s'.state = .finished := by
  unfold BStream.next at e
  split at e
  · exact read_ended_state _ s h (Nat.lt_succ_self _) _ _ e
  · simp only [Prod.mk.injEq] at e
    rw [← e.2.1]
    assumption
  · simp at e

theorem gather_ok_state (n : Nat) : ∀ (s s' : BStream) (h h' : Handle) (acc out : List Block), s.inner.fuel < n →
    s.gather h acc = (.ok out, s', h') → s'.state = .finished := by
  induction n with
  | zero => intro s s' h h' acc out hf; omega
  | succ n ih =>
    intro s s' h h' acc out hf e
    rw [gather_eq] at e
    obtain ⟨i, s1, h1, hn⟩ : ∃ i s1 h1, s.next h = (i, s1, h1) := ⟨_, _, _, rfl⟩
    rw [hn] at e
    cases i with
    | block b =>
      have := BStream.next_fuel hn
      exact ih s1 s' h1 h' _ out (by omega) e
    | ended =>
      simp only [Prod.mk.injEq, OpRes.ok.injEq] at e
      obtain ⟨rfl, rfl, rfl⟩ := e
      exact next_ended_state hn
    | err e' => simp at e
    | panic => simp at e
    | waits => simp at e

theorem rnext_eq (s : RStream) (h : Handle) :
    s.next h = match s.advance with
      | .ok (some (b, i, j)) => (.row b i, ⟨some (b, j), s.blocks⟩, h)
      | .ok none =>
        match s.blocks.next h with
        | (.block b, bs, h') => RStream.next ⟨some (b, 0), bs⟩ h'
        | (.err e, bs, h') => (.err e, ⟨none, bs⟩, h')
        | (.ended, bs, h') => (.ended, ⟨none, bs⟩, h')
        | (.panic, bs, h') => (.panic, ⟨none, bs⟩, h')
        | (.waits, bs, h') => (.waits, ⟨none, bs⟩, h')
      | _ => (.panic, s, h) := by
  rw [RStream.next]
  split
  · simp_all
  · simp_all
    split <;> simp_all
  · split <;> simp_all

/-- The rows of the block at hand that are still to come. -/
def leftRows : Option (Block × Nat) → List (Block × Nat)
  | none => []
  | some (b, i) =>
    match b.rowCount with
    | .ok m => (List.range' i (m - i)).map fun r => (b, r)
    | _ => []

def itemOf (r : Block × Nat) : RItem := .row r.1 r.2

/-- All rows of a list of blocks. -/
def allRows (bs : List Block) : List (Block × Nat) := bs.flatMap fun b => leftRows (some (b, 0))

def cells (r : Block × Nat) : List (Out Value) := rowOf r.1 r.2

theorem allRows_cells (bs : List Block) : (allRows bs).map cells = answerRows bs := by
  induction bs with
  | nil => rfl
  | cons b bs ih =>
    rw [allRows, List.flatMap_cons, List.map_append]
    rw [show List.flatMap (fun b => leftRows (some (b, 0))) bs = allRows bs from rfl, ih, answerRows, answerRows, List.flatMap_cons]
    congr 1
    simp only [leftRows, rowsOf]
    cases b.rowCount with
    | ok m =>
      simp only [List.map_map, Nat.sub_zero, List.range_eq_range']
      rfl
    | err => rfl
    | panic => rfl

theorem rowsGot_items (l : List (Block × Nat)) : rowsGot (l.map itemOf) = l.map cells := by
  induction l with
  | nil => rfl
  | cons r l ih => simpa [rowsGot, itemOf, cells] using ih

theorem advance_cases (s : RStream) :
    (∃ b i, s.advance = .ok (some (b, i, i + 1)) ∧ s.current = some (b, i) ∧
      leftRows s.current = (b, i) :: leftRows (some (b, i + 1))) ∨
    (s.advance = .ok none ∧ leftRows s.current = []) ∨
    (leftRows s.current = [] ∧ (∀ x, s.advance ≠ .ok x) ∧ ∃ b i, s.current = some (b, i) ∧ ∀ m, b.rowCount ≠ .ok m) := by
  obtain ⟨cur, bl⟩ := s
  cases cur with
  | none => exact Or.inr (Or.inl ⟨rfl, rfl⟩)
  | some p =>
    obtain ⟨b, i⟩ := p
    simp only [RStream.advance, Block.rowsNext, leftRows]
    cases hc : b.rowCount with
    | ok m =>
      simp only [obind_ok]
      by_cases hi : i ≥ m
      · rw [if_pos hi]
        refine Or.inr (Or.inl ⟨rfl, ?_⟩)
        rw [show m - i = 0 by omega]
        rfl
      · rw [if_neg hi]
        refine Or.inl ⟨b, i, rfl, rfl, ?_⟩
        rw [show m - i = (m - (i + 1)) + 1 by omega, List.range'_succ, hc]
        rfl
    | err e => exact Or.inr (Or.inr ⟨rfl, fun x hx => by simp at hx, _, _, rfl, by simp [hc]⟩)
    | panic => exact Or.inr (Or.inr ⟨rfl, fun x hx => by simp at hx, _, _, rfl, by simp [hc]⟩)

theorem runRows_next {s s' : RStream} {h h' : Handle} {i : RItem} (e : s.next h = (i, s', h')) (n : Nat) :
    runRows (n + 1) s h = (i :: (runRows n s' h').1, (runRows n s' h').2) := by
  simp only [runRows, e]

theorem runRows_congr {s s' : RStream} {h h' : Handle} (e : s.next h = s'.next h') (n : Nat) :
    runRows (n + 1) s h = runRows (n + 1) s' h' := by
  simp only [runRows, e]

/-- An item that is not a block, handed on. -/
def toRow : BItem → RItem
  | .ended => .ended
  | .err e => .err e
  | .panic => .panic
  | .waits => .waits
  | .block _ => .panic

/-- The rows still at hand are given first. -/
theorem runRows_left (k : Nat) (s : BStream) (h : Handle) : ∀ (l : List (Block × Nat)) (cur : Option (Block × Nat)),
    leftRows cur = l → (∀ b i, cur = some (b, i) → ∃ m, b.rowCount = .ok m) → ∃ cur', leftRows cur' = [] ∧
      (∀ b i, cur' = some (b, i) → ∃ m, b.rowCount = .ok m) ∧
      runRows (l.length + k) ⟨cur, s⟩ h = (l.map itemOf ++ (runRows k ⟨cur', s⟩ h).1, (runRows k ⟨cur', s⟩ h).2) := by
  intro l
  induction l with
  | nil => intro cur hl hc; exact ⟨cur, hl, hc, by simp⟩
  | cons r l ih =>
    intro cur hl hc
    rcases advance_cases ⟨cur, s⟩ with ⟨b, i, h1, h2, h3⟩ | ⟨_, h2⟩ | ⟨h2, _⟩
    · simp only at h2 h3
      rw [h3] at hl
      simp only [List.cons.injEq] at hl
      obtain ⟨rfl, hl⟩ := hl
      obtain ⟨cur', c1, c2, c3⟩ := ih (some (b, i + 1)) hl (fun b' i' e => by
        simp only [Option.some.injEq, Prod.mk.injEq] at e
        rw [← e.1]
        exact hc b i h2)
      refine ⟨cur', c1, c2, ?_⟩
      have hn : (RStream.mk cur s).next h = (.row b i, ⟨some (b, i + 1), s⟩, h) := by
        rw [rnext_eq, h1]
      rw [List.length_cons, show l.length + 1 + k = (l.length + k) + 1 by omega, runRows_next hn, c3]
      rfl
    · simp only at h2; rw [hl] at h2; cases h2
    · simp only at h2; rw [hl] at h2; cases h2

theorem next_left_none {s : BStream} {h : Handle} {cur : Option (Block × Nat)} (hl : leftRows cur = [])
    (hc : ∀ b i, cur = some (b, i) → ∃ m, b.rowCount = .ok m) : (RStream.mk cur s).advance = .ok none := by
  rcases advance_cases ⟨cur, s⟩ with ⟨b, i, h1, h2, h3⟩ | ⟨h1, _⟩ | ⟨_, _, b, i, h2, h3⟩
  · simp only at h3; rw [hl] at h3; cases h3
  · exact h1
  · obtain ⟨m, hm⟩ := hc b i h2
    exact absurd hm (h3 m)

theorem runRows_tail (k : Nat) : ∀ (s : BStream) (h : Handle) (cur : Option (Block × Nat)), leftRows cur = [] →
    (∀ b i, cur = some (b, i) → ∃ m, b.rowCount = .ok m) → (∀ x ∈ (run k s h).1, isBlockItem x = false) →
    (runRows k ⟨cur, s⟩ h).1 = (run k s h).1.map toRow ∧ (runRows k ⟨cur, s⟩ h).2.1.blocks = (run k s h).2.1 ∧
      (runRows k ⟨cur, s⟩ h).2.2 = (run k s h).2.2 := by
  induction k with
  | zero => intro s h cur _ _ _; exact ⟨rfl, rfl, rfl⟩
  | succ k ih =>
    intro s h cur hl hc hx
    obtain ⟨i, s1, h1, hn⟩ : ∃ i s1 h1, s.next h = (i, s1, h1) := ⟨_, _, _, rfl⟩
    rw [run_next hn] at hx ⊢
    simp only [List.mem_cons, forall_eq_or_imp] at hx
    have hnx : (RStream.mk cur s).next h = (toRow i, ⟨none, s1⟩, h1) := by
      rw [rnext_eq, next_left_none (h := h) hl hc]
      simp only [hn]
      cases i <;> simp [isBlockItem, toRow] at hx ⊢
    rw [runRows_next hnx]
    obtain ⟨a, b, c⟩ := ih s1 h1 none rfl (by simp) hx.2
    exact ⟨by simp [a], b, c⟩

/-- Rows of blocks in order, then whatever the stream of blocks says. -/
theorem runRows_of_run (bs : List Block) : ∀ (k : Nat) (s : BStream) (h : Handle) (cur : Option (Block × Nat)) (tail : List BItem)
    (s' : BStream) (h' : Handle), leftRows cur = [] → (∀ b i, cur = some (b, i) → ∃ m, b.rowCount = .ok m) →
    (∀ b ∈ bs, ∃ m, b.rowCount = .ok m) → (∀ x ∈ tail, isBlockItem x = false) →
    run (bs.length + (k + 1)) s h = (bs.map .block ++ tail, s', h') →
    ∃ cur', runRows ((allRows bs).length + (k + 1)) ⟨cur, s⟩ h = ((allRows bs).map itemOf ++ tail.map toRow, ⟨cur', s'⟩, h') := by
  induction bs with
  | nil =>
    intro k s h cur tail s' h' hl hc _ ht e
    simp only [List.length_nil, Nat.zero_add, List.map_nil, List.nil_append] at e
    obtain ⟨a, b, c⟩ := runRows_tail (k + 1) s h cur hl hc (by rw [e]; exact ht)
    rw [e] at a b c
    simp only [allRows, List.flatMap_nil, List.length_nil, Nat.zero_add, List.map_nil, List.nil_append]
    refine ⟨(runRows (k + 1) ⟨cur, s⟩ h).2.1.current, ?_⟩
    refine Prod.ext a (Prod.ext ?_ c)
    simp only at b ⊢
    rw [← b]
  | cons b bs ih =>
    intro k s h cur tail s' h' hl hc hbs ht e
    obtain ⟨i, s1, h1, hn⟩ : ∃ i s1 h1, s.next h = (i, s1, h1) := ⟨_, _, _, rfl⟩
    rw [List.length_cons, show bs.length + 1 + (k + 1) = (bs.length + (k + 1)) + 1 by omega, run_next hn] at e
    simp only [List.map_cons, List.cons_append, Prod.mk.injEq, List.cons.injEq] at e
    obtain ⟨⟨rfl, e1⟩, e2⟩ := e
    have hnx : (RStream.mk cur s).next h = RStream.next ⟨some (b, 0), s1⟩ h1 := by
      rw [rnext_eq, next_left_none (h := h) hl hc]
      simp only [hn]
    obtain ⟨cur1, c1, c2, c3⟩ := runRows_left ((allRows bs).length + (k + 1)) s1 h1 _ (some (b, 0)) rfl (fun b' i' e => by
      simp only [Option.some.injEq, Prod.mk.injEq] at e
      rw [← e.1]
      exact hbs b (by simp))
    obtain ⟨cur', hr⟩ := ih k s1 h1 cur1 tail s' h' c1 c2 (fun c hc => hbs c (by simp [hc])) ht (Prod.ext e1 e2)
    refine ⟨cur', ?_⟩
    have hlen : (allRows (b :: bs)).length = (leftRows (some (b, 0))).length + (allRows bs).length := by
      simp [allRows]
    rw [hlen, show (leftRows (some (b, 0))).length + (allRows bs).length + (k + 1) =
      ((leftRows (some (b, 0))).length + (allRows bs).length + k) + 1 by omega, runRows_congr hnx,
      show (leftRows (some (b, 0))).length + (allRows bs).length + k + 1 =
      (leftRows (some (b, 0))).length + ((allRows bs).length + (k + 1)) by omega, c3, hr]
    simp [allRows]

/-- Whatever happens, the rows got are the first rows of the blocks got. -/
theorem runRows_prefix (n : Nat) : ∀ (f : Nat) (s : BStream) (h : Handle) (cur : Option (Block × Nat)), s.inner.fuel < f →
    ∃ m, rowsGot (runRows n ⟨cur, s⟩ h).1 <+: (leftRows cur).map cells ++ answerRows (blocksGot (run m s h).1) := by
  induction n with
  | zero => intro f s h cur _; exact ⟨0, List.nil_prefix⟩
  | succ n ihn =>
    intro f
    induction f with
    | zero => intro s h cur hf; omega
    | succ f ihf =>
      intro s h cur hf
      rcases advance_cases ⟨cur, s⟩ with ⟨b, i, h1, h2, h3⟩ | ⟨h1, h2⟩ | ⟨h2, h1, _⟩
      · have hn : (RStream.mk cur s).next h = (.row b i, ⟨some (b, i + 1), s⟩, h) := by
          rw [rnext_eq, h1]
        obtain ⟨m, hm⟩ := ihn _ s h (some (b, i + 1)) (Nat.lt_succ_self _)
        refine ⟨m, ?_⟩
        simp only at h3
        rw [runRows_next hn, h3]
        simpa [rowsGot, cells] using hm
      · obtain ⟨i, s1, h1', hn⟩ : ∃ i s1 h1, s.next h = (i, s1, h1) := ⟨_, _, _, rfl⟩
        simp only at h2
        simp only [h2, List.map_nil, List.nil_append]
        by_cases hb : isBlockItem i = false
        · have hnx : (RStream.mk cur s).next h = (toRow i, ⟨none, s1⟩, h1') := by
            rw [rnext_eq, h1]
            simp only [hn]
            cases i <;> simp [isBlockItem, toRow] at hb ⊢
          obtain ⟨m, hm⟩ := ihn _ s1 h1' none (Nat.lt_succ_self _)
          refine ⟨m + 1, ?_⟩
          rw [runRows_next hnx, run_next hn]
          cases i <;> simp [isBlockItem] at hb <;> simpa [rowsGot, toRow, blocksGot, leftRows] using hm
        · cases i <;> simp [isBlockItem] at hb
          rename_i b
          have hnx : (RStream.mk cur s).next h = RStream.next ⟨some (b, 0), s1⟩ h1' := by
            rw [rnext_eq, h1]
            simp only [hn]
          obtain ⟨m, hm⟩ := ihf s1 h1' (some (b, 0)) (by have := BStream.next_fuel hn; omega)
          refine ⟨m + 1, ?_⟩
          rw [runRows_congr hnx, run_next hn]
          have h4 := allRows_cells [b]
          simp only [allRows, List.flatMap_cons, List.flatMap_nil, List.append_nil, answerRows] at h4
          rw [h4] at hm
          simpa [blocksGot, answerRows] using hm
      · have hn : (RStream.mk cur s).next h = (.panic, ⟨cur, s⟩, h) := by
          rw [rnext_eq]
          cases ha : (RStream.mk cur s).advance with
          | ok x => exact absurd ha (h1 x)
          | err => rfl
          | panic => rfl
        obtain ⟨m, hm⟩ := ihn _ s h cur (Nat.lt_succ_self _)
        refine ⟨m, ?_⟩
        rw [runRows_next hn]
        simpa [rowsGot] using hm

end CH
