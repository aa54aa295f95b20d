import Verif.Spec.Cursor
import Verif.Lemmas.Iter

/-! Lemmas for C73: the iterators with positions yield what `Model/Iter.lean` says. -/

namespace CH
open Spec

/-! ### Simulation -/

/-- One call of `next` does what the run says. -/
def Sim (f : σ → Step σ) (ok : σ → Prop) (sem : σ → Run) (s : σ) : Prop :=
  match (sem s).next with
  | .item x r => ∃ s', f s = .item x s' ∧ ok s' ∧ sem s' = r
  | .finished => ∃ s', f s = .finished s' ∧ ok s' ∧ sem s' = sem s
  | .stop e => f s = .stop e

theorem Sim.item {f : σ → Step σ} {ok : σ → Prop} {sem : σ → Run} {s : σ} (h : Sim f ok sem s) {x : Item} {xs : List Item} {e : Stop}
    (hs : sem s = ⟨x :: xs, e⟩) : ∃ s', f s = .item x s' ∧ ok s' ∧ sem s' = ⟨xs, e⟩ := by
  rw [Sim, hs] at h
  exact h

theorem Sim.finished {f : σ → Step σ} {ok : σ → Prop} {sem : σ → Run} {s : σ} (h : Sim f ok sem s)
    (hs : sem s = ⟨[], .done⟩) : ∃ s', f s = .finished s' ∧ ok s' ∧ sem s' = ⟨[], .done⟩ := by
  rw [Sim, hs] at h
  exact h

theorem Sim.stop {f : σ → Step σ} {ok : σ → Prop} {sem : σ → Run} {s : σ} (h : Sim f ok sem s) {e : Stop} (he : e ≠ .done)
    (hs : sem s = ⟨[], e⟩) : f s = .stop e := by
  rw [Sim, hs] at h
  cases e with
  | done => exact absurd rfl he
  | panic => exact h
  | wild => exact h

theorem Sim.mk {f : σ → Step σ} {ok : σ → Prop} {sem : σ → Run} {s : σ}
    (h1 : ∀ x xs e, sem s = ⟨x :: xs, e⟩ → ∃ s', f s = .item x s' ∧ ok s' ∧ sem s' = ⟨xs, e⟩)
    (h2 : sem s = ⟨[], .done⟩ → ∃ s', f s = .finished s' ∧ ok s' ∧ sem s' = ⟨[], .done⟩)
    (h3 : ∀ e, e ≠ .done → sem s = ⟨[], e⟩ → f s = .stop e) : Sim f ok sem s := by
  rw [Sim]
  cases hs : sem s with
  | mk items e =>
    cases items with
    | cons x xs => exact h1 x xs e hs
    | nil =>
      cases e with
      | done => exact h2 hs
      | panic => exact h3 .panic (by simp) hs
      | wild => exact h3 .wild (by simp) hs

theorem run_next_item {r r' : Run} {x : Item} (h : r.next = .item x r') : r = ⟨x :: r'.items, r'.stop⟩ := by
  obtain ⟨items, e⟩ := r
  cases items with
  | nil => cases e <;> simp [Run.next] at h
  | cons y ys => simp [Run.next] at h; obtain ⟨rfl, rfl⟩ := h; rfl

theorem run_next_finished {r : Run} (h : r.next = .finished) : r = ⟨[], .done⟩ := by
  obtain ⟨items, e⟩ := r
  cases items with
  | nil => cases e <;> simp [Run.next] at h ⊢
  | cons y ys => simp [Run.next] at h

theorem run_next_stop {r : Run} {e : Stop} (h : r.next = .stop e) : r = ⟨[], e⟩ ∧ e ≠ .done := by
  obtain ⟨items, e'⟩ := r
  cases items with
  | nil => cases e' <;> simp [Run.next] at h <;> subst h <;> simp
  | cons y ys => simp [Run.next] at h

/-! ### The iterators that are not made of others -/

/-- The rows a leaf iterator has left. -/
def Leaf.sem (zones : Zones) : Leaf → Run
  | .slice t xs => ⟨xs.map (.num t), .done⟩
  | .octets k buf ptr => ipRun k (buf.drop ptr)
  | .pool xs index _ => ⟨(xs.drop index).map .bytes, .done⟩
  | .fixed n buf index size => ⟨(List.range' index (size - index)).map fun i => .bytes ((buf.drop (i * n)).take n), .done⟩
  | .dict d rows index _ => runOf (getString d) (rows.drop index)
  | .decs nb p s xs ptr _ => ⟨(xs.drop (ptr / nb.width)).map fun x => .decimal ⟨toSigned nb.width x, nb, p, s⟩, .done⟩
  | .date lc tz xs index _ => runOf (fun r => r.map fun d => .date (iterDate zones tz d)) ((stampRows lc xs).drop index)
  | .time lc p tz xs index _ => runOf (fun r => r.bind (iterTime tz p)) ((stampRows lc xs).drop index)
  | .naive lc p xs index _ => runOf (fun r => r.bind (iterNaive p)) ((stampRows lc xs).drop index)
  | .wild => ⟨[], .wild⟩

/-- Positions are inside. -/
def Leaf.Ok : Leaf → Prop
  | .slice _ _ => True
  | .octets _ buf ptr => ptr ≤ buf.length
  | .pool xs index size => index ≤ size ∧ size = xs.length
  | .fixed n buf index size => index ≤ size ∧ size * n ≤ buf.length
  | .dict _ rows index size => index ≤ size ∧ size = rows.length
  | .decs nb _ _ xs ptr stop => stop = xs.length * nb.width ∧ ∃ j, j ≤ xs.length ∧ ptr = j * nb.width
  | .date lc _ xs index len => index ≤ len ∧ len = stampCount lc xs
  | .time lc _ _ xs index len => index ≤ len ∧ len = stampCount lc xs
  | .naive lc _ xs index len => index ≤ len ∧ len = stampCount lc xs
  | .wild => True

theorem width_pos (nb : NoBits) : 0 < nb.width := by cases nb <;> decide

theorem stampRows_length (lc : Option (List Nat)) (xs : List Nat) : (stampRows lc xs).length = stampCount lc xs := by
  cases lc <;> simp [stampRows, stampCount]

theorem stampRows_get {lc : Option (List Nat)} {xs : List Nat} {i : Nat} (h : i < stampCount lc xs) :
    (stampRows lc xs)[i]? = some (stampOf lc xs i) := by
  cases lc with
  | none => simp only [stampCount] at h; simp [stampRows, stampOf, List.getElem?_range h]
  | some rows => simp only [stampCount] at h; simp [stampRows, stampOf, List.getElem?_eq_getElem h]

theorem drop_get {l : List α} {i : Nat} {a : α} (h : l[i]? = some a) : l.drop i = a :: l.drop (i + 1) := by
  obtain ⟨hi, rfl⟩ := List.getElem?_eq_some_iff.mp h
  exact List.drop_eq_getElem_cons hi

/-- Stepping through a computed list. -/
theorem runOf_sim {α : Type} {f : α → Except Stop Item} {l : List α} {i : Nat} {a : α} (h : l[i]? = some a) {s' : Leaf} {zones : Zones}
    (ok : s'.Ok) (hs : s'.sem zones = runOf f (l.drop (i + 1))) (hn : f a ≠ .error .done) {g : Step Leaf} (hg : g = stepOf (f a) s') :
    match (runOf f (l.drop i)).next with
    | .item x r => ∃ s', g = .item x s' ∧ s'.Ok ∧ s'.sem zones = r
    | .finished => ∃ s', g = .finished s' ∧ s'.Ok ∧ s'.sem zones = runOf f (l.drop i)
    | .stop e => g = .stop e := by
  rw [drop_get h, runOf]
  cases hf : f a with
  | ok x => simp only [Run.cons, Run.next]; rw [hf] at hg; exact ⟨s', hg, ok, hs⟩
  | error e =>
    rw [hf] at hg
    cases e with
    | done => exact absurd hf hn
    | panic => exact hg
    | wild => exact hg

theorem stampAt_not_done {xs : List Nat} {i : Nat} : stampAt xs i ≠ .error .done := by
  unfold stampAt; split <;> simp

theorem stampOf_not_done {lc : Option (List Nat)} {xs : List Nat} {i : Nat} : stampOf lc xs i ≠ .error .done := by
  unfold stampOf
  split
  · exact stampAt_not_done
  · split
    · exact stampAt_not_done
    · simp

theorem stampRows_not_done {lc : Option (List Nat)} {xs : List Nat} {a : Except Stop Nat} (h : a ∈ stampRows lc xs) : a ≠ .error .done := by
  cases lc with
  | none =>
    simp only [stampRows, List.mem_map] at h
    obtain ⟨i, _, rfl⟩ := h
    exact stampAt_not_done
  | some rows =>
    simp only [stampRows, List.mem_map] at h
    obtain ⟨i, _, rfl⟩ := h
    exact stampAt_not_done

theorem map_not_done {r : Except Stop Nat} {g : Nat → Item} (hr : r ≠ .error .done) : r.map g ≠ .error .done := by
  cases r with
  | ok x => simp [Except.map]
  | error e => intro h; exact hr (by simpa [Except.map] using h)

theorem getString_not_done {d : Col} {i : Nat} : getString d i ≠ .error .done := by
  unfold getString
  split
  · split <;> simp
  · split <;> simp
  · simp

theorem iterTime_not_done {tz : Tz} {p : Option Nat} {x : Nat} : iterTime tz p x ≠ .error .done := by
  unfold iterTime
  split
  · simp
  · split <;> simp

theorem iterNaive_not_done {p : Option Nat} {x : Nat} : iterNaive p x ≠ .error .done := by
  unfold iterNaive
  split
  · simp
  · split <;> simp

theorem bind_not_done {r : Except Stop Nat} {g : Nat → Except Stop Item} (hr : r ≠ .error .done) (hg : ∀ x, g x ≠ .error .done) :
    r.bind g ≠ .error .done := by
  cases r with
  | ok x => exact hg x
  | error e => intro h; exact hr (by simpa [Except.bind] using h)

theorem ipRun_drop (k : IpKind) (buf : Bytes) (h : k.size ≤ buf.length) :
    ipRun k buf = Run.cons (.ip k (iterOctets k (buf.take k.size))) (ipRun k (buf.drop k.size)) := by
  have hp := size_pos k
  simp only [ipRun, Run.cons, Run.mk.injEq, List.length_drop]
  constructor
  · have e : buf.length / k.size = (buf.length - k.size) / k.size + 1 := by
      rw [← Nat.add_div_right _ hp]; congr 1; omega
    rw [e, List.range_succ_eq_map]
    simp only [List.map_cons, Nat.zero_mul, List.drop_zero, List.map_map, List.cons.injEq, true_and]
    apply List.map_congr_left
    intro i _
    simp [List.drop_drop, Nat.add_mul, Nat.add_comm]
  · have e : buf.length % k.size = (buf.length - k.size) % k.size := by
      have := Nat.add_mod_right (buf.length - k.size) k.size
      rw [← this]; congr 1; omega
    rw [e]

theorem ipRun_short {k : IpKind} {buf : Bytes} (h0 : buf ≠ []) (h : buf.length < k.size) : ipRun k buf = ⟨[], .wild⟩ := by
  have : 0 < buf.length := by cases buf <;> simp at h0 ⊢
  simp [ipRun, Nat.div_eq_of_lt h, Nat.mod_eq_of_lt h]
  intro hb; exact absurd hb h0

theorem leaf_sim (zones : Zones) (s : Leaf) (h : s.Ok) : Sim (Leaf.next zones) Leaf.Ok (Leaf.sem zones) s := by
  cases s with
  | slice t xs =>
    cases xs with
    | nil => exact ⟨_, rfl, trivial, rfl⟩
    | cons x xs => exact ⟨_, rfl, trivial, rfl⟩
  | octets k buf ptr =>
    have h : ptr ≤ buf.length := h
    have hp := size_pos k
    simp only [Sim, Leaf.sem, Leaf.next]
    by_cases h1 : ptr = buf.length
    · subst h1
      simp only [List.drop_length, if_true]
      have : ipRun k [] = ⟨[], .done⟩ := by simp [ipRun]
      rw [this]
      exact ⟨_, rfl, Nat.le_refl _, by simp [Leaf.sem, this]⟩
    · simp only [if_neg h1]
      by_cases h2 : ptr + k.size ≤ buf.length
      · rw [ipRun_drop k _ (by simp; omega), List.drop_drop]
        simp only [if_pos h2, Run.cons, Run.next]
        exact ⟨_, rfl, h2, rfl⟩
      · rw [ipRun_short (by intro e; have := congrArg List.length e; simp at this; omega) (by simp; omega)]
        simp only [if_neg h2, Run.next]
  | pool xs index size =>
    obtain ⟨h1, rfl⟩ := h
    simp only [Sim, Leaf.sem, Leaf.next]
    by_cases h2 : index = xs.length
    · subst h2
      simp only [List.drop_length, List.map_nil, Run.next, if_true]
      exact ⟨_, rfl, ⟨Nat.le_refl _, rfl⟩, by simp [Leaf.sem]⟩
    · have hg : xs[index]? = some xs[index] := List.getElem?_eq_getElem (by omega)
      rw [drop_get hg]
      simp only [List.map_cons, Run.next, if_neg h2, hg]
      exact ⟨_, rfl, ⟨by omega, rfl⟩, rfl⟩
  | fixed n buf index size =>
    obtain ⟨h1, h2⟩ := h
    simp only [Sim, Leaf.sem, Leaf.next]
    by_cases h3 : index = size
    · subst h3
      simp only [Nat.sub_self, List.range'_zero, List.map_nil, Run.next, ge_iff_le, Nat.le_refl, if_true]
      exact ⟨_, rfl, ⟨Nat.le_refl _, h2⟩, by simp [Leaf.sem]⟩
    · have e : size - index = (size - (index + 1)) + 1 := by omega
      have hb : index * n + n ≤ buf.length := by
        have : (index + 1) * n ≤ size * n := Nat.mul_le_mul_right _ (by omega)
        rw [Nat.add_mul] at this; omega
      rw [e, List.range'_succ]
      simp only [List.map_cons, Run.next, if_neg (show ¬ index ≥ size by omega), if_pos hb]
      exact ⟨_, rfl, ⟨by omega, h2⟩, rfl⟩
  | dict d rows index size =>
    obtain ⟨h1, rfl⟩ := h
    simp only [Sim, Leaf.sem, Leaf.next]
    by_cases h2 : index = rows.length
    · subst h2
      simp only [List.drop_length, runOf, Run.next, ge_iff_le, Nat.le_refl, if_true]
      exact ⟨_, rfl, ⟨Nat.le_refl _, rfl⟩, by simp [Leaf.sem, runOf]⟩
    · have hg : rows[index]? = some rows[index] := List.getElem?_eq_getElem (by omega)
      simp only [if_neg (show ¬ index ≥ rows.length by omega), hg]
      exact runOf_sim hg (s' := .dict d rows (index + 1) rows.length) ⟨by omega, rfl⟩ rfl getString_not_done rfl
  | decs nb p s xs ptr stop =>
    obtain ⟨rfl, j, hj, rfl⟩ := h
    have hp := width_pos nb
    simp only [Sim, Leaf.sem, Leaf.next, Nat.mul_div_cancel _ hp]
    by_cases h2 : j = xs.length
    · subst h2
      simp only [List.drop_length, List.map_nil, Run.next, if_true]
      exact ⟨_, rfl, ⟨rfl, _, Nat.le_refl _, rfl⟩, by simp [Leaf.sem, Nat.mul_div_cancel _ hp]⟩
    · have hg : xs[j]? = some xs[j] := List.getElem?_eq_getElem (by omega)
      have hne : ¬ j * nb.width = xs.length * nb.width := fun e => h2 (Nat.eq_of_mul_eq_mul_right hp e)
      rw [drop_get hg]
      simp only [List.map_cons, Run.next, if_neg hne, hg]
      refine ⟨_, rfl, ⟨rfl, j + 1, by omega, by rw [Nat.add_mul, Nat.one_mul]⟩, ?_⟩
      have e : j * nb.width + nb.width = (j + 1) * nb.width := by rw [Nat.add_mul, Nat.one_mul]
      simp [Leaf.sem, e, Nat.mul_div_cancel _ hp]
  | date lc tz xs index len =>
    obtain ⟨h1, rfl⟩ := h
    simp only [Sim, Leaf.sem, Leaf.next]
    by_cases h2 : index = stampCount lc xs
    · have e : (stampRows lc xs).drop index = [] := by rw [List.drop_eq_nil_iff, stampRows_length]; omega
      simp only [e, runOf, Run.next, if_pos h2]
      exact ⟨_, rfl, ⟨h1, rfl⟩, by simp [Leaf.sem, e, runOf]⟩
    · simp only [if_neg h2]
      refine runOf_sim (stampRows_get (by omega)) (s' := .date lc tz xs (index + 1) (stampCount lc xs)) ⟨by omega, rfl⟩ rfl ?_ rfl
      cases hr : stampOf lc xs index with
      | ok x => simp [Except.map]
      | error e => intro he; exact stampOf_not_done (hr.trans (by simpa [Except.map] using he))
  | time lc p tz xs index len =>
    obtain ⟨h1, rfl⟩ := h
    simp only [Sim, Leaf.sem, Leaf.next, if_neg (show ¬ index > stampCount lc xs by omega)]
    by_cases h2 : stampCount lc xs - index = 0
    · have e : (stampRows lc xs).drop index = [] := by rw [List.drop_eq_nil_iff, stampRows_length]; omega
      simp only [e, runOf, Run.next, if_pos h2]
      exact ⟨_, rfl, ⟨h1, rfl⟩, by simp [Leaf.sem, e, runOf]⟩
    · simp only [if_neg h2]
      exact runOf_sim (stampRows_get (by omega)) (s' := .time lc p tz xs (index + 1) (stampCount lc xs)) ⟨by omega, rfl⟩ rfl
        (bind_not_done stampOf_not_done fun _ => iterTime_not_done) rfl
  | naive lc p xs index len =>
    obtain ⟨h1, rfl⟩ := h
    simp only [Sim, Leaf.sem, Leaf.next, if_neg (show ¬ index > stampCount lc xs by omega)]
    by_cases h2 : stampCount lc xs - index = 0
    · have e : (stampRows lc xs).drop index = [] := by rw [List.drop_eq_nil_iff, stampRows_length]; omega
      simp only [e, runOf, Run.next, if_pos h2]
      exact ⟨_, rfl, ⟨h1, rfl⟩, by simp [Leaf.sem, e, runOf]⟩
    · simp only [if_neg h2]
      exact runOf_sim (stampRows_get (by omega)) (s' := .naive lc p xs (index + 1) (stampCount lc xs)) ⟨by omega, rfl⟩ rfl
        (bind_not_done stampOf_not_done fun _ => iterNaive_not_done) rfl
  | wild => rfl

theorem runOf_done {α : Type} {f : α → Except Stop Item} : ∀ {l : List α}, (∀ a ∈ l, f a ≠ .error .done) → (runOf f l).stop = .done →
    (runOf f l).items.length = l.length ∧ ∀ n, runOf f (l.drop n) = ⟨(runOf f l).items.drop n, .done⟩ := by
  intro l
  induction l with
  | nil => intro _ _; simp [runOf]
  | cons a l ih =>
    intro hf h
    rw [runOf] at h ⊢
    cases ha : f a with
    | error e => rw [ha] at h; simp only at h; subst h; exact absurd ha (hf a (by simp))
    | ok x =>
      rw [ha] at h
      simp only [Run.cons] at h ⊢
      obtain ⟨h1, h2⟩ := ih (fun b hb => hf b (by simp [hb])) h
      refine ⟨by simp [h1], fun n => ?_⟩
      cases n with
      | zero => simp [runOf, ha, Run.cons, h]
      | succ n => simpa using h2 n

theorem ip_rows {k : IpKind} : ∀ (n : Nat) {buf : Bytes}, n * k.size ≤ buf.length →
    ipRun k (buf.drop (n * k.size)) = ⟨(ipRun k buf).items.drop n, (ipRun k buf).stop⟩ := by
  intro n
  induction n with
  | zero => intro buf _; simp
  | succ n ih =>
    intro buf h
    rw [Nat.add_mul, Nat.one_mul] at h
    have := ih (buf := buf.drop k.size) (by simp; omega)
    rw [ipRun_drop k buf (by omega)]
    simp only [Run.cons, List.drop_succ_cons]
    rw [← this, List.drop_drop, Nat.add_mul, Nat.one_mul, Nat.add_comm]

/-- When a leaf iterator will end well, `len` is the number of items left and `nth` may jump. -/
theorem leaf_len (zones : Zones) (s : Leaf) (h : s.Ok) (hd : (s.sem zones).stop = .done) :
    s.len = .ok (s.sem zones).items.length ∧ (s.toEnd.Ok ∧ s.toEnd.sem zones = ⟨[], .done⟩) ∧
    ∀ n, n ≤ (s.sem zones).items.length → (s.skip n).Ok ∧ (s.skip n).sem zones = ⟨(s.sem zones).items.drop n, .done⟩ := by
  cases s with
  | slice t xs => exact ⟨by simp [Leaf.len, Leaf.sem], ⟨trivial, rfl⟩, fun n _ => ⟨trivial, by simp [Leaf.sem, Leaf.skip]⟩⟩
  | octets k buf ptr =>
    have h : ptr ≤ buf.length := h
    have hp := size_pos k
    have hm : (buf.length - ptr) % k.size = 0 := by
      simp only [Leaf.sem, ipRun, List.length_drop] at hd
      by_cases e : (buf.length - ptr) % k.size = 0
      · exact e
      · rw [if_neg e] at hd; cases hd
    refine ⟨by simp [Leaf.len, h, Leaf.sem, ipRun], ⟨Nat.le_refl _, by simp [Leaf.sem, Leaf.toEnd, ipRun]⟩, fun n hn => ?_⟩
    have hn : n ≤ (buf.length - ptr) / k.size := by simpa [Leaf.sem, ipRun] using hn
    have hn : n * k.size ≤ buf.length - ptr := Nat.le_trans (Nat.mul_le_mul_right _ hn) (Nat.div_mul_le_self _ _)
    refine ⟨show ptr + n * k.size ≤ buf.length by omega, ?_⟩
    have := ip_rows n (k := k) (buf := buf.drop ptr) (by simpa using hn)
    rw [List.drop_drop] at this
    simp only [Leaf.skip, Leaf.sem] at hd ⊢
    rw [this, hd]
  | pool xs index size =>
    obtain ⟨h1, rfl⟩ := h
    refine ⟨by simp [Leaf.len, h1, Leaf.sem], ⟨⟨Nat.le_refl _, rfl⟩, by simp [Leaf.sem, Leaf.toEnd]⟩, fun n hn => ?_⟩
    simp only [Leaf.sem, List.length_map, List.length_drop] at hn
    exact ⟨⟨by omega, rfl⟩, by simp [Leaf.sem, Leaf.skip, List.map_drop]⟩
  | fixed m buf index size =>
    obtain ⟨h1, h2⟩ := h
    refine ⟨by simp [Leaf.len, h1, Leaf.sem], ⟨⟨Nat.le_refl _, h2⟩, by simp [Leaf.sem, Leaf.toEnd]⟩, fun n hn => ?_⟩
    simp only [Leaf.sem, List.length_map, List.length_range'] at hn
    refine ⟨⟨by omega, h2⟩, ?_⟩
    simp only [Leaf.sem, Leaf.skip, Run.mk.injEq, and_true, ← List.map_drop]
    rw [List.drop_range']
    congr 2 <;> omega
  | dict d rows index size =>
    obtain ⟨h1, rfl⟩ := h
    obtain ⟨h2, h3⟩ := runOf_done (fun _ _ => getString_not_done) hd
    refine ⟨?_, ⟨⟨Nat.le_refl _, rfl⟩, by simp [Leaf.sem, Leaf.toEnd, runOf]⟩, fun n hn => ?_⟩
    · simp only [Leaf.len, if_pos h1, Leaf.sem]; rw [h2]; simp
    · have := h3 n
      rw [List.drop_drop] at this
      simp only [Leaf.sem] at hn
      rw [h2, List.length_drop] at hn
      exact ⟨⟨by omega, rfl⟩, this⟩
  | decs nb p s xs ptr stop =>
    obtain ⟨rfl, j, hj, rfl⟩ := h
    have hp := width_pos nb
    have e : xs.length * nb.width - j * nb.width = (xs.length - j) * nb.width := (Nat.sub_mul _ _ _).symm
    refine ⟨?_, ⟨⟨rfl, _, Nat.le_refl _, rfl⟩, by simp [Leaf.sem, Leaf.toEnd, Nat.mul_div_cancel _ hp]⟩, fun n hn => ?_⟩
    · simp only [Leaf.len, if_pos (Nat.mul_le_mul_right nb.width hj), e, Leaf.sem, Nat.mul_div_cancel _ hp]; simp
    · simp only [Leaf.sem, Nat.mul_div_cancel _ hp, List.length_map, List.length_drop] at hn
      have e2 : j * nb.width + n * nb.width = (j + n) * nb.width := (Nat.add_mul _ _ _).symm
      refine ⟨⟨rfl, j + n, by omega, e2⟩, ?_⟩
      simp only [Leaf.sem, Leaf.skip, e2, Nat.mul_div_cancel _ hp, Run.mk.injEq, and_true, ← List.map_drop, List.drop_drop]
  | date lc tz xs index len =>
    obtain ⟨h1, rfl⟩ := h
    obtain ⟨h2, h3⟩ := runOf_done (fun a ha => (map_not_done (stampRows_not_done (List.mem_of_mem_drop ha)))) hd
    rw [List.length_drop, stampRows_length] at h2
    refine ⟨?_, ⟨⟨Nat.le_refl _, rfl⟩, ?_⟩, fun n hn => ?_⟩
    · simp only [Leaf.len, if_pos h1, Leaf.sem]; rw [h2]
    · have e : (stampRows lc xs).drop (stampCount lc xs) = [] := by rw [List.drop_eq_nil_iff, stampRows_length]; exact Nat.le_refl _
      simp [Leaf.sem, Leaf.toEnd, e, runOf]
    · have := h3 n
      rw [List.drop_drop] at this
      simp only [Leaf.sem] at hn
      rw [h2] at hn
      exact ⟨⟨by omega, rfl⟩, this⟩
  | time lc p tz xs index len =>
    obtain ⟨h1, rfl⟩ := h
    obtain ⟨h2, h3⟩ := runOf_done (fun a ha => (bind_not_done (stampRows_not_done (List.mem_of_mem_drop ha)) fun _ => iterTime_not_done)) hd
    rw [List.length_drop, stampRows_length] at h2
    refine ⟨?_, ⟨⟨Nat.le_refl _, rfl⟩, ?_⟩, fun n hn => ?_⟩
    · simp only [Leaf.len, if_pos h1, Leaf.sem]; rw [h2]
    · have e : (stampRows lc xs).drop (stampCount lc xs) = [] := by rw [List.drop_eq_nil_iff, stampRows_length]; exact Nat.le_refl _
      simp [Leaf.sem, Leaf.toEnd, e, runOf]
    · have := h3 n
      rw [List.drop_drop] at this
      simp only [Leaf.sem] at hn
      rw [h2] at hn
      exact ⟨⟨by omega, rfl⟩, this⟩
  | naive lc p xs index len =>
    obtain ⟨h1, rfl⟩ := h
    obtain ⟨h2, h3⟩ := runOf_done (fun a ha => (bind_not_done (stampRows_not_done (List.mem_of_mem_drop ha)) fun _ => iterNaive_not_done)) hd
    rw [List.length_drop, stampRows_length] at h2
    refine ⟨?_, ⟨⟨Nat.le_refl _, rfl⟩, ?_⟩, fun n hn => ?_⟩
    · simp only [Leaf.len, if_pos h1, Leaf.sem]; rw [h2]
    · have e : (stampRows lc xs).drop (stampCount lc xs) = [] := by rw [List.drop_eq_nil_iff, stampRows_length]; exact Nat.le_refl _
      simp [Leaf.sem, Leaf.toEnd, e, runOf]
    · have := h3 n
      rw [List.drop_drop] at this
      simp only [Leaf.sem] at hn
      rw [h2] at hn
      exact ⟨⟨by omega, rfl⟩, this⟩
  | wild => cases hd

/-! ### The composite iterators -/

/-- The offset before position `i`. -/
def before (offs : List Nat) (i : Nat) : Nat := if i = 0 then 0 else (offs[i - 1]?).getD 0

/-- What an iterator yields from its state on. -/
def ITy.sem (zones : Zones) : (T : ITy) → T.State → Run
  | .opt t => fun s =>
    match s with
    | none => ⟨[], .wild⟩
    | some s => nullRun (s.flags.drop s.ptr) (t.sem zones s.inner)
  | .vec t => fun s =>
    match s with
    | none => ⟨[], .wild⟩
    | some s => arrayRun (before s.offsets s.index) (s.offsets.drop s.index) (t.sem zones s.inner)
  | .hmap k v => fun s =>
    match s with
    | none => ⟨[], .wild⟩
    | some s => mapRun (before s.offsets s.index) (s.offsets.drop s.index) (k.sem zones s.keys) (v.sem zones s.values)
  | .num _ | .ip _ | .bytes | .decimal | .time | .naive | .date => Leaf.sem zones

/-- Positions are inside. -/
def ITy.Ok : (T : ITy) → T.State → Prop
  | .opt t => fun s =>
    match s with
    | none => True
    | some s => s.ptr ≤ s.flags.length ∧ t.Ok s.inner
  | .vec t => fun s =>
    match s with
    | none => True
    | some s => s.index ≤ s.offsets.length ∧ t.Ok s.inner
  | .hmap k v => fun s =>
    match s with
    | none => True
    | some s => s.index ≤ s.offsets.length ∧ k.Ok s.keys ∧ v.Ok s.values
  | .num _ | .ip _ | .bytes | .decimal | .time | .naive | .date => Leaf.Ok

theorem null_sim {f : σ → Step σ} {ok : σ → Prop} {sem : σ → Run} (hf : ∀ s, ok s → Sim f ok sem s) (s : NullIt σ)
    (h1 : s.ptr ≤ s.flags.length) (h2 : ok s.inner) :
    Sim (NullIt.next f) (fun s => s.ptr ≤ s.flags.length ∧ ok s.inner) (fun s => nullRun (s.flags.drop s.ptr) (sem s.inner)) s := by
  obtain ⟨i, flags, ptr⟩ := s
  simp only at h1 h2
  have h := hf i h2
  simp only [Sim, NullIt.next]
  by_cases hp : ptr = flags.length
  · subst hp
    simp only [List.drop_length, nullRun, Run.next, if_true]
    exact ⟨_, rfl, ⟨Nat.le_refl _, h2⟩, by simp [nullRun]⟩
  · have hg : flags[ptr]? = some flags[ptr] := List.getElem?_eq_getElem (by omega)
    rw [drop_get hg, nullRun]
    simp only [if_neg hp]
    simp only [Sim] at h
    cases hr : (sem i).next with
    | item x r =>
      rw [hr] at h
      obtain ⟨i', e1, e2, e3⟩ := h
      simp only [e1, hg, Run.cons, Run.next]
      exact ⟨_, rfl, ⟨by simp only; omega, e2⟩, by simp [e3]⟩
    | finished =>
      rw [hr] at h
      obtain ⟨i', e1, e2, e3⟩ := h
      simp only [e1, Run.next]
      exact ⟨_, rfl, ⟨h1, e2⟩, by simp only; rw [drop_get hg, nullRun, e3, hr]⟩
    | stop e =>
      rw [hr] at h
      simp only [h]
      obtain ⟨_, hd⟩ := run_next_stop hr
      cases e with
      | done => exact absurd rfl hd
      | panic => rfl
      | wild => rfl

theorem pullFrom_sim {f : σ → Step σ} {ok : σ → Prop} {sem : σ → Run} (hf : ∀ s, ok s → Sim f ok sem s) : ∀ (n : Nat) (s : σ), ok s →
    (∀ xs r, pull n (sem s) = .ok (xs, r) → ∃ s', pullFrom f n s = .ok (xs, s') ∧ ok s' ∧ sem s' = r) ∧
    (∀ e, pull n (sem s) = .error e → pullFrom f n s = .error e ∧ e ≠ .done) := by
  intro n
  induction n with
  | zero =>
    intro s hs
    refine ⟨fun xs r h => ?_, fun e h => by simp [pull] at h⟩
    simp only [pull, Except.ok.injEq, Prod.mk.injEq] at h
    exact ⟨s, by simp [pullFrom, h.1], hs, h.2⟩
  | succ n ih =>
    intro s hs
    have h := hf s hs
    simp only [Sim] at h
    simp only [pull, pullFrom]
    cases hr : (sem s).next with
    | item x r =>
      rw [hr] at h
      obtain ⟨s', e1, e2, e3⟩ := h
      obtain ⟨i1, i2⟩ := ih s' e2
      rw [e3] at i1 i2
      simp only [e1]
      cases hp : pull n r with
      | ok p =>
        obtain ⟨xs, r'⟩ := p
        obtain ⟨s'', j1, j2, j3⟩ := i1 xs r' hp
        refine ⟨fun ys q h => ?_, fun e h => by simp at h⟩
        simp only [Except.ok.injEq, Prod.mk.injEq] at h
        obtain ⟨rfl, rfl⟩ := h
        exact ⟨s'', by simp [j1], j2, j3⟩
      | error e =>
        obtain ⟨j1, j2⟩ := i2 e hp
        refine ⟨fun ys q h => by simp at h, fun e' h => ?_⟩
        simp only [Except.error.injEq] at h
        subst h
        exact ⟨by simp [j1], j2⟩
    | finished =>
      rw [hr] at h
      obtain ⟨s', e1, e2, e3⟩ := h
      have := ih s' e2
      rw [e3] at this
      simpa only [e1] using this
    | stop e =>
      rw [hr] at h
      simp only [h]
      refine ⟨fun ys q h => by simp at h, fun e' h => ?_⟩
      simp only [Except.error.injEq] at h
      subst h
      exact ⟨rfl, (run_next_stop hr).2⟩

theorem startOf_ok {offs : List Nat} {i : Nat} (h : i < offs.length) : startOf offs i = .ok (before offs i) := by
  unfold startOf before
  by_cases h0 : i = 0
  · simp [h0]
  · rw [if_pos (by omega), if_neg h0]
    have hg : offs[i - 1]? = some offs[i - 1] := List.getElem?_eq_getElem (by omega)
    simp [idx, hg]

theorem before_succ {offs : List Nat} {i : Nat} {a : Nat} (h : offs[i]? = some a) : before offs (i + 1) = a := by
  simp [before, h]

theorem array_sim {f : σ → Step σ} {ok : σ → Prop} {sem : σ → Run} (hf : ∀ s, ok s → Sim f ok sem s) (s : ArrayIt σ)
    (h1 : s.index ≤ s.offsets.length) (h2 : ok s.inner) :
    Sim (ArrayIt.next f) (fun s => s.index ≤ s.offsets.length ∧ ok s.inner)
      (fun s => arrayRun (before s.offsets s.index) (s.offsets.drop s.index) (sem s.inner)) s := by
  obtain ⟨i, offs, index⟩ := s
  simp only at h1 h2
  simp only [Sim, ArrayIt.next]
  by_cases hp : index = offs.length
  · subst hp
    simp only [List.drop_length, arrayRun, Run.next, if_true]
    exact ⟨_, rfl, ⟨Nat.le_refl _, h2⟩, by simp [arrayRun]⟩
  · have hg : offs[index]? = some offs[index] := List.getElem?_eq_getElem (by omega)
    have hix : idx offs index = .ok offs[index] := by unfold idx; rw [hg]
    rw [drop_get hg, arrayRun]
    simp only [if_neg hp, startOf_ok (show index < offs.length by omega), hix]
    by_cases hs : offs[index] < before offs index
    · simp only [if_pos hs]; rfl
    · simp only [if_neg hs]
      obtain ⟨p1, p2⟩ := pullFrom_sim hf (offs[index] - before offs index) i h2
      cases hr : pull (offs[index] - before offs index) (sem i) with
      | ok p =>
        obtain ⟨xs, r⟩ := p
        obtain ⟨i', e1, e2, e3⟩ := p1 xs r hr
        simp only [e1, Run.cons, Run.next]
        exact ⟨_, rfl, ⟨by simp only; omega, e2⟩, by simp [e3, before_succ hg]⟩
      | error e =>
        obtain ⟨e1, hd⟩ := p2 e hr
        simp only [e1]
        cases e with
        | done => exact absurd rfl hd
        | panic => rfl
        | wild => rfl

theorem pullPairs_sim {f : κ → Step κ} {okf : κ → Prop} {semf : κ → Run} (hf : ∀ s, okf s → Sim f okf semf s)
    {g : ν → Step ν} {okg : ν → Prop} {semg : ν → Run} (hg : ∀ s, okg s → Sim g okg semg s) :
    ∀ (n : Nat) (m : List Item × List Item) (s : κ) (t : ν), okf s → okg t →
    (∀ m' r q, pullPairs n m (semf s) (semg t) = .ok (m', r, q) →
      ∃ s' t', pullPairsFrom f g n m s t = .ok (m', s', t') ∧ (okf s' ∧ okg t') ∧ semf s' = r ∧ semg t' = q) ∧
    (∀ e, pullPairs n m (semf s) (semg t) = .error e → pullPairsFrom f g n m s t = .error e ∧ e ≠ .done) := by
  intro n
  induction n with
  | zero =>
    intro m s t hs ht
    refine ⟨fun m' r q h => ?_, fun e h => by simp [pullPairs] at h⟩
    simp only [pullPairs, Except.ok.injEq, Prod.mk.injEq] at h
    exact ⟨s, t, by simp [pullPairsFrom, h.1], ⟨hs, ht⟩, h.2.1, h.2.2⟩
  | succ n ih =>
    intro m s t hs ht
    have h := hf s hs
    have h' := hg t ht
    simp only [Sim] at h h'
    simp only [pullPairs, pullPairsFrom]
    cases hr : (semf s).next with
    | item x r =>
      rw [hr] at h
      obtain ⟨s', e1, e2, e3⟩ := h
      simp only [e1]
      cases hq : (semg t).next with
      | item y q =>
        rw [hq] at h'
        obtain ⟨t', d1, d2, d3⟩ := h'
        simp only [d1]
        have := ih (itemInsert m x y) s' t' e2 d2
        rwa [e3, d3] at this
      | finished =>
        rw [hq] at h'
        obtain ⟨t', d1, d2, d3⟩ := h'
        simp only [d1]
        have := ih m s' t' e2 d2
        rwa [e3, d3] at this
      | stop e =>
        rw [hq] at h'
        simp only [h']
        refine ⟨fun _ _ _ h => by simp at h, fun e' h => ?_⟩
        simp only [Except.error.injEq] at h
        subst h
        exact ⟨rfl, (run_next_stop hq).2⟩
    | finished =>
      rw [hr] at h
      obtain ⟨s', e1, e2, e3⟩ := h
      simp only [e1]
      have := ih m s' t e2 ht
      rwa [e3] at this
    | stop e =>
      rw [hr] at h
      simp only [h]
      refine ⟨fun _ _ _ h => by simp at h, fun e' h => ?_⟩
      simp only [Except.error.injEq] at h
      subst h
      exact ⟨rfl, (run_next_stop hr).2⟩

theorem map_sim {f : κ → Step κ} {okf : κ → Prop} {semf : κ → Run} (hf : ∀ s, okf s → Sim f okf semf s)
    {g : ν → Step ν} {okg : ν → Prop} {semg : ν → Run} (hg : ∀ s, okg s → Sim g okg semg s) (s : MapIt κ ν)
    (h1 : s.index ≤ s.offsets.length) (h2 : okf s.keys) (h3 : okg s.values) :
    Sim (MapIt.next f g) (fun s => s.index ≤ s.offsets.length ∧ okf s.keys ∧ okg s.values)
      (fun s => mapRun (before s.offsets s.index) (s.offsets.drop s.index) (semf s.keys) (semg s.values)) s := by
  obtain ⟨i, j, offs, index⟩ := s
  simp only at h1 h2 h3
  simp only [Sim, MapIt.next]
  by_cases hp : index = offs.length
  · subst hp
    simp only [List.drop_length, mapRun, Run.next, if_true]
    exact ⟨_, rfl, ⟨Nat.le_refl _, h2, h3⟩, by simp [mapRun]⟩
  · have hgt : offs[index]? = some offs[index] := List.getElem?_eq_getElem (by omega)
    have hix : idx offs index = .ok offs[index] := by unfold idx; rw [hgt]
    rw [drop_get hgt, mapRun]
    simp only [if_neg hp, startOf_ok (show index < offs.length by omega), hix]
    by_cases hs : offs[index] < before offs index
    · simp only [if_pos hs]; rfl
    · simp only [if_neg hs]
      obtain ⟨p1, p2⟩ := pullPairs_sim hf hg (offs[index] - before offs index) ([], []) i j h2 h3
      cases hr : pullPairs (offs[index] - before offs index) ([], []) (semf i) (semg j) with
      | ok p =>
        obtain ⟨m, r, q⟩ := p
        obtain ⟨i', j', e1, ⟨e2, e3⟩, e4, e5⟩ := p1 m r q hr
        simp only [e1, Run.cons, Run.next]
        exact ⟨_, rfl, ⟨by simp only; omega, e2, e3⟩, by simp [e4, e5, before_succ hgt]⟩
      | error e =>
        obtain ⟨e1, hd⟩ := p2 e hr
        simp only [e1]
        cases e with
        | done => exact absurd rfl hd
        | panic => rfl
        | wild => rfl

theorem sane_sim {f : σ → Step σ} {ok : σ → Prop} {sem : σ → Run} {ok' : Option σ → Prop} {sem' : Option σ → Run} {s : σ}
    (h : Sim f ok sem s) (h1 : ∀ s, ok' (some s) = ok s) (h2 : ∀ s, sem' (some s) = sem s) : Sim (Step.sane f) ok' sem' (some s) := by
  simp only [Sim, h2, Step.sane] at h ⊢
  cases hr : (sem s).next with
  | item x r =>
    rw [hr] at h
    obtain ⟨s', e1, e2, e3⟩ := h
    exact ⟨some s', by simp [e1], by rw [h1]; exact e2, by rw [h2]; exact e3⟩
  | finished =>
    rw [hr] at h
    obtain ⟨s', e1, e2, e3⟩ := h
    exact ⟨some s', by simp [e1], by rw [h1]; exact e2, by rw [h2]; exact e3⟩
  | stop e =>
    rw [hr] at h
    simp only [h]

/-- One call of `next` of any iterator. -/
theorem next_sim (zones : Zones) : ∀ (T : ITy) (s : T.State), T.Ok s → Sim (T.next zones) T.Ok (T.sem zones) s := by
  intro T
  induction T with
  | num t => exact leaf_sim zones
  | ip k => exact leaf_sim zones
  | bytes => exact leaf_sim zones
  | decimal => exact leaf_sim zones
  | time => exact leaf_sim zones
  | naive => exact leaf_sim zones
  | date => exact leaf_sim zones
  | opt t ih =>
    intro s h
    cases s with
    | none => rfl
    | some s => exact sane_sim (null_sim ih s h.1 h.2) (fun _ => rfl) (fun _ => rfl)
  | vec t ih =>
    intro s h
    cases s with
    | none => rfl
    | some s => exact sane_sim (array_sim ih s h.1 h.2) (fun _ => rfl) (fun _ => rfl)
  | hmap k v ihk ihv =>
    intro s h
    cases s with
    | none => rfl
    | some s => exact sane_sim (map_sim ihk ihv s h.1 h.2.1 h.2.2) (fun _ => rfl) (fun _ => rfl)

/-! ### The iterator at its beginning -/

theorem fixed_rows : ∀ (c : Col) (slots level props : Nat) {n : Nat} {buf : Bytes} {rows : Nat},
    c.getInternal slots level props = .ok (.fixed n buf rows) → rows * n ≤ buf.length := by
  intro c
  induction c <;> intro slots level props n buf rows h <;> simp only [Col.getInternal] at h <;> repeat' split at h
  all_goals first
    | (simp at h; done)
    | (rename_i ih _; exact ih _ _ _ h)
    | (rename_i ih _ _; exact ih _ _ _ h)
    | (rename_i ih _ _ _; exact ih _ _ _ h)
    | (rename_i ih; exact ih _ _ _ h)
    | (obtain ⟨r, h1, h2⟩ := obind_eq_ok h; simp [pure] at h2; done)
    | (obtain ⟨r, h1, h2⟩ := obind_eq_ok h
       simp only [Col.len] at h1
       split at h1
       · cases h1
       · simp only [pure, Out.ok.injEq, Store.fixed.injEq] at h1 h2
         obtain ⟨rfl, rfl, rfl⟩ := h2
         rw [← h1]
         exact Nat.div_mul_le_self _ _)

/-- The iterator and the run are made alike. -/
def Meets (ok : σ → Prop) (sem : σ → Run) (a : Out σ) (b : Out Run) : Prop :=
  match a with
  | .ok s => ok s ∧ b = .ok (sem s)
  | .err e => b = .err e
  | .panic => b = .panic

theorem Meets.from {ok : σ → Prop} {sem : σ → Run} {x : Out α} {g : α → σ} {r : α → Run}
    (h : ∀ a, x = .ok a → ok (g a) ∧ sem (g a) = r a) : Meets ok sem (x >>= fun a => pure (g a)) (x >>= fun a => pure (r a)) := by
  cases x with
  | ok a =>
    obtain ⟨h1, h2⟩ := h a rfl
    exact ⟨h1, congrArg Out.ok h2.symm⟩
  | err e => rfl
  | panic => rfl

theorem Meets.bind {ok : σ → Prop} {sem : σ → Run} {ok' : τ → Prop} {sem' : τ → Run} {a : Out σ} {b : Out Run} (h : Meets ok sem a b)
    {f : σ → Out τ} {g : Run → Out Run} (hf : ∀ s, ok s → Meets ok' sem' (f s) (g (sem s))) : Meets ok' sem' (a >>= f) (b >>= g) := by
  cases a with
  | ok s =>
    obtain ⟨h1, rfl⟩ := h
    exact hf s h1
  | err e =>
    have h : b = .err e := h
    subst h
    rfl
  | panic =>
    have h : b = .panic := h
    subst h
    rfl

/-- `iter_with_props` gives the iterator whose items are those of the run. -/
theorem cursor_meets (zones : Zones) (c : Col) : ∀ (T : ITy) (ty : SqlType) (props : Nat),
    Meets T.Ok (T.sem zones) (cursorWith c T ty props) (iterWith zones c T ty props) := by
  intro T
  induction T with
  | num t =>
    intro ty props
    simp only [cursorWith, iterWith]
    by_cases h : checkType ty (.num t) = true
    · simp only [if_pos h]
      refine Meets.from fun s _ => ?_
      cases s <;> try exact ⟨trivial, rfl⟩
      simp only [Store.numbers, Store.asNums]
      split <;> exact ⟨trivial, rfl⟩
    · simp only [if_neg h]; rfl
  | ip k =>
    intro ty props
    simp only [cursorWith, iterWith]
    refine Meets.from fun s _ => ?_
    cases s <;> first | exact ⟨trivial, rfl⟩ | exact ⟨Nat.zero_le _, rfl⟩
  | bytes =>
    intro ty props
    cases ty <;> try exact rfl
    · simp only [cursorWith, iterWith]
      refine Meets.from fun s _ => ?_
      cases s <;> first | exact ⟨trivial, rfl⟩ | exact ⟨⟨Nat.zero_le _, rfl⟩, rfl⟩
    · rename_i n
      simp only [cursorWith, iterWith]
      refine Meets.from fun s hs => ?_
      cases s <;> try exact ⟨trivial, rfl⟩
      rename_i n' buf rows
      have := fixed_rows _ _ _ _ hs
      simp only [Store.fixedStrings, Store.asFixed]
      by_cases h : n' = n
      · subst h
        simp only [if_true]
        exact ⟨⟨Nat.zero_le _, this⟩, by simp [ITy.sem, Leaf.sem, List.range_eq_range']⟩
      · simp only [if_neg h]
        exact ⟨trivial, rfl⟩
    · rename_i ty
      cases ty <;> try exact rfl
      all_goals
        simp only [cursorWith, iterWith]
        refine Meets.from fun p _ => ?_
        obtain ⟨index, d⟩ := p
        exact ⟨⟨Nat.zero_le _, rfl⟩, rfl⟩
  | decimal =>
    intro ty props
    cases ty <;> try exact rfl
    rename_i p s
    simp only [cursorWith, iterWith]
    refine Meets.from fun st _ => ?_
    cases st <;> try exact ⟨trivial, rfl⟩
    exact ⟨⟨rfl, 0, Nat.zero_le _, by simp⟩, by simp [Store.decimals, ITy.sem, Leaf.sem, Store.asDecimals]⟩
  | time =>
    intro ty props
    simp only [cursorWith, iterWith]
    refine Meets.from fun p _ => ?_
    obtain ⟨lc, st⟩ := p
    cases st <;> first | exact ⟨trivial, rfl⟩ | exact ⟨⟨Nat.zero_le _, rfl⟩, rfl⟩
  | naive =>
    intro ty props
    simp only [cursorWith, iterWith]
    refine Meets.from fun p _ => ?_
    obtain ⟨lc, st⟩ := p
    cases st <;> first | exact ⟨trivial, rfl⟩ | exact ⟨⟨Nat.zero_le _, rfl⟩, rfl⟩
  | date =>
    intro ty props
    simp only [cursorWith, iterWith]
    refine Meets.from fun p _ => ?_
    obtain ⟨lc, st⟩ := p
    cases st <;> first | exact ⟨trivial, rfl⟩ | exact ⟨⟨Nat.zero_le _, rfl⟩, rfl⟩
  | opt t ih =>
    intro ty props
    cases ty <;> try exact rfl
    rename_i ty
    simp only [cursorWith, iterWith]
    refine Meets.bind (ih ty 0) fun i hi => Meets.from fun s _ => ?_
    cases s <;> first | exact ⟨trivial, rfl⟩ | exact ⟨⟨Nat.zero_le _, hi⟩, rfl⟩
  | vec t ih =>
    intro ty props
    cases ty <;> try exact rfl
    rename_i ty
    simp only [cursorWith, iterWith]
    refine Meets.bind (ih ty props) fun i hi => Meets.from fun s _ => ?_
    cases s <;> first | exact ⟨trivial, rfl⟩ | exact ⟨⟨Nat.zero_le _, hi⟩, rfl⟩
  | hmap k v ihk ihv =>
    intro ty props
    cases ty <;> try exact rfl
    rename_i kt vt
    simp only [cursorWith, iterWith]
    split
    · rfl
    · refine Meets.bind (ihk kt _) fun i hi => Meets.bind (ihv vt 0) fun j hj => Meets.from fun s _ => ?_
      cases s <;> first | exact ⟨trivial, rfl⟩ | exact ⟨⟨Nat.zero_le _, hi, hj⟩, rfl⟩

/-! ### Asking a cursor -/

/-- The iterator has exactly these items left, and says so. -/
structure Faithful (zones : Zones) (T : ITy) (s : T.State) (items : List Item) : Prop where
  ok : T.Ok s
  sem : T.sem zones s = ⟨items, .done⟩
  len : T.len s = .ok items.length

theorem nullRun_short : ∀ (flags : Bytes) (r : Run), (nullRun flags r).items.length ≤ flags.length := by
  intro flags
  induction flags with
  | nil => intro r; simp [nullRun]
  | cons f fs ih =>
    intro r
    rw [nullRun]
    split
    · rename_i x r' _
      simpa [Run.cons] using ih r'
    · simp
    · simp

theorem arrayRun_length : ∀ (offs : List Nat) (start : Nat) (r : Run), (arrayRun start offs r).stop = .done →
    (arrayRun start offs r).items.length = offs.length := by
  intro offs
  induction offs with
  | nil => intro start r _; simp [arrayRun]
  | cons o offs ih =>
    intro start r h
    rw [arrayRun] at h ⊢
    split
    · rename_i hlt; rw [if_pos hlt] at h; cases h
    · rename_i hlt
      rw [if_neg hlt] at h
      cases hp : pull (o - start) r with
      | ok p => rw [hp] at h; simpa [Run.cons] using ih _ _ h
      | error e =>
        exfalso
        rw [hp] at h
        simp only at h
        subst h
        exact (pullFrom_sim (f := fun r : Run => match r.next with | .item x r' => .item x r' | .finished => .finished r | .stop e => .stop e)
          (ok := fun _ => True) (sem := id) (fun s _ => by
            simp only [Sim, id]
            cases s.next with
            | item x r => exact ⟨_, rfl, trivial, rfl⟩
            | finished => exact ⟨_, rfl, trivial, rfl⟩
            | stop e => rfl) (o - start) r trivial).2 _ hp |>.2 rfl

theorem mapRun_length : ∀ (offs : List Nat) (start : Nat) (k v : Run), (mapRun start offs k v).stop = .done →
    (mapRun start offs k v).items.length = offs.length := by
  intro offs
  induction offs with
  | nil => intro start k v _; simp [mapRun]
  | cons o offs ih =>
    intro start k v h
    rw [mapRun] at h ⊢
    split
    · rename_i hlt; rw [if_pos hlt] at h; cases h
    · rename_i hlt
      rw [if_neg hlt] at h
      cases hp : pullPairs (o - start) ([], []) k v with
      | ok p => rw [hp] at h; simpa [Run.cons] using ih _ _ _ h
      | error e =>
        exfalso
        rw [hp] at h
        simp only at h
        subst h
        have hs : ∀ s : Run, True → Sim (fun r : Run => match r.next with | .item x r' => .item x r' | .finished => .finished r | .stop e => .stop e)
          (fun _ => True) id s := fun s _ => by
            simp only [Sim, id]
            cases s.next with
            | item x r => exact ⟨_, rfl, trivial, rfl⟩
            | finished => exact ⟨_, rfl, trivial, rfl⟩
            | stop e => rfl
        exact (pullPairs_sim hs hs (o - start) ([], []) k v trivial trivial).2 _ hp |>.2 rfl

/-- `next` on an iterator with items left. -/
theorem Faithful.item {zones : Zones} {T : ITy} {s : T.State} {x : Item} {xs : List Item} (h : Faithful zones T s (x :: xs)) :
    ∃ s', T.next zones s = .item x s' ∧ Faithful zones T s' xs := by
  obtain ⟨s', h1, h2, h3⟩ := (next_sim zones T s h.ok).item h.sem
  refine ⟨s', h1, h2, h3, ?_⟩
  have hl := h.len
  cases T with
  | num t => have := (leaf_len zones s' h2 (congrArg Run.stop h3)).1; rw [show Leaf.sem zones s' = _ from h3] at this; exact this
  | ip t => have := (leaf_len zones s' h2 (congrArg Run.stop h3)).1; rw [show Leaf.sem zones s' = _ from h3] at this; exact this
  | bytes => have := (leaf_len zones s' h2 (congrArg Run.stop h3)).1; rw [show Leaf.sem zones s' = _ from h3] at this; exact this
  | decimal => have := (leaf_len zones s' h2 (congrArg Run.stop h3)).1; rw [show Leaf.sem zones s' = _ from h3] at this; exact this
  | time => have := (leaf_len zones s' h2 (congrArg Run.stop h3)).1; rw [show Leaf.sem zones s' = _ from h3] at this; exact this
  | naive => have := (leaf_len zones s' h2 (congrArg Run.stop h3)).1; rw [show Leaf.sem zones s' = _ from h3] at this; exact this
  | date => have := (leaf_len zones s' h2 (congrArg Run.stop h3)).1; rw [show Leaf.sem zones s' = _ from h3] at this; exact this
  | opt t =>
    cases s with
    | none => cases h1
    | some s =>
      simp only [ITy.len, if_pos h.ok.1, Out.ok.injEq, List.length_cons] at hl
      have hp : ¬ s.ptr = s.flags.length := by omega
      simp only [ITy.next, Step.sane, NullIt.next, if_neg hp] at h1
      cases hi : t.next zones s.inner with
      | stop e => rw [hi] at h1; cases h1
      | finished i => rw [hi] at h1; cases h1
      | item y i =>
        have hg : s.flags[s.ptr]? = some s.flags[s.ptr] := List.getElem?_eq_getElem (by omega)
        simp only [hi, hg, Step.item.injEq] at h1
        obtain ⟨_, rfl⟩ := h1
        simp only [ITy.len]
        rw [if_pos (by omega)]
        congr 1
        omega
  | vec t =>
    cases s' with
    | none => cases h3
    | some s' =>
      simp only [ITy.len, if_pos h2.1, Out.ok.injEq]
      have := arrayRun_length _ _ _ (congrArg Run.stop h3)
      rw [show arrayRun _ _ _ = _ from h3] at this
      simpa using this.symm
  | hmap k v =>
    cases s' with
    | none => cases h3
    | some s' =>
      simp only [ITy.len, if_pos h2.1, Out.ok.injEq]
      have := mapRun_length _ _ _ _ (congrArg Run.stop h3)
      rw [show mapRun _ _ _ _ = _ from h3] at this
      simpa using this.symm

/-- `next` on an iterator at its end. -/
theorem Faithful.finished {zones : Zones} {T : ITy} {s : T.State} (h : Faithful zones T s []) :
    ∃ s', T.next zones s = .finished s' ∧ Faithful zones T s' [] := by
  obtain ⟨s', h1, h2, h3⟩ := (next_sim zones T s h.ok).finished h.sem
  refine ⟨s', h1, h2, h3, ?_⟩
  have hl := h.len
  cases T with
  | num t => have := (leaf_len zones s' h2 (congrArg Run.stop h3)).1; rw [show Leaf.sem zones s' = _ from h3] at this; exact this
  | ip t => have := (leaf_len zones s' h2 (congrArg Run.stop h3)).1; rw [show Leaf.sem zones s' = _ from h3] at this; exact this
  | bytes => have := (leaf_len zones s' h2 (congrArg Run.stop h3)).1; rw [show Leaf.sem zones s' = _ from h3] at this; exact this
  | decimal => have := (leaf_len zones s' h2 (congrArg Run.stop h3)).1; rw [show Leaf.sem zones s' = _ from h3] at this; exact this
  | time => have := (leaf_len zones s' h2 (congrArg Run.stop h3)).1; rw [show Leaf.sem zones s' = _ from h3] at this; exact this
  | naive => have := (leaf_len zones s' h2 (congrArg Run.stop h3)).1; rw [show Leaf.sem zones s' = _ from h3] at this; exact this
  | date => have := (leaf_len zones s' h2 (congrArg Run.stop h3)).1; rw [show Leaf.sem zones s' = _ from h3] at this; exact this
  | opt t =>
    cases s with
    | none => cases h1
    | some s =>
      simp only [ITy.len, if_pos h.ok.1, Out.ok.injEq, List.length_nil] at hl
      have hp : s.ptr = s.flags.length := by have := h.ok.1; omega
      simp only [ITy.next, Step.sane, NullIt.next, if_pos hp] at h1
      cases h1
      exact h.len
  | vec t =>
    cases s' with
    | none => cases h3
    | some s' =>
      simp only [ITy.len, if_pos h2.1, Out.ok.injEq]
      have := arrayRun_length _ _ _ (congrArg Run.stop h3)
      rw [show arrayRun _ _ _ = _ from h3] at this
      simpa using this.symm
  | hmap k v =>
    cases s' with
    | none => cases h3
    | some s' =>
      simp only [ITy.len, if_pos h2.1, Out.ok.injEq]
      have := mapRun_length _ _ _ _ (congrArg Run.stop h3)
      rw [show mapRun _ _ _ _ = _ from h3] at this
      simpa using this.symm

/-- What `nth` should do: give the item and leave those after it. -/
def NthOk (P : σ → List Item → Prop) (r : Step σ) (items : List Item) (n : Nat) : Prop :=
  match items[n]? with
  | some x => ∃ s', r = .item x s' ∧ P s' (items.drop (n + 1))
  | none => ∃ s', r = .finished s' ∧ P s' []

theorem nthDefault_ok {f : σ → Step σ} {P : σ → List Item → Prop} (h1 : ∀ {s x xs}, P s (x :: xs) → ∃ s', f s = .item x s' ∧ P s' xs)
    (h2 : ∀ {s}, P s [] → ∃ s', f s = .finished s' ∧ P s' []) : ∀ (n : Nat) (items : List Item) (s : σ), P s items →
    NthOk P (nthDefault f n s) items n := by
  intro n
  induction n with
  | zero =>
    intro items s h
    cases items with
    | nil => exact h2 h
    | cons x xs => exact h1 h
  | succ n ih =>
    intro items s h
    cases items with
    | nil =>
      obtain ⟨s', e, h'⟩ := h2 h
      exact ⟨s', by simp [nthDefault, e], h'⟩
    | cons x xs =>
      obtain ⟨s', e, h'⟩ := h1 h
      have := ih xs s' h'
      simpa [NthOk, nthDefault, e] using this

theorem leafNth_ok {zones : Zones} {T : ITy} {s : Leaf} {items : List Item} {n : Nat} (hT : T.State = Leaf)
    (P : Leaf → List Item → Prop) (hP : ∀ s items, P s items ↔ s.Ok ∧ s.sem zones = ⟨items, .done⟩ ∧ s.len = .ok items.length)
    (h : P s items) : NthOk P (Leaf.nth zones n s) items n := by
  obtain ⟨h1, h2, h3⟩ := (hP _ _).mp h
  obtain ⟨_, l1, l2⟩ := leaf_len zones s h1 (congrArg Run.stop h2)
  rw [h2] at l2
  simp only [NthOk, Leaf.nth, h3]
  by_cases hn : n ≥ items.length
  · simp only [if_pos hn, List.getElem?_eq_none hn]
    refine ⟨_, rfl, (hP _ _).mpr ⟨l1.1, l1.2, ?_⟩⟩
    have := (leaf_len zones _ l1.1 (congrArg Run.stop l1.2)).1
    rwa [l1.2] at this
  · have hn' : n < items.length := by omega
    simp only [if_neg hn, List.getElem?_eq_getElem hn']
    obtain ⟨k1, k2⟩ := l2 n (by simp only; omega)
    simp only [List.drop_eq_getElem_cons hn'] at k2
    obtain ⟨s', e1, e2, e3⟩ := (leaf_sim zones _ k1).item k2
    refine ⟨s', e1, (hP _ _).mpr ⟨e2, e3, ?_⟩⟩
    have := (leaf_len zones _ e2 (congrArg Run.stop e3)).1
    rwa [e3] at this

theorem Faithful.nth {zones : Zones} {T : ITy} {s : T.State} {items : List Item} (h : Faithful zones T s items) (n : Nat) :
    NthOk (Faithful zones T) (T.nth zones n s) items n := by
  cases T with
  | num t => exact leafNth_ok (T := .num t) rfl _ (fun s xs => ⟨fun h => ⟨h.ok, h.sem, h.len⟩, fun h => ⟨h.1, h.2.1, h.2.2⟩⟩) h
  | ip t => exact leafNth_ok (T := .ip t) rfl _ (fun s xs => ⟨fun h => ⟨h.ok, h.sem, h.len⟩, fun h => ⟨h.1, h.2.1, h.2.2⟩⟩) h
  | bytes => exact leafNth_ok (T := .bytes) rfl _ (fun s xs => ⟨fun h => ⟨h.ok, h.sem, h.len⟩, fun h => ⟨h.1, h.2.1, h.2.2⟩⟩) h
  | decimal => exact leafNth_ok (T := .decimal) rfl _ (fun s xs => ⟨fun h => ⟨h.ok, h.sem, h.len⟩, fun h => ⟨h.1, h.2.1, h.2.2⟩⟩) h
  | time => exact leafNth_ok (T := .time) rfl _ (fun s xs => ⟨fun h => ⟨h.ok, h.sem, h.len⟩, fun h => ⟨h.1, h.2.1, h.2.2⟩⟩) h
  | naive => exact leafNth_ok (T := .naive) rfl _ (fun s xs => ⟨fun h => ⟨h.ok, h.sem, h.len⟩, fun h => ⟨h.1, h.2.1, h.2.2⟩⟩) h
  | date => exact leafNth_ok (T := .date) rfl _ (fun s xs => ⟨fun h => ⟨h.ok, h.sem, h.len⟩, fun h => ⟨h.1, h.2.1, h.2.2⟩⟩) h
  | opt t => exact nthDefault_ok Faithful.item Faithful.finished n items s h
  | vec t => exact nthDefault_ok Faithful.item Faithful.finished n items s h
  | hmap k v => exact nthDefault_ok Faithful.item Faithful.finished n items s h

theorem answers_ok {f : σ → Step σ} {nth : Nat → σ → Step σ} {len : σ → Out Nat} {P : σ → List Item → Prop}
    (h1 : ∀ {s items}, P s items → NthOk P (f s) items 0) (h2 : ∀ {s items}, P s items → ∀ n, NthOk P (nth n s) items n)
    (asks : List Ask) (h3 : (∃ a ∈ asks, a = .len) → ∀ {s items}, P s items → len s = .ok items.length) :
    ∀ (s : σ) (items : List Item), P s items → answersBy f nth len s asks = answersOf items asks := by
  induction asks with
  | nil => intro s items _; rfl
  | cons a asks ih =>
    intro s items h
    have ih := ih fun ⟨a, ha, e⟩ => h3 ⟨a, List.mem_cons_of_mem _ ha, e⟩
    cases a with
    | next =>
      have := h1 h
      simp only [NthOk] at this
      simp only [answersBy, answersOf]
      cases hx : items[0]? with
      | some x =>
        rw [hx] at this
        obtain ⟨s', e, h'⟩ := this
        simp only [e]
        rw [ih _ _ h']
      | none =>
        rw [hx] at this
        obtain ⟨s', e, h'⟩ := this
        simp only [e]
        rw [ih _ _ h', List.drop_eq_nil_of_le (by have := List.getElem?_eq_none_iff.mp hx; omega)]
    | nth n =>
      have := h2 h n
      simp only [NthOk] at this
      simp only [answersBy, answersOf]
      cases hx : items[n]? with
      | some x =>
        rw [hx] at this
        obtain ⟨s', e, h'⟩ := this
        simp only [e]
        rw [ih _ _ h']
      | none =>
        rw [hx] at this
        obtain ⟨s', e, h'⟩ := this
        simp only [e]
        rw [ih _ _ h', List.drop_eq_nil_of_le (by have := List.getElem?_eq_none_iff.mp hx; omega)]
    | len =>
      simp only [answersBy, answersOf, h3 ⟨.len, by simp, rfl⟩ h]
      rw [ih _ _ h]

theorem Faithful.next {zones : Zones} {T : ITy} {s : T.State} {items : List Item} (h : Faithful zones T s items) :
    NthOk (Faithful zones T) (T.next zones s) items 0 := by
  cases items with
  | nil => exact h.finished
  | cons x xs => exact h.item

/-- Any sequence of calls is answered as by the list of items. -/
theorem Faithful.answers {zones : Zones} {T : ITy} {s : T.State} {items : List Item} (h : Faithful zones T s items) (asks : List Ask) :
    answersBy (T.next zones) (T.nth zones) T.len s asks = answersOf items asks :=
  answers_ok Faithful.next Faithful.nth asks (fun _ _ _ h => h.len) s items h

/-- A new iterator over nullable values has as many flags as the column has rows. -/
theorem opt_flags {c : Col} {t : ITy} {s : NullIt t.State} {n : Nat} (h : c.cursor (.opt t) = .ok (some s)) (hl : c.len = .ok n) :
    s.ptr = 0 ∧ s.flags.length = n := by
  unfold Col.cursor at h
  cases hc : c.sqlType <;> rw [hc] at h <;> try cases h
  rename_i ty
  simp only [cursorWith] at h
  obtain ⟨i, h1, h2⟩ := obind_eq_ok h
  obtain ⟨st, h3, h4⟩ := obind_eq_ok h2
  cases c <;> simp only [Col.sqlType] at hc <;> try cases hc
  all_goals try (simp only [Col.getInternal] at h3; cases h3; done)
  rename_i nulls inner
  simp only [Col.getInternal, if_true] at h3
  rw [if_neg (by decide)] at h3
  rw [hl] at h3
  simp only [obind_ok, pure, Out.ok.injEq] at h3 h4
  subst h3
  cases h4
  simp only [Col.len] at hl
  obtain ⟨l, h5, h6⟩ := obind_eq_ok hl
  split at h6
  · rename_i e
    simp only [pure, Out.ok.injEq] at h6
    exact ⟨rfl, by rw [e, h6]⟩
  · cases h6

/-- A new iterator that will yield all rows knows how many there are. -/
theorem cursor_faithful {zones : Zones} {c : Col} {T : ITy} {items : List Item} {n : Nat} (h : c.iter zones T = .ok ⟨items, .done⟩)
    (hl : c.len = .ok n) (hi : items.length = n) : ∃ s, c.cursor T = .ok s ∧ Faithful zones T s items := by
  have hm := cursor_meets zones c T c.sqlType 0
  cases hc : cursorWith c T c.sqlType 0 with
  | err e => rw [hc] at hm; have hm : Col.iter zones c T = .err e := hm; rw [h] at hm; cases hm
  | panic => rw [hc] at hm; have hm : Col.iter zones c T = .panic := hm; rw [h] at hm; cases hm
  | ok s =>
    rw [hc] at hm
    obtain ⟨hok, hm⟩ := hm
    have hm : Col.iter zones c T = .ok (T.sem zones s) := hm
    rw [h, Out.ok.injEq] at hm
    refine ⟨s, hc, hok, hm.symm, ?_⟩
    cases T with
    | num t => have := (leaf_len zones s hok (congrArg Run.stop hm.symm)).1; rw [show Leaf.sem zones s = _ from hm.symm] at this; exact this
    | ip t => have := (leaf_len zones s hok (congrArg Run.stop hm.symm)).1; rw [show Leaf.sem zones s = _ from hm.symm] at this; exact this
    | bytes => have := (leaf_len zones s hok (congrArg Run.stop hm.symm)).1; rw [show Leaf.sem zones s = _ from hm.symm] at this; exact this
    | decimal => have := (leaf_len zones s hok (congrArg Run.stop hm.symm)).1; rw [show Leaf.sem zones s = _ from hm.symm] at this; exact this
    | time => have := (leaf_len zones s hok (congrArg Run.stop hm.symm)).1; rw [show Leaf.sem zones s = _ from hm.symm] at this; exact this
    | naive => have := (leaf_len zones s hok (congrArg Run.stop hm.symm)).1; rw [show Leaf.sem zones s = _ from hm.symm] at this; exact this
    | date => have := (leaf_len zones s hok (congrArg Run.stop hm.symm)).1; rw [show Leaf.sem zones s = _ from hm.symm] at this; exact this
    | opt t =>
      cases s with
      | none => cases hm
      | some s =>
        obtain ⟨h1, h2⟩ := opt_flags hc hl
        simp only [ITy.len, h1, h2, hi, Nat.zero_le, if_true, Nat.sub_zero]
    | vec t =>
      cases s with
      | none => cases hm
      | some s =>
        simp only [ITy.len, if_pos hok.1, Out.ok.injEq]
        have := arrayRun_length _ _ _ (congrArg Run.stop hm.symm)
        rw [show arrayRun _ _ _ = _ from hm.symm] at this
        simpa using this.symm
    | hmap k v =>
      cases s with
      | none => cases hm
      | some s =>
        simp only [ITy.len, if_pos hok.1, Out.ok.injEq]
        have := mapRun_length _ _ _ _ (congrArg Run.stop hm.symm)
        rw [show mapRun _ _ _ _ = _ from hm.symm] at this
        simpa using this.symm

/-! ### Concatenated columns -/

/-- What the iterator over a concatenated column has left. -/
def ComplexIt.sem (zones : Zones) (T : ITy) (s : ComplexIt T) : Run :=
  match s.current with
  | some it => (T.sem zones it).append (complexRun zones T s.type (s.data.drop s.currentIndex))
  | none => complexRun zones T s.type (s.data.drop s.currentIndex)

def ComplexIt.Ok (T : ITy) (s : ComplexIt T) : Prop :=
  match s.current with
  | some it => T.Ok it
  | none => True

theorem run_append_nil (r : Run) : Run.append ⟨[], .done⟩ r = r := by simp [Run.append]

theorem run_append_cons (x : Item) (xs : List Item) (e : Stop) (r : Run) :
    Run.append ⟨x :: xs, e⟩ r = Run.cons x (Run.append ⟨xs, e⟩ r) := by
  cases e <;> simp [Run.append, Run.cons]

theorem run_append_stop {e : Stop} (h : e ≠ .done) (xs : List Item) (r : Run) : Run.append ⟨xs, e⟩ r = ⟨xs, e⟩ := by
  cases e <;> simp [Run.append] at h ⊢

/-- The chunk that `seek` finds is the first with rows, and those before it yield nothing. -/
theorem seek_run (zones : Zones) (T : ITy) (ty : SqlType) (data : List Col) (i : Nat) :
    (seek data i = .ok none → complexRun zones T ty (data.drop i) = ⟨[], .done⟩) ∧
    (∀ j, seek data i = .ok (some j) → i ≤ j ∧ ∃ c, data[j]? = some c ∧ complexRun zones T ty (data.drop i) =
      match iterWith zones c T ty 0 with
      | .ok r => r.append (complexRun zones T ty (data.drop (j + 1)))
      | _ => ⟨[], .panic⟩) ∧
    ((∀ r, seek data i ≠ .ok r) → complexRun zones T ty (data.drop i) = ⟨[], .panic⟩) := by
  fun_induction seek data i with
  | case1 i h n hn hp =>
    have hg : data[i]? = some data[i] := List.getElem?_eq_getElem h
    refine ⟨fun h => by simp at h, fun j hj => ?_, fun h => absurd rfl (h _)⟩
    simp only [Out.ok.injEq, Option.some.injEq] at hj
    subst hj
    refine ⟨Nat.le_refl _, data[i], hg, ?_⟩
    rw [drop_get hg, complexRun, hn]
    simp only [if_neg (show ¬ n = 0 by omega)]
    cases iterWith zones data[i] T ty 0 <;> rfl
  | case2 i h n hn hp ih =>
    have hg : data[i]? = some data[i] := List.getElem?_eq_getElem h
    have e : complexRun zones T ty (data.drop i) = complexRun zones T ty (data.drop (i + 1)) := by
      rw [drop_get hg, complexRun, hn]
      simp only [if_pos (show n = 0 by omega)]
    rw [e]
    refine ⟨ih.1, fun j hj => ?_, ih.2.2⟩
    obtain ⟨h1, h2⟩ := ih.2.1 j hj
    exact ⟨by omega, h2⟩
  | case3 i h e he =>
    have hg : data[i]? = some data[i] := List.getElem?_eq_getElem h
    refine ⟨fun h => by simp at h, fun j hj => by simp at hj, fun _ => ?_⟩
    rw [drop_get hg, complexRun, he]
  | case4 i h he =>
    have hg : data[i]? = some data[i] := List.getElem?_eq_getElem h
    refine ⟨fun h => by simp at h, fun j hj => by simp at hj, fun _ => ?_⟩
    rw [drop_get hg, complexRun, he]
  | case5 i h =>
    refine ⟨fun _ => ?_, fun j hj => by simp at hj, fun h => absurd rfl (h _)⟩
    rw [List.drop_eq_nil_of_le (by omega), complexRun]

theorem complex_sim (zones : Zones) (T : ITy) : ∀ (fuel : Nat) (s : ComplexIt T), s.Ok T →
    s.data.length - s.currentIndex + (if s.current.isSome then 2 else 1) ≤ fuel →
    Sim (ComplexIt.nextFuel zones T fuel) (ComplexIt.Ok T) (ComplexIt.sem zones T) s := by
  intro fuel
  induction fuel with
  | zero => intro s _ h; split at h <;> omega
  | succ fuel ih =>
    intro s hok hf
    obtain ⟨ty, data, i, cur⟩ := s
    cases cur with
    | some it =>
      have hok : T.Ok it := hok
      have hs := next_sim zones T it hok
      simp only [Option.isSome_some, if_true] at hf
      simp only [Sim, ComplexIt.nextFuel, ComplexIt.sem] at hs ⊢
      cases hr : (T.sem zones it).next with
      | item x r =>
        rw [hr] at hs
        obtain ⟨it', e1, e2, e3⟩ := hs
        rw [run_next_item hr, run_append_cons]
        simp only [Run.cons, Run.next, e1]
        exact ⟨_, rfl, e2, by simp [e3]⟩
      | finished =>
        rw [hr] at hs
        obtain ⟨it', e1, e2, e3⟩ := hs
        rw [run_next_finished hr, run_append_nil]
        have := ih ⟨ty, data, i, none⟩ trivial (by simp only [Option.isSome_none]; simp; omega)
        simpa only [e1, Sim, ComplexIt.sem] using this
      | stop e =>
        rw [hr] at hs
        obtain ⟨h1, h2⟩ := run_next_stop hr
        rw [h1, run_append_stop h2]
        simp only [hs]
        cases e with
        | done => exact absurd rfl h2
        | panic => rfl
        | wild => rfl
    | none =>
      simp only [Option.isSome_none, Bool.false_eq_true, if_false] at hf
      obtain ⟨k1, k2, k3⟩ := seek_run zones T ty data i
      simp only [Sim, ComplexIt.nextFuel, ComplexIt.sem]
      cases hk : seek data i with
      | err e => rw [k3 (by simp [hk])]; rfl
      | panic => rw [k3 (by simp [hk])]; rfl
      | ok o =>
        cases o with
        | none => rw [k1 hk]; exact ⟨_, rfl, trivial, by simp [k1 hk]⟩
        | some j =>
          obtain ⟨hij, c, hc, hrun⟩ := k2 j hk
          have hj : j < data.length := (List.getElem?_eq_some_iff.mp hc).1
          simp only [hc]
          have hm := cursor_meets zones c T ty 0
          rw [hrun]
          cases hcu : cursorWith c T ty 0 with
          | err e => rw [hcu] at hm; have hm : iterWith zones c T ty 0 = .err e := hm; rw [hm]; rfl
          | panic => rw [hcu] at hm; have hm : iterWith zones c T ty 0 = .panic := hm; rw [hm]; rfl
          | ok it =>
            rw [hcu] at hm
            obtain ⟨hok, hm⟩ := hm
            rw [hm]
            have hs := next_sim zones T it hok
            simp only [Sim] at hs ⊢
            cases hr : (T.sem zones it).next with
            | item x r =>
              rw [hr] at hs
              obtain ⟨it', e1, e2, e3⟩ := hs
              rw [run_next_item hr, run_append_cons]
              simp only [Run.cons, Run.next, e1]
              exact ⟨_, rfl, e2, by simp [e3]⟩
            | finished =>
              rw [hr] at hs
              obtain ⟨it', e1, e2, e3⟩ := hs
              rw [run_next_finished hr, run_append_nil]
              have := ih ⟨ty, data, j + 1, none⟩ trivial (by simp only [Option.isSome_none]; simp; omega)
              simpa only [e1, Sim, ComplexIt.sem] using this
            | stop e =>
              rw [hr] at hs
              obtain ⟨h1, h2⟩ := run_next_stop hr
              rw [h1, run_append_stop h2]
              simp only [hs]
              cases e with
              | done => exact absurd rfl h2
              | panic => rfl
              | wild => rfl

theorem complexNext_sim (zones : Zones) (T : ITy) (s : ComplexIt T) (h : s.Ok T) :
    Sim (ComplexIt.next zones T) (ComplexIt.Ok T) (ComplexIt.sem zones T) s := by
  have := complex_sim zones T (s.data.length - s.currentIndex + 2) s h (by split <;> omega)
  simpa only [Sim, ComplexIt.next] using this

theorem firstBy_sim {f : σ → Step σ} {ok : σ → Prop} {sem : σ → Run} (hf : ∀ s, ok s → Sim f ok sem s) : ∀ (n : Nat) (s : σ), ok s →
    firstBy f n s = firstOf n (sem s).items (sem s).stop := by
  intro n
  induction n with
  | zero => intro s _; cases (sem s).items <;> cases (sem s).stop <;> rfl
  | succ n ih =>
    intro s hs
    have h := hf s hs
    cases hr : sem s with
    | mk items e =>
      cases items with
      | cons x xs =>
        obtain ⟨s', e1, e2, e3⟩ := h.item hr
        simp only [firstBy, e1, firstOf, ih s' e2, e3]
      | nil =>
        by_cases he : e = .done
        · subst he
          obtain ⟨s', e1, e2, e3⟩ := h.finished hr
          simp only [firstBy, e1, firstOf, ih s' e2, e3]
        · have := h.stop he hr
          cases e with
          | done => exact absurd rfl he
          | panic => simp only [firstBy, this, firstOf]
          | wild => simp only [firstBy, this, firstOf]

/-- Calls of `next` and `nth` on the iterator over a concatenated column. -/
theorem complex_answers {zones : Zones} {T : ITy} {s : ComplexIt T} {items : List Item} (h1 : s.Ok T)
    (h2 : s.sem zones T = ⟨items, .done⟩) (len : ComplexIt T → Out Nat) (asks : List Ask) (ha : ∀ a ∈ asks, a ≠ .len) :
    answersBy (ComplexIt.next zones T) (fun n => nthDefault (ComplexIt.next zones T) n) len s asks = answersOf items asks := by
  have k1 : ∀ {s : ComplexIt T} {x xs}, (s.Ok T ∧ s.sem zones T = ⟨x :: xs, .done⟩) →
      ∃ s', ComplexIt.next zones T s = .item x s' ∧ (s'.Ok T ∧ s'.sem zones T = ⟨xs, .done⟩) :=
    fun h => (complexNext_sim zones T _ h.1).item h.2
  have k2 : ∀ {s : ComplexIt T}, (s.Ok T ∧ s.sem zones T = ⟨[], .done⟩) →
      ∃ s', ComplexIt.next zones T s = .finished s' ∧ (s'.Ok T ∧ s'.sem zones T = ⟨[], .done⟩) :=
    fun h => (complexNext_sim zones T _ h.1).finished h.2
  refine answers_ok (P := fun (s : ComplexIt T) items => s.Ok T ∧ s.sem zones T = ⟨items, .done⟩) (fun {s items} h => ?_)
    (fun {s items} h n => nthDefault_ok k1 k2 n items s h) asks (fun ⟨a, h1, h2⟩ => absurd h2 (ha a h1)) s items ⟨h1, h2⟩
  cases items with
  | nil => exact k2 h
  | cons x xs => exact k1 h

end CH
