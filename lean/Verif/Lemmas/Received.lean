import Verif.Lemmas.Iter
import Verif.Lemmas.Parser
import Verif.Model.Load

namespace CH
open Spec

theorem splitLE_length (w n : Nat) : ∀ bs, (splitLE w n bs).length = n := by
  induction n with
  | zero => intro bs; rfl
  | succ n ih => intro bs; simp [splitLE, ih]

theorem loadNums_inv {w n : Nat} {bs r : Bytes} {xs : List Nat} (h : loadNums w n bs = .ok xs r) : xs.length = n := by
  obtain ⟨_, _, _, h⟩ := bind_eq_ok h
  obtain ⟨b, r', _, h2⟩ := bind_eq_ok h
  injection h2 with h2
  rw [← h2, splitLE_length]

theorem readMany_inv {p : Reader α} : ∀ {n : Nat} {bs r : Bytes} {xs : List α}, readMany p n bs = .ok xs r →
    xs.length = n ∧ ∀ x ∈ xs, ∃ b b', p b = .ok x b' := by
  intro n
  induction n with
  | zero =>
    intro bs r xs h
    injection h with h
    subst h
    exact ⟨rfl, by simp⟩
  | succ n ih =>
    intro bs r xs h
    obtain ⟨a, r1, h1, h⟩ := bind_eq_ok h
    obtain ⟨as, r2, h2, h⟩ := bind_eq_ok h
    injection h with h
    subst h
    obtain ⟨g1, g2⟩ := ih h2
    refine ⟨by simp [g1], fun x hx => ?_⟩
    rcases List.mem_cons.mp hx with rfl | hx
    · exact ⟨_, _, h1⟩
    · exact g2 x hx

theorem flatten_len {w : Nat} : ∀ (xs : List Bytes), (∀ x ∈ xs, x.length = w) → xs.flatten.length = xs.length * w := by
  intro xs
  induction xs with
  | nil => intro _; simp
  | cons x xs ih =>
    intro h
    rw [List.flatten_cons, List.length_append, ih fun y hy => h y (by simp [hy]), h x (by simp), List.length_cons, Nat.succ_mul]
    omega

theorem lastOff_spec (offs : List Nat) : offs.getLast? = some (lastOff offs) ∨ offs = [] ∧ lastOff offs = 0 := by
  unfold lastOff
  cases offs with
  | nil => exact Or.inr ⟨rfl, rfl⟩
  | cons a as => left; cases h : (a :: as).getLast? with
    | none => simp at h
    | some x => simp

/-- A received column is stored as received; it has the announced number of rows if the server was honest. -/
theorem received : ∀ (p : Plan) (n : Nat) (bs r : Bytes) (c : Col), p.load n bs = .ok c r → Honest c n → Native c ∧ c.len = .ok n := by
  intro p
  induction p with
  | num t =>
    intro n bs r c h _
    obtain ⟨xs, r1, h1, h⟩ := bind_eq_ok h
    injection h with h
    subst h
    exact ⟨trivial, by rw [Col.len, loadNums_inv h1]⟩
  | string =>
    intro n bs r c h _
    obtain ⟨_, _, _, h⟩ := bind_eq_ok h
    obtain ⟨xs, r1, h1, h⟩ := bind_eq_ok h
    injection h with h
    subst h
    exact ⟨trivial, by rw [Col.len, (readMany_inv h1).1]⟩
  | fixed w =>
    intro n bs r c h hh
    obtain ⟨_, _, _, h⟩ := bind_eq_ok h
    obtain ⟨xs, r1, h1, h⟩ := bind_eq_ok h
    injection h with h
    subst h
    obtain ⟨g1, g2⟩ := readMany_inv h1
    have hw : 0 < w := hh
    refine ⟨trivial, ?_⟩
    rw [Col.len, if_neg (by omega), flatten_len (w := w) xs (fun x hx => by obtain ⟨b, b', hb⟩ := g2 x hx; exact (readN_inv hb).2), g1,
      Nat.mul_div_cancel _ hw]
  | date tz =>
    intro n bs r c h _
    obtain ⟨xs, r1, h1, h⟩ := bind_eq_ok h
    injection h with h
    subst h
    exact ⟨trivial, by rw [Col.len, loadNums_inv h1]⟩
  | datetime tz =>
    intro n bs r c h _
    obtain ⟨xs, r1, h1, h⟩ := bind_eq_ok h
    injection h with h
    subst h
    exact ⟨trivial, by rw [Col.len, loadNums_inv h1]⟩
  | dt64 p tz =>
    intro n bs r c h _
    obtain ⟨xs, r1, h1, h⟩ := bind_eq_ok h
    injection h with h
    subst h
    exact ⟨trivial, by rw [Col.len, loadNums_inv h1]⟩
  | ip k =>
    intro n bs r c h _
    obtain ⟨_, _, _, h⟩ := bind_eq_ok h
    obtain ⟨xs, r1, h1, h⟩ := bind_eq_ok h
    injection h with h
    subst h
    have hl := (readN_inv h1).2
    refine ⟨by simp [Native, hl], ?_⟩
    rw [Col.len, hl, Nat.mul_div_cancel _ (size_pos k)]
  | nullable p ih =>
    intro n bs r c h hh
    obtain ⟨_, _, _, h⟩ := bind_eq_ok h
    obtain ⟨nulls, r1, h1, h⟩ := bind_eq_ok h
    obtain ⟨d, r2, h2, h⟩ := bind_eq_ok h
    injection h with h
    subst h
    obtain ⟨g1, g2⟩ := ih n _ _ d h2 hh.2
    have hl := (readN_inv h1).2
    refine ⟨⟨hh.1, by rw [hl]; exact g2, g1⟩, ?_⟩
    rw [Col.len, g2, obind_ok, if_pos hl]
    rfl
  | array p ih =>
    intro n bs r c h hh
    obtain ⟨offs, r1, h1, h⟩ := bind_eq_ok h
    obtain ⟨d, r2, h2, h⟩ := bind_eq_ok h
    injection h with h
    subst h
    exact ⟨(ih _ _ _ d h2 (hh _ (lastOff_spec offs))).1, by rw [Col.len, loadNums_inv h1]⟩
  | map k v ihk ihv =>
    intro n bs r c h hh
    obtain ⟨offs, r1, h1, h⟩ := bind_eq_ok h
    obtain ⟨kc, r2, h2, h⟩ := bind_eq_ok h
    obtain ⟨vc, r3, h3, h⟩ := bind_eq_ok h
    injection h with h
    subst h
    obtain ⟨hk, hv⟩ := hh _ (lastOff_spec offs)
    exact ⟨⟨(ihk _ _ _ kc h2 hk).1, (ihv _ _ _ vc h3 hv).1⟩, by rw [Col.len, loadNums_inv h1]⟩
  | decimal p s nb =>
    intro n bs r c h _
    obtain ⟨xs, r1, h1, h⟩ := bind_eq_ok h
    injection h with h
    subst h
    exact ⟨trivial, by rw [Col.len, loadNums_inv h1]⟩
  | enum w items =>
    intro n bs r c h _
    obtain ⟨xs, r1, h1, h⟩ := bind_eq_ok h
    injection h with h
    subst h
    exact ⟨trivial, by rw [Col.len, loadNums_inv h1]⟩
  | simpleAgg f p ih =>
    intro n bs r c h hh
    obtain ⟨d, r1, h1, h⟩ := bind_eq_ok h
    injection h with h
    subst h
    exact ih n _ _ d h1 hh
  | lowCard p ih =>
    intro n bs r c h hh
    unfold Plan.load at h
    by_cases h0 : n = 0
    · rw [if_pos h0] at h
      obtain ⟨d, r1, h1, h⟩ := bind_eq_ok h
      obtain ⟨ix, r2, h2, h⟩ := bind_eq_ok h
      injection h with h
      subst h
      exact ⟨(ih _ _ _ d h1 (hh.2 0)).1, by rw [Col.len, loadNums_inv h2, h0]⟩
    · rw [if_neg h0] at h
      obtain ⟨version, r1, _, h⟩ := bind_eq_ok h
      by_cases hv : version ≠ 1
      · rw [if_pos hv] at h
        cases h
      rw [if_neg hv] at h
      obtain ⟨flags, r2, _, h⟩ := bind_eq_ok h
      cases hf : IdxTy.fromFlags flags with
      | none => simp only [hf] at h; cases h
      | some ity =>
        simp only [hf] at h
        by_cases ha : flags / 2 ^ 8 % 2 ≠ 0
        · rw [if_pos ha] at h; cases h
        rw [if_neg ha] at h
        by_cases hb : flags / 2 ^ 9 % 2 = 0
        · rw [if_pos hb] at h; cases h
        rw [if_neg hb] at h
        obtain ⟨m, r3, _, h⟩ := bind_eq_ok h
        obtain ⟨d, r4, hd, h⟩ := bind_eq_ok h
        obtain ⟨rows, r5, _, h⟩ := bind_eq_ok h
        obtain ⟨ix, r6, hix, h⟩ := bind_eq_ok h
        by_cases hfl : flags = lcFlags ity
        · rw [if_pos hfl] at h
          injection h with h
          subst h
          exact ⟨(ih _ _ _ d hd (hh.2 m)).1, by rw [Col.len, hh.1]⟩
        · rw [if_neg hfl] at h; cases h
  | bad e => intro n bs r c h _; cases h
  | crash => intro n bs r c h _; cases h

end CH
