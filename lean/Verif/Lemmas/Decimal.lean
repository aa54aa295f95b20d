import Verif.Spec.Decimal
import Verif.Lemmas.Text

/-! Helper lemmas about decimals. -/

namespace CH
open Spec

theorem out_bind_ok {α β : Type} {x : Out α} {f : α → Out β} {b : β} : x >>= f = .ok b ↔ ∃ a, x = .ok a ∧ f a = .ok b := by
  cases x with
  | ok a => constructor
            · intro h; exact ⟨a, rfl, h⟩
            · rintro ⟨a', h, h'⟩; cases h; exact h'
  | err e => constructor
             · intro h; cases h
             · rintro ⟨_, h, _⟩; cases h
  | panic => constructor
             · intro h; cases h
             · rintro ⟨_, h, _⟩; cases h

/-- The last step of `decimal2str`: a leading `0` before a leading point. -/
def leadZero (r : Str) : Str :=
  match r with
  | '.' :: _ => '0' :: r
  | _ => r

theorem toStr_eq (d : Decimal) : d.toStr = leadZero ((padZeros (intChars d.underlying) d.scale).take
    ((padZeros (intChars d.underlying) d.scale).length - d.scale) ++
    '.' :: (padZeros (intChars d.underlying) d.scale).drop ((padZeros (intChars d.underlying) d.scale).length - d.scale)) := rfl

theorem leadZero_of_ne {c : Char} {t : Str} (h : c ≠ '.') : leadZero (c :: t) = c :: t := by
  unfold leadZero; split
  · rename_i h'; injection h' with h'; exact absurd h' h
  · rfl

theorem lowDigits_succ (n v : Nat) : lowDigits (n + 1) v = lowDigits n (v / 10) ++ [Nat.digitChar (v % 10)] := by
  simp only [lowDigits, List.range_succ, List.map_append, List.map_cons, List.map_nil]
  congr 1
  · apply List.map_congr_left
    intro i hi
    have hi : i < n := by simpa using hi
    have e : n + 1 - 1 - i = (n - 1 - i) + 1 := by omega
    rw [e, Nat.pow_succ', Nat.div_div_eq_div_mul]
  · simp

theorem lowDigits_length (n v : Nat) : (lowDigits n v).length = n := by simp [lowDigits]

theorem digitChar_eq {n : Nat} (h : n < 10) : digitChar n = Nat.digitChar n := by
  have hc : ∀ n : Fin 10, digitChar n.val = Nat.digitChar n.val := by decide
  exact hc ⟨n, h⟩

/-- Enough digits: the whole part followed by the low digits. -/
theorem natChars_split (n : Nat) : ∀ v, 10 ^ n ≤ v → natChars v = natChars (v / 10 ^ n) ++ lowDigits n v := by
  induction n with
  | zero => intro v _; simp [lowDigits]
  | succ n ih =>
    intro v h
    have hp : 0 < 10 ^ n := Nat.pow_pos (by omega)
    have h10 : 10 ^ n * 10 ≤ v := by rw [Nat.pow_succ] at h; exact h
    have hv : ¬ v < 10 := by omega
    have hd : 10 ^ n ≤ v / 10 := (Nat.le_div_iff_mul_le (by omega)).mpr h10
    rw [natChars_ge hv, ih _ hd, lowDigits_succ, digitChar_eq (Nat.mod_lt _ (by omega)), Nat.div_div_eq_div_mul,
      ← Nat.pow_succ', List.append_assoc]

/-- Too few digits: padding with zeros gives exactly the low digits. -/
theorem padZeros_natChars (n : Nat) : ∀ v, v < 10 ^ (n + 1) → padZeros (natChars v) (n + 1) = lowDigits (n + 1) v := by
  induction n with
  | zero =>
    intro v h
    have h : v < 10 := by simpa using h
    rw [lowDigits_succ, natChars_lt h, digitChar_eq h]
    simp [padZeros, lowDigits, Nat.mod_eq_of_lt h]
  | succ n ih =>
    intro v h
    rw [lowDigits_succ]
    by_cases h10 : v < 10
    · have z : v / 10 = 0 := Nat.div_eq_of_lt h10
      rw [z, ← ih 0 (Nat.pow_pos (by omega)), natChars_lt h10, natChars_lt (by omega), digitChar_eq h10, Nat.mod_eq_of_lt h10]
      have e : ∀ k, List.replicate k '0' ++ ['0'] = List.replicate (k + 1) '0' := by
        intro k; rw [List.replicate_succ']
      simp only [padZeros, List.length_singleton]
      have : digitChar 0 = '0' := by decide
      rw [this, e]
      congr 1
    · have hd : v / 10 < 10 ^ (n + 1) := by
        apply Nat.div_lt_of_lt_mul; rw [Nat.pow_succ'] at h; exact h
      rw [← ih _ hd, natChars_ge h10, digitChar_eq (Nat.mod_lt _ (by omega))]
      simp only [padZeros, List.length_append, List.length_singleton]
      rw [show n + 1 + 1 - ((natChars (v / 10)).length + 1) = n + 1 - (natChars (v / 10)).length by omega, List.append_assoc]

theorem padZeros_of_le {r : Str} {n : Nat} (h : n ≤ r.length) : padZeros r n = r := by
  simp [padZeros, Nat.sub_eq_zero_of_le h]

end CH
