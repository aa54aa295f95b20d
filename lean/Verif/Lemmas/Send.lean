import Verif.Lemmas.LowCard

/-! Sound columns can be sent whole. -/

namespace CH
open Spec

theorem sound_savable {tz : Tz} {c : Col} {n : Nat} (hs : Sound c n) (h : Sendable tz c) : Savable tz c 0 n := by
  induction c generalizing n with
  | num t xs => exact ⟨by omega, by rw [hs.1]; omega, hs.2⟩
  | str xs => exact ⟨by omega, by rw [show xs.length = n from hs]; omega, h⟩
  | fixed k buf => exact ⟨hs.1, by omega, by rw [hs.2]; omega⟩
  | date z xs => exact ⟨by omega, by rw [hs.1]; omega, hs.2⟩
  | datetime z xs => exact ⟨h, by omega, by rw [hs.1]; omega, hs.2⟩
  | ip k buf => exact ⟨by omega, by rw [show buf.length = n * k.size from hs]; omega⟩
  | nullable nulls c ih => exact ⟨by rw [hs.1]; omega, ih hs.2.2 h⟩
  | array offs c ih =>
    obtain ⟨h1, h2, h3⟩ := hs
    subst h1
    exact ⟨by omega, by omega, h.1, h2, elemsBefore_zero _, by rw [lastOff_eq]; exact ih h3 h.2⟩
  | map offs k v ihk ihv =>
    obtain ⟨h1, h2, h3, h4⟩ := hs
    subst h1
    exact ⟨by omega, by omega, h.1, h2, elemsBefore_zero _, by rw [lastOff_eq]; exact ihk h3 h.2.1,
      by rw [lastOff_eq]; exact ihv h4 h.2.2⟩
  | decimal p s nb xs => exact ⟨hs.1, by omega, by rw [hs.2.1]; omega, hs.2.2⟩
  | enum w items xs => exact ⟨by omega, by rw [hs.1]; omega, hs.2⟩
  | simpleAgg f c ih => exact ih hs h
  | lowCard ity index d vm ih =>
    obtain ⟨h1, h2, hd, m, h3, h4, h5, h6⟩ := hs
    obtain ⟨h7, h8⟩ := h
    refine ⟨by omega, by omega, by omega, m, h3.len, by omega, ?_, ih h3 h8⟩
    intro x hx
    have := h5 x hx
    refine ⟨this, ?_⟩
    rw [pow256]
    unfold IdxTy.maxLen at h2
    have : 0 < 2 ^ (8 * ity.width) := Nat.pow_pos (by decide)
    have hne : index ≠ [] := by intro h0; simp [h0] at hx
    have : 0 < index.length := List.length_pos_iff.mpr hne
    omega
  | dt64 p z xs => exact False.elim h
  | chrono z xs => exact False.elim h
  | _ => exact False.elim hs

end CH
