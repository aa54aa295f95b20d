import Verif.Lemmas.Reader
import Verif.Spec.Wire

namespace CH
open Spec

theorem or_shift (x s d : Nat) (h : x < 2 ^ s) : x ||| d <<< s = x + d * 2 ^ s := by
  rw [Nat.or_comm, ← Nat.shiftLeft_add_eq_or_of_lt h, Nat.shiftLeft_eq, Nat.add_comm]

theorem and_7f (n : Nat) : n &&& 0x7f = n % 128 := by
  have := Nat.and_two_pow_sub_one_eq_mod n 7
  simpa using this

theorem digit_small {s i d : Nat} (hs : s = 7 * i) (hi : i ≤ 8) (hd : d < 128) : (d <<< s) % 2 ^ 64 = d <<< s := by
  apply Nat.mod_eq_of_lt
  rw [Nat.shiftLeft_eq]
  have h1 : 2 ^ s ≤ 2 ^ 56 := Nat.pow_le_pow_right (by omega) (by omega)
  have h2 : d * 2 ^ s ≤ 127 * 2 ^ 56 := Nat.mul_le_mul (by omega) h1
  have : 127 * 2 ^ 56 < 2 ^ 64 := by decide
  omega

theorem step_bound {x s i d : Nat} (hs : s = 7 * i) (hx : x < 2 ^ s) (hd : d < 128) :
    x + d * 2 ^ s < 2 ^ (7 * (i + 1)) := by
  have : 2 ^ (7 * (i + 1)) = 128 * 2 ^ s := by
    rw [hs, Nat.mul_add, Nat.pow_add]; simp [Nat.mul_comm]
  rw [this]
  calc x + d * 2 ^ s < 2 ^ s + d * 2 ^ s := by omega
    _ = (d + 1) * 2 ^ s := by rw [Nat.add_mul]; omega
    _ ≤ 128 * 2 ^ s := Nat.mul_le_mul_right _ (by omega)

theorem base128_append (c : Bytes) (l : UInt8) :
    base128 (c ++ [l]) = base128 c + (l.toNat % 128) * 128 ^ c.length := by
  induction c with
  | nil => simp [base128]
  | cons b c ih => simp only [List.cons_append, base128, ih, List.length_cons, Nat.pow_succ]; grind

theorem pow128 (n : Nat) : 128 ^ n = 2 ^ (7 * n) := by
  rw [Nat.pow_mul]

theorem uvarint_beyond (x s i : Nat) (c : Bytes) (hc : ∀ b ∈ c, isCont b) (hs : s = 7 * i) (hi : 10 ≤ i)
    (hne : c ≠ []) (rest : Bytes) : readUvarintLoop x s i (c ++ rest) = .panic := by
  cases c with
  | nil => contradiction
  | cons b c =>
    have hb : 128 ≤ b.toNat := hc b (by simp)
    simp only [List.cons_append, readUvarintLoop]
    rw [if_neg (by omega), if_pos (by omega)]

/-- What the loop does on `c` continuation bytes followed by a final byte. -/
theorem uvarintLoop_spec (c : Bytes) (l : UInt8) (rest : Bytes) (hc : ∀ b ∈ c, isCont b) (hl : l.toNat < 128) :
    ∀ x s i, s = 7 * i → x < 2 ^ s → i ≤ 10 →
    readUvarintLoop x s i (c ++ l :: rest) =
      if c.length + i ≥ 11 then .panic
      else if c.length + i = 10 ∨ x + base128 (c ++ [l]) * 2 ^ s ≥ 2 ^ 64 then .err .overflow rest
      else .ok (x + base128 (c ++ [l]) * 2 ^ s) rest := by
  induction c with
  | nil =>
    intro x s i hs hx hi
    simp only [List.nil_append, readUvarintLoop, if_pos hl, List.length_nil, Nat.zero_add, base128,
      Nat.mul_zero, Nat.add_zero, Nat.mod_eq_of_lt hl]
    rw [if_neg (show ¬ (i ≥ 11) by omega)]
    by_cases h10 : i = 10
    · simp [h10]
    by_cases h9 : i = 9
    · subst h9; subst hs
      by_cases hl1 : l.toNat > 1
      · rw [if_pos (by omega), if_pos]
        right
        have : 2 * 2 ^ 63 ≤ l.toNat * 2 ^ 63 := Nat.mul_le_mul_right _ hl1
        omega
      · have h01 : l.toNat = 0 ∨ l.toNat = 1 := by omega
        have hx' : x < 2 ^ 63 := hx
        rw [if_neg (by omega), if_neg (by rcases h01 with h | h <;> rw [h] <;> omega)]
        have : (l.toNat <<< (7 * 9)) % 2 ^ 64 = l.toNat <<< (7 * 9) := by
          apply Nat.mod_eq_of_lt; rcases h01 with h | h <;> rw [h] <;> decide
        rw [this, or_shift _ _ _ hx]
    · have hi8 : i ≤ 8 := by omega
      rw [if_neg (by omega), digit_small hs hi8 hl, or_shift _ _ _ hx, if_neg]
      rintro (h | h)
      · exact h10 h
      · have h1 := step_bound hs hx hl
        have h2 : 2 ^ (7 * (i + 1)) ≤ 2 ^ 63 := Nat.pow_le_pow_right (by omega) (by omega)
        have : (2:Nat) ^ 63 < 2 ^ 64 := by decide
        omega
  | cons b c ih =>
    intro x s i hs hx hi
    have hb : 128 ≤ b.toNat := hc b (by simp)
    have hc' : ∀ b ∈ c, isCont b := fun d hd => hc d (by simp [hd])
    by_cases h10 : i = 10
    · rw [if_pos (by simp; omega)]
      have := uvarint_beyond x s i (b :: c) hc hs (by omega) (by simp) (l :: rest)
      simpa using this
    simp only [List.cons_append, readUvarintLoop]
    rw [if_neg (by omega), if_neg (by omega)]
    simp only [and_7f, List.length_cons]
    have hd : b.toNat % 128 < 128 := Nat.mod_lt _ (by omega)
    by_cases h9 : i = 9
    · -- the tenth byte is a continuation byte: whatever was accumulated, the result is overflow or panic
      subst h9; subst hs
      cases c with
      | nil => simp [readUvarintLoop, hl]
      | cons d c =>
        rw [if_pos (by simp)]
        have := uvarint_beyond (x ||| (((b.toNat % 128) <<< (7 * 9)) % 2 ^ 64)) (7 * 9 + 7) (9 + 1) (d :: c) hc' (by omega) (by omega) (by simp) (l :: rest)
        simpa using this
    · rw [digit_small hs (by omega) hd, or_shift _ _ _ hx]
      rw [ih hc' _ _ (i + 1) (by omega) (by have := step_bound hs hx hd; rw [Nat.mul_add, ← hs] at this; exact this) (by omega)]
      have e : x + b.toNat % 128 * 2 ^ s + base128 (c ++ [l]) * 2 ^ (s + 7)
          = x + base128 (b :: (c ++ [l])) * 2 ^ s := by
        simp only [base128, Nat.pow_add]; grind
      rw [e]
      have e1 : c.length + (i + 1) = c.length + 1 + i := by omega
      rw [e1]

theorem uvarintLoop_cont (c : Bytes) (hc : ∀ b ∈ c, isCont b) :
    ∀ x s i, s = 7 * i → i ≤ 10 →
    readUvarintLoop x s i c = if c.length + i ≥ 11 then .panic else .more := by
  induction c with
  | nil => intro x s i hs hi; simp only [readUvarintLoop, List.length_nil]; rw [if_neg (by omega)]
  | cons b c ih =>
    intro x s i hs hi
    have hb : 128 ≤ b.toNat := hc b (by simp)
    simp only [readUvarintLoop, List.length_cons]
    rw [if_neg (by omega)]
    by_cases h10 : i = 10
    · rw [if_pos (by omega), if_pos (by omega)]
    · rw [if_neg (by omega), ih (fun d hd => hc d (by simp [hd])) _ _ (i + 1) (by omega) (by omega)]
      have e1 : c.length + (i + 1) = c.length + 1 + i := by omega
      rw [e1]

/-- The encoder produces continuation bytes and a final byte denoting the value. -/
theorem putUvarint_shape (v : Nat) : ∃ c l, putUvarint v = c ++ [l] ∧ (∀ b ∈ c, isCont b) ∧ l.toNat < 128 ∧
    base128 (c ++ [l]) = v ∧ (c ≠ [] → 128 ^ c.length ≤ v) := by
  induction v using Nat.strongRecOn with
  | _ v ih =>
    rw [putUvarint]
    by_cases h : v ≥ 0x80
    · rw [if_pos h]
      obtain ⟨c, l, h1, h2, h3, h4, h5⟩ := ih (v >>> 7) (by rw [Nat.shiftRight_eq_div_pow]; omega)
      have hb : (UInt8.ofNat v ||| 0x80).toNat % 128 = v % 128 := by
        have : (UInt8.ofNat v ||| 0x80).toNat = v % 256 ||| 0x80 := by simp
        rw [this]
        have h0 : (v % 256 ||| 0x80) % 2^7 = (v % 256) % 2^7 ||| (0x80 % 2^7) := Nat.or_mod_two_pow ..
        simp at h0; omega
      have hb2 : 128 ≤ (UInt8.ofNat v ||| 0x80).toNat := by
        have : (UInt8.ofNat v ||| 0x80).toNat = v % 256 ||| 0x80 := by simp
        rw [this]; exact Nat.right_le_or
      refine ⟨(UInt8.ofNat v ||| 0x80) :: c, l, by simp [h1], ?_, h3, ?_, ?_⟩
      · intro b hb'; rcases List.mem_cons.mp hb' with rfl | h'
        · exact hb2
        · exact h2 b h'
      · simp only [List.cons_append, base128, h4, hb, Nat.shiftRight_eq_div_pow]; omega
      · intro _
        rw [List.length_cons, Nat.pow_succ]
        by_cases hc : c = []
        · subst hc; simp; omega
        · have := h5 hc; rw [Nat.shiftRight_eq_div_pow] at this; omega
    · rw [if_neg h]
      have hv : (UInt8.ofNat v).toNat = v := by simp; omega
      exact ⟨[], UInt8.ofNat v, rfl, by simp, by rw [hv]; omega, by simp [base128]; omega, by simp⟩

theorem putUvarint_length {v : Nat} (hv : v < 2 ^ 64) : 1 ≤ (putUvarint v).length ∧ (putUvarint v).length ≤ 10 := by
  obtain ⟨c, l, h1, _, _, _, h5⟩ := putUvarint_shape v
  rw [h1]; simp
  by_cases hc : c = []
  · simp [hc]
  · have := h5 hc
    rw [pow128] at this
    have : 2 ^ (7 * c.length) < 2 ^ 64 := by omega
    have := (Nat.pow_lt_pow_iff_right (by omega : 1 < 2)).mp this
    omega

theorem readUvarint_put {v : Nat} (hv : v < 2 ^ 64) (rest : Bytes) :
    readUvarint (putUvarint v ++ rest) = .ok v rest := by
  have hlen := putUvarint_length hv
  obtain ⟨c, l, h1, h2, h3, h4, h5⟩ := putUvarint_shape v
  rw [h1] at hlen ⊢
  simp at hlen
  have := uvarintLoop_spec c l rest h2 h3 0 0 0 rfl (by simp) (by omega)
  simp only [h4, Nat.add_zero, Nat.zero_add, Nat.pow_zero, Nat.mul_one] at this
  rw [readUvarint, List.append_assoc, List.singleton_append, this, if_neg (by omega), if_neg (by omega)]

theorem putUvarint_ne_nil (v : Nat) : putUvarint v ≠ [] := by
  rw [putUvarint]; split <;> simp

/-! Strings. -/

theorem strOfBytes_strBytes (s : String) : strOfBytes? (strBytes s) = some s := by
  have : (⟨(strBytes s).toArray⟩ : ByteArray) = s.toByteArray := by simp [strBytes]
  rw [strOfBytes?, this, String.fromUTF8?, dif_pos s.isValidUTF8]
  rfl

theorem strOfBytes_some {b : Bytes} {s : String} (h : strOfBytes? b = some s) : strBytes s = b := by
  rw [strOfBytes?, String.fromUTF8?] at h
  split at h
  · simp at h; subst h; simp [strBytes, String.fromUTF8]
  · simp at h

theorem strBytes_injective {a b : String} (h : strBytes a = strBytes b) : a = b := by
  have := strOfBytes_strBytes a
  rw [h, strOfBytes_strBytes] at this
  simpa using this.symm

theorem readBytesLP_put (k : Nat) (b rest : Bytes) (hk : k < 2 ^ 63) (hb : b.length < 2 ^ 63) :
    readBytesLP k (putBytes b ++ rest) = .ok b rest := by
  rw [readBytesLP, putBytes, List.append_assoc, bind_ok (readUvarint_put (by omega) _), bind_ok (alloc_ok (by omega) _), readN_append]

theorem readString_put (s : String) (rest : Bytes) (hs : (strBytes s).length < 2 ^ 63) :
    readString (putString s ++ rest) = .ok s rest := by
  rw [readString, putString, putBytes, List.append_assoc, bind_ok (readUvarint_put (by omega) _), bind_ok (alloc_ok hs _),
    bind_ok (readN_append _ _), strOfBytes_strBytes]
  rfl

theorem skipString_put (b rest : Bytes) (hb : b.length < 2 ^ 63) :
    skipString (putBytes b ++ rest) = .ok () rest := by
  rw [skipString, putBytes, List.append_assoc, bind_ok (readUvarint_put (by omega) _)]
  split
  · rw [bind_ok (readN_append _ _)]; rfl
  · rw [bind_ok (alloc_ok hb _), bind_ok (readN_append _ _)]; rfl

/-! Fixed-width numbers. -/

@[simp] theorem putLE_length (w v : Nat) : (putLE w v).length = w := by
  induction w generalizing v with
  | zero => rfl
  | succ w ih => simp [putLE, ih]

theorem getLE_putLE (w v : Nat) : getLE (putLE w v) = v % 256 ^ w := by
  induction w generalizing v with
  | zero => simp [putLE, getLE, Nat.mod_one]
  | succ w ih =>
    simp only [putLE, getLE, ih, Nat.pow_succ]
    have : (UInt8.ofNat v).toNat = v % 256 := by simp
    rw [this, Nat.mul_comm (256 ^ w) 256, Nat.mod_mul]

theorem getLE_putLE_lt {w v : Nat} (h : v < 256 ^ w) : getLE (putLE w v) = v := by
  rw [getLE_putLE, Nat.mod_eq_of_lt h]

theorem getLE_lt (b : Bytes) : getLE b < 256 ^ b.length := by
  induction b with
  | nil => simp [getLE]
  | cons x b ih =>
    have := x.toNat_lt
    simp only [getLE, List.length_cons, Nat.pow_succ]; omega

theorem putLE_getLE (b : Bytes) : putLE b.length (getLE b) = b := by
  induction b with
  | nil => rfl
  | cons x b ih =>
    simp only [List.length_cons, putLE, getLE]
    have hx := x.toNat_lt
    have h1 : (x.toNat + 256 * getLE b) / 256 = getLE b := by omega
    have h2 : UInt8.ofNat (x.toNat + 256 * getLE b) = x := by
      apply UInt8.toNat_inj.mp; simp
    rw [h1, ih, h2]

theorem getLE_eq_base256 (b : Bytes) : getLE b = base256 b := by
  induction b with
  | nil => rfl
  | cons x b ih => simp [getLE, ih, base256]

theorem readLE_put {w v : Nat} (h : v < 256 ^ w) (rest : Bytes) :
    readLE w (putLE w v ++ rest) = .ok v rest := by
  rw [readLE, bind_ok (readN_append' _ _ (putLE_length w v)), getLE_putLE_lt h]; rfl

theorem readBool_put (b : Bool) (rest : Bytes) : readBool (putBool b ++ rest) = .ok b rest := by
  rw [readBool, bind_ok (readN_append' (n := 1) (putBool b) rest rfl)]
  cases b <;> rfl

theorem pow256 (w : Nat) : 256 ^ w = 2 ^ (8 * w) := by rw [Nat.pow_mul]

theorem ofSigned_lt (w : Nat) (v : Int) : ofSigned w v < 256 ^ w := by
  rw [ofSigned, pow256]
  have h : (0:Int) < (2 ^ (8 * w) : Nat) := by exact_mod_cast Nat.pow_pos (by omega)
  have := Int.emod_lt_of_pos v h
  have := Int.emod_nonneg v (Int.ne_of_gt h)
  omega

theorem toSigned_ofSigned {w : Nat} {v : Int} (hw : 0 < w)
    (h1 : -(2 ^ (8 * w - 1) : Nat) ≤ v) (h2 : v < (2 ^ (8 * w - 1) : Nat)) :
    toSigned w (ofSigned w v) = v := by
  have e : 2 ^ (8 * w) = 2 * 2 ^ (8 * w - 1) := by
    rw [← Nat.pow_succ']; congr 1; omega
  rw [toSigned, ofSigned, e]
  generalize 2 ^ (8 * w - 1) = m at *
  by_cases hv : 0 ≤ v
  · have : v % ((2 * m : Nat) : Int) = v := Int.emod_eq_of_lt hv (by omega)
    rw [this]; rw [if_pos (by omega)]; omega
  · have : v % ((2 * m : Nat) : Int) = v + (2 * m : Nat) := by
      rw [← Int.add_emod_right]; exact Int.emod_eq_of_lt (by omega) (by omega)
    rw [this, if_neg (by omega)]; omega

theorem ofSigned_toSigned {w n : Nat} (h : n < 256 ^ w) : ofSigned w (toSigned w n) = n := by
  rw [pow256] at h
  rw [toSigned, ofSigned]
  generalize 2 ^ (8 * w) = m at *
  split
  · rw [Int.emod_eq_of_lt (by omega) (by omega)]; omega
  · rw [Int.sub_emod_right, Int.emod_eq_of_lt (by omega) (by omega)]; omega

end CH
