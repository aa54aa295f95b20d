import Verif.Model.Narrow
import Verif.Lemmas.Column
import Verif.Lemmas.Received
import Verif.Props.Wire

/-!
# C105: lengths that do not fit the words of a machine
-/

namespace CH.Props

open CH CH.Spec

theorem allocOn_wide (n : Nat) : allocOn 64 n = alloc n := by
  funext x
  by_cases h : n < 2 ^ (64 - 1)
  · rw [allocOn, alloc, if_pos h, if_pos (by simp only [isizeMax]; omega)]
  · rw [allocOn, alloc, if_neg h, if_neg (by simp only [isizeMax]; omega)]

theorem splitLE_lt (w : Nat) : ∀ (n : Nat) (b : Bytes), ∀ x ∈ splitLE w n b, x < 256 ^ w
  | 0, _, x, h => by simp [splitLE] at h
  | n + 1, b, x, h => by
    rw [splitLE, List.mem_cons] at h
    rcases h with rfl | h
    · exact Nat.lt_of_lt_of_le (getLE_lt _) (Nat.pow_le_pow_right (by omega) (by simp; omega))
    · exact splitLE_lt w n _ x h

theorem lastOff_lt (n : Nat) (b : Bytes) : lastOff (splitLE 8 n b) < 2 ^ 64 := by
  rcases lastOff_spec (splitLE 8 n b) with h | ⟨_, h⟩
  · have := splitLE_lt 8 n b _ (List.mem_of_getLast? h)
    omega
  · omega

/-- C105, what holds: lengths that the machine can allocate are taken as they are, by machines of up to 64 bits. -/
theorem C105_string_partial (bits : Nat) (hb : bits ≤ 64) (bs : Bytes) (h : ∀ n r, readUvarint bs = .ok n r → n < 2 ^ (bits - 1)) :
    readStringOn bits bs = readString bs := by
  unfold readStringOn readString
  cases hu : readUvarint bs with
  | ok n r =>
    have hn := h n r hu
    have hle : 2 ^ (bits - 1) ≤ 2 ^ 63 := Nat.pow_le_pow_right (by omega) (by omega)
    have hm : asUsize bits n = n := Nat.mod_eq_of_lt (Nat.lt_of_lt_of_le hn (Nat.pow_le_pow_right (by omega) (by omega)))
    rw [bind_ok hu, bind_ok hu, hm, bind_ok (show allocOn bits n r = .ok () r from if_pos hn),
      bind_ok (show alloc n r = .ok () r from if_pos (by simp only [isizeMax]; omega))]
    rfl
  | more => rw [bind_more hu, bind_more hu]
  | err e r => rw [bind_err hu, bind_err hu]
  | panic => rw [bind_panic hu, bind_panic hu]

example : readUvarint [2, 104, 105, 9] = .ok 2 [104, 105, 9] ∧ readStringOn 32 [2, 104, 105, 9] = readString [2, 104, 105, 9] := by
  have h : readUvarint [2, 104, 105, 9] = .ok 2 [104, 105, 9] := by simp [readUvarint, readUvarintLoop]
  refine ⟨h, C105_string_partial 32 (by decide) _ fun n r hn => ?_⟩
  rw [h] at hn
  cases hn
  decide

/-- C105: with words of 64 bits the reader is that of the other models, for all bytes. -/
theorem C105_wide (bs : Bytes) : readStringOn 64 bs = readString bs := by
  unfold readStringOn readString
  cases hu : readUvarint bs with
  | ok n r =>
    obtain ⟨_, _, _, _, _, _, hn⟩ := C02_uvarint_sound bs r n hu
    have hm : asUsize 64 n = n := Nat.mod_eq_of_lt hn
    rw [bind_ok hu, bind_ok hu, hm, allocOn_wide]
    rfl
  | more => rw [bind_more hu, bind_more hu]
  | err e r => rw [bind_err hu, bind_err hu]
  | panic => rw [bind_panic hu, bind_panic hu]

example : readStringOn 64 (putUvarint (2 ^ 32 + 1) ++ [97, 98]) = .more := by
  rw [readStringOn, bind_ok (readUvarint_put (by decide) _)]
  decide +kernel

/-- C105: what is read has the announced length exactly if that fits; otherwise it has what is left of the length. -/
theorem C105_length (bits : Nat) (bs r r' : Bytes) (n : Nat) (s : String) (hu : readUvarint bs = .ok n r)
    (h : readStringOn bits bs = .ok s r') : s.utf8ByteSize = n % 2 ^ bits ∧ (s.utf8ByteSize = n ↔ n < 2 ^ bits) := by
  have key : s.utf8ByteSize = n % 2 ^ bits := by
    unfold readStringOn at h
    rw [bind_ok hu] at h
    obtain ⟨_, r1, h1, h⟩ := bind_eq_ok h
    obtain ⟨b, r2, h2, h⟩ := bind_eq_ok h
    have hb : b.length = n % 2 ^ bits := by
      simp only [readN] at h2
      split at h2
      · cases h2
        rw [List.length_take]
        simp only [asUsize] at *
        omega
      · cases h2
    cases hs : strOfBytes? b with
    | none => rw [hs] at h; cases h
    | some t =>
      rw [hs] at h
      cases h
      rw [← hb, ← strOfBytes_some hs]
      simp [strBytes]
  refine ⟨key, key ▸ ⟨fun e => ?_, fun h => Nat.mod_eq_of_lt h⟩⟩
  rw [← e]
  exact Nat.mod_lt _ (Nat.pow_pos (by omega))

/-- A length that fits and one that does not. -/
example : readUvarint [1, 97] = .ok 1 [97] ∧ readStringOn 32 [1, 97] = .ok "a" [] ∧ (1 : Nat) < 2 ^ 32 ∧
    readUvarint (putUvarint (2 ^ 32 + 1) ++ [97, 98]) = .ok (2 ^ 32 + 1) [97, 98] := by
  have h : readUvarint [1, 97] = .ok 1 [97] := by simp [readUvarint, readUvarintLoop]
  refine ⟨h, ?_, by decide, readUvarint_put (by decide) _⟩
  rw [readStringOn, bind_ok h]
  decide +kernel

/-- C105 fails where `usize` has 32 bits: of a text that is announced with 2³² + 1 bytes one is read, and the second is left to be taken
for what comes next. With 64 bits the rest is waited for. -/
theorem C105_string_violated : ∃ bs, readUvarint bs = .ok (2 ^ 32 + 1) [97, 98] ∧ readStringOn 32 bs = .ok "a" [98] ∧ readString bs = .more := by
  have hu : readUvarint (putUvarint (2 ^ 32 + 1) ++ [97, 98]) = .ok (2 ^ 32 + 1) [97, 98] := readUvarint_put (by decide) _
  refine ⟨putUvarint (2 ^ 32 + 1) ++ [97, 98], hu, ?_, ?_⟩
  · unfold readStringOn
    rw [bind_ok hu]
    decide +kernel
  · unfold readString
    rw [bind_ok hu]
    decide +kernel

/-- C105 fails for arrays, too: an array of 2³² + 1 numbers becomes an array of one, and what follows is taken for the next column. -/
theorem C105_array_violated : loadArrayOn 32 (Plan.num .u8).load 1 [1, 0, 0, 0, 1, 0, 0, 0, 7, 8] = .ok (.array [2 ^ 32 + 1] (.num .u8 [7])) [8] ∧
    loadArrayOn 64 (Plan.num .u8).load 1 [1, 0, 0, 0, 1, 0, 0, 0, 7, 8] = .more ∧
    (Plan.array (.num .u8)).load 1 [1, 0, 0, 0, 1, 0, 0, 0, 7, 8] = .more := ⟨rfl, rfl, rfl⟩

/-- C105: with words of 64 bits arrays are read as in the other models. -/
theorem C105_array_wide (p : Plan) (rows : Nat) (bs : Bytes) : loadArrayOn 64 p.load rows bs = (Plan.array p).load rows bs := by
  have hm : ∀ b, asUsize 64 (lastOff (splitLE 8 rows b)) = lastOff (splitLE 8 rows b) := fun b => Nat.mod_eq_of_lt (lastOff_lt rows b)
  unfold loadArrayOn
  rw [allocOn_wide]
  simp only [hm]
  rw [Plan.load]
  simp only [bind_run, loadNums]
  cases alloc (rows * 8) bs with
  | ok u r =>
    dsimp only
    cases readN (rows * 8) r with
    | ok b r' => rfl
    | more => rfl
    | err e r' => rfl
    | panic => rfl
  | more => rfl
  | err e r => rfl
  | panic => rfl

example : loadArrayOn 64 (Plan.num .u8).load 1 [2, 0, 0, 0, 0, 0, 0, 0, 7, 8] = .ok (.array [2] (.num .u8 [7, 8])) [] := rfl

/-- C105 for arrays, what holds: if the offsets can be allocated and the last one fits, the array is read as with 64 bits. -/
theorem C105_array_partial (bits : Nat) (hb : bits ≤ 64) (p : Plan) (rows : Nat) (bs : Bytes) (h8 : rows * 8 < 2 ^ (bits - 1))
    (h : ∀ b r, readN (rows * 8) bs = .ok b r → lastOff (splitLE 8 rows b) < 2 ^ bits) :
    loadArrayOn bits p.load rows bs = (Plan.array p).load rows bs := by
  have hle : 2 ^ (bits - 1) ≤ 2 ^ 63 := Nat.pow_le_pow_right (by omega) (by omega)
  rw [← C105_array_wide]
  unfold loadArrayOn
  rw [bind_ok (show allocOn bits (rows * 8) bs = .ok () bs from if_pos h8),
    bind_ok (show allocOn 64 (rows * 8) bs = .ok () bs from if_pos (by omega))]
  cases hr : readN (rows * 8) bs with
  | ok b r =>
    have e1 : asUsize bits (lastOff (splitLE 8 rows b)) = lastOff (splitLE 8 rows b) := Nat.mod_eq_of_lt (h b r hr)
    have e2 : asUsize 64 (lastOff (splitLE 8 rows b)) = lastOff (splitLE 8 rows b) := Nat.mod_eq_of_lt (lastOff_lt rows b)
    rw [bind_ok hr, bind_ok hr, e1, e2]
  | more => rw [bind_more hr, bind_more hr]
  | err e r => rw [bind_err hr, bind_err hr]
  | panic => rw [bind_panic hr, bind_panic hr]

example : readN (1 * 8) [2, 0, 0, 0, 0, 0, 0, 0, 7, 8] = .ok [2, 0, 0, 0, 0, 0, 0, 0] [7, 8] ∧ lastOff (splitLE 8 1 [2, 0, 0, 0, 0, 0, 0, 0]) < 2 ^ 32 ∧
    loadArrayOn 32 (Plan.num .u8).load 1 [2, 0, 0, 0, 0, 0, 0, 0, 7, 8] = .ok (.array [2] (.num .u8 [7, 8])) [] := ⟨rfl, by decide, rfl⟩

end CH.Props
