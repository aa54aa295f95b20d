import Verif.Spec.Server
import Verif.Props.Protocol

/-! Lemmas on the commands the client sends. -/

namespace CH
open Spec

theorem ite_append {c : Prop} [Decidable c] (a b : Bytes) : (if c then a else []) ++ b = if c then a ++ b else b := by
  split <;> rfl

theorem text_eq (v : SettingType) : v.text = match v with
      | .string v => v
      | .bool b => if b then "true" else "false"
      | .uint64 n => toString n
      | .float t => t := by
  cases v with
  | bool b => cases b <;> rfl
  | uint64 n =>
    simp only [SettingType.text, natChars_eq_toDigits]
    exact Nat.repr_eq_ofList_toDigits.symm
  | _ => rfl

theorem readBool_uvarint (b : Bool) (rest : Bytes) : readUvarint (putBool b ++ rest) = .ok (if b then 1 else 0) rest := by
  cases b <;> rfl

theorem readSettings_step (kind : String → SettingKind) (rev : Nat) (s : String × SettingValue) (h : SettingOK kind rev s)
    (acc : List RawSetting) (rest : Bytes) :
    (do let name ← readString
        if name = "" then Reader.pure (.inr acc)
        else if 54429 ≤ rev then do
          let flags ← readUvarint
          let v ← readString
          Reader.pure (.inl (acc ++ [.flagged name (flags % 2 == 1) v]))
        else
          match kind name with
          | .number => do
            let v ← readUvarint
            Reader.pure (.inl (acc ++ [.num name v]))
          | .text => do
            let v ← readString
            Reader.pure (.inl (acc ++ [.txt name v])) : Reader (List RawSetting ⊕ List RawSetting))
      ((if 54429 ≤ rev then putSettingText s else putSettingOld s) ++ rest) = .ok (.inl (acc ++ [seenSetting rev s])) rest := by
  obtain ⟨name, v, imp⟩ := s
  have hne := h.nonempty
  have hn := h.name
  have ht := h.text
  have hnum := h.num
  have hag := h.agrees
  simp only at hne hn ht hnum
  by_cases hr : 54429 ≤ rev
  · rw [if_pos hr, putSettingText]
    simp only [List.append_assoc]
    rw [bind_ok (readString_put _ _ hn), if_neg hne, if_pos hr, bind_ok (readBool_uvarint _ _), bind_ok (readString_put _ _ ht)]
    rw [seenSetting, if_pos hr, text_eq]
    cases imp <;> rfl
  · rw [if_neg hr, putSettingOld]
    simp only [List.append_assoc]
    rw [bind_ok (readString_put _ _ hn), if_neg hne, if_neg hr]
    simp only [settingAgrees, hr, false_or] at hag
    simp only [seenSetting, if_neg hr]
    revert hag
    cases hk : kind name <;> cases v <;> simp only [imp_false, not_true_eq_false, false_imp_iff, forall_const] <;>
      simp only [SettingType.text] at ht
    · rename_i b
      cases b
      · simp only [Bool.false_eq_true, if_false]; rw [bind_ok (readUvarint_put (by decide) _)]; rfl
      · simp only [if_true]; rw [bind_ok (readUvarint_put (by decide) _)]; rfl
    · rw [bind_ok (readUvarint_put (hnum _ rfl) _)]; rfl
    · rw [bind_ok (readString_put _ _ ht)]; rfl
    · rw [bind_ok (readString_put _ _ ht)]; rfl

theorem serializeSettings_cons (s : String × SettingValue) (ss : Settings) (rev : Nat) (rest : Bytes) :
    serializeSettings (s :: ss) (rev ≥ 54429) ++ rest =
      (if 54429 ≤ rev then putSettingText s else putSettingOld s) ++ (serializeSettings ss (rev ≥ 54429) ++ rest) := by
  simp only [serializeSettings, ge_iff_le, decide_eq_true_eq, List.flatMap_cons]
  split <;> simp

theorem putSetting_ne (s : String × SettingValue) (rev : Nat) : 0 < (if 54429 ≤ rev then putSettingText s else putSettingOld s).length := by
  have : 0 < (putString s.1).length := by
    rw [putString, putBytes, List.length_append]
    have := List.length_pos_iff.mpr (putUvarint_ne_nil (strBytes s.1).length)
    omega
  split
  · rw [putSettingText]; simp only [List.length_append]; omega
  · rw [putSettingOld]; simp only [List.length_append]; omega

theorem readSettings_put (kind : String → SettingKind) (rev : Nat) (ss : Settings) (h : ∀ s ∈ ss, SettingOK kind rev s)
    (rest : Bytes) :
    readSettings kind rev (serializeSettings ss (rev ≥ 54429) ++ rest) = .ok (ss.map (seenSetting rev)) rest := by
  rw [readSettings]
  suffices ∀ acc : List RawSetting, Reader.loop _ acc (serializeSettings ss (rev ≥ 54429) ++ rest) =
      .ok (acc ++ ss.map (seenSetting rev)) rest by simpa using this []
  induction ss with
  | nil =>
    intro acc
    refine loop_inr ?_
    have : serializeSettings [] (rev ≥ 54429) = putString "" := by
      simp [serializeSettings]
    rw [this, bind_ok (readString_put _ _ (by decide)), if_pos rfl]
    simp [rpure_run]
  | cons s ss ih =>
    intro acc
    rw [serializeSettings_cons, loop_inl (readSettings_step kind rev s (h s (by simp)) acc _) (by
      have := putSetting_ne s rev
      simp only [List.length_append]; omega), ih fun s' hs => h s' (by simp [hs])]
    simp

end CH
