import Verif.Model.Lz4
import Verif.Spec.Lz4

/-! Lemmas about the decoder of LZ4 blocks. -/

namespace CH.Lz4

open Spec.Lz4

theorem moreLen_put (k : Nat) (b : UInt8) (hb : b ≠ 255) (n : Nat) (r : Bytes) :
    moreLen n (List.replicate k 255 ++ b :: r) = some (n + 255 * k + b.toNat, r) := by
  induction k generalizing n with
  | zero => simp [moreLen, hb]
  | succ k ih =>
    rw [List.replicate_succ, List.cons_append, moreLen, if_pos rfl, ih]
    simp only [Option.some.injEq, Prod.mk.injEq, and_true]
    omega

theorem ofNat_toNat {n : Nat} (h : n < 256) : (UInt8.ofNat n).toNat = n := by
  simp only [UInt8.toNat_ofNat']
  omega

theorem readLen_put (n : Nat) (r : Bytes) : readLen (bits n) (continued n ++ r) = some (n, r) := by
  rw [readLen, continued, bits]
  by_cases h : n < 15
  · rw [if_neg (by omega), if_pos h, List.nil_append, show min n 15 = n by omega]
  · have hm : (n - 15) % 255 < 255 := Nat.mod_lt _ (by decide)
    have hb : UInt8.ofNat ((n - 15) % 255) ≠ 255 := fun e => by
      have := congrArg UInt8.toNat e
      rw [ofNat_toNat (by omega)] at this
      have h255 : (255 : UInt8).toNat = 255 := rfl
      omega
    rw [if_pos (by omega), if_neg h, List.append_assoc, List.singleton_append, moreLen_put _ _ hb, ofNat_toNat (by omega)]
    simp only [Option.some.injEq, Prod.mk.injEq, and_true]
    omega

theorem token_hi {a b : Nat} (ha : a ≤ 15) (hb : b ≤ 15) : (UInt8.ofNat (16 * a + b)).toNat / 16 = a := by
  rw [ofNat_toNat (by omega)]; omega

theorem token_lo {a b : Nat} (ha : a ≤ 15) (hb : b ≤ 15) : (UInt8.ofNat (16 * a + b)).toNat % 16 = b := by
  rw [ofNat_toNat (by omega)]; omega

theorem bits_le (n : Nat) : bits n ≤ 15 := by rw [bits]; omega

theorem copyMatch_says {off : Nat} (hoff : 0 < off) (m : Bytes) (out : Bytes) (hfar : off ≤ out.length)
    (h : Repeats (out ++ m) out.length off m.length) : copyMatch off m.length out = some (out ++ m) := by
  induction m generalizing out with
  | nil => simp [copyMatch]
  | cons b m ih =>
    have h0 := h 0 (by simp)
    rw [Nat.add_zero, List.getElem?_append_right (Nat.le_refl _), Nat.sub_self, List.getElem?_cons_zero,
      List.getElem?_append_left (by omega)] at h0
    rw [List.length_cons, copyMatch, ← h0]
    have e : out ++ b :: m = out ++ [b] ++ m := by simp
    rw [e] at h ⊢
    refine ih (out ++ [b]) (by simp; omega) fun i hi => ?_
    have := h (i + 1) (by simp; omega)
    rw [List.length_append, List.length_singleton]
    rw [show out.length + (i + 1) = out.length + 1 + i by omega] at this
    exact this

theorem copyMatch_sound {off : Nat} (hoff : 0 < off) (n : Nat) (out o : Bytes) (hfar : off ≤ out.length)
    (h : copyMatch off n out = some o) : ∃ m : Bytes, o = out ++ m ∧ m.length = n ∧ Repeats (out ++ m) out.length off n := by
  induction n generalizing out with
  | zero =>
    rw [copyMatch] at h
    cases h
    exact ⟨[], by simp, rfl, fun i hi => by omega⟩
  | succ n ih =>
    rw [copyMatch] at h
    cases hb : out[out.length - off]? with
    | none => rw [hb] at h; cases h
    | some b =>
      rw [hb] at h
      obtain ⟨m, h1, h2, h3⟩ := ih (out ++ [b]) (by simp; omega) h
      refine ⟨b :: m, by rw [h1]; simp, by simp [h2], fun i hi => ?_⟩
      have e : out ++ b :: m = out ++ [b] ++ m := by simp
      cases i with
      | zero =>
        rw [Nat.add_zero, List.getElem?_append_right (Nat.le_refl _), Nat.sub_self, List.getElem?_cons_zero,
          List.getElem?_append_left (by omega), hb]
      | succ i =>
        have := h3 i (by omega)
        rw [e, show out.length + (i + 1) = out.length + 1 + i by omega]
        rw [List.length_append, List.length_singleton] at this
        exact this

/-- What is said has room behind every sequence. -/
theorem says_room {before last data : Bytes} {ss : List Sequence} (h : Says before ss last data) (he : EndRules ss last) :
    before.length + last.length ≤ data.length ∧
    ∀ s rest, ss = s :: rest → before.length + s.lits.length + 12 ≤ data.length ∧
      before.length + s.lits.length + s.len + 5 ≤ data.length ∧ 5 ≤ last.length := by
  induction h with
  | last b l => exact ⟨by simp, fun s rest e => by cases e⟩
  | @cons b s m ss l d hlen hmin hoff hfar hmax hrep hrest ih =>
    cases ss with
    | nil =>
      cases hrest
      obtain ⟨e1, e2⟩ := he s rfl
      refine ⟨by simp; omega, fun s' rest e => ?_⟩
      cases e
      simp only [List.length_append]
      omega
    | cons s2 ss =>
      have he' : EndRules (s2 :: ss) l := fun x hx => he x (by rw [List.getLast?_cons_cons]; exact hx)
      obtain ⟨i1, i2⟩ := ih he'
      obtain ⟨j1, j2, j3⟩ := i2 s2 ss rfl
      simp only [List.length_append] at i1 j1 j2
      refine ⟨by omega, fun s' rest e => ?_⟩
      cases e
      omega

theorem block_length (ss : List Sequence) (last : Bytes) (low : Nat) : last.length + 1 ≤ (blockBytes ss last low).length := by
  simp only [blockBytes, finalBytes, List.length_append, List.length_singleton]
  omega

theorem decode_says {before last data : Bytes} {ss : List Sequence} {low : Nat} (hlow : low ≤ 15) (h : Says before ss last data)
    (he : EndRules ss last) {cap : Nat} (hcap : data.length ≤ cap) : decode cap before (blockBytes ss last low) = some data := by
  induction h with
  | last b l =>
    rw [List.length_append] at hcap
    have e : blockBytes [] l low = UInt8.ofNat (16 * bits l.length + low) :: (continued l.length ++ l) := by
      simp [blockBytes, finalBytes]
    rw [e, decode.eq_def]
    simp only
    rw [token_hi (bits_le _) hlow]
    split
    · rename_i hr
      rw [readLen_put] at hr; cases hr
    · rename_i hr
      rw [readLen_put] at hr
      cases hr
      rw [if_pos (Or.inr (by omega)), if_pos ⟨rfl, by omega⟩]
  | @cons b s m ss l d hlen hmin hoff hfar hmax hrep hrest ih =>
    obtain ⟨-, hroom⟩ := says_room (.cons hlen hmin hoff hfar hmax hrep hrest) he
    obtain ⟨r1, r2, r3⟩ := hroom s ss rfl
    have he' : EndRules ss l := fun x hx => he x (by
      cases ss with
      | nil => cases hx
      | cons s2 ss => rw [List.getLast?_cons_cons]; exact hx)
    have hbl := block_length ss l low
    have e : blockBytes (s :: ss) l low = UInt8.ofNat (16 * bits s.lits.length + bits (s.len - 4)) ::
        (continued s.lits.length ++ (s.lits ++ (UInt8.ofNat (s.off % 256) :: UInt8.ofNat (s.off / 256) ::
          (continued (s.len - 4) ++ blockBytes ss l low)))) := by
      simp [blockBytes, sequenceBytes]
    rw [e, decode.eq_def]
    simp only
    rw [token_hi (bits_le _) (bits_le _), token_lo (bits_le _) (bits_le _)]
    split
    · rename_i hr
      rw [readLen_put] at hr; cases hr
    · rename_i hr
      rw [readLen_put] at hr
      cases hr
      rw [if_neg (by simp only [List.length_append, List.length_cons]; omega)]
      split
      · rename_i o1 o2 q hq
        rw [List.drop_left] at hq
        cases hq
        split
        · rename_i hr
          rw [readLen_put] at hr; cases hr
        · rename_i hr
          rw [readLen_put] at hr
          cases hr
          simp only [List.take_left, ofNat_toNat (show s.off % 256 < 256 by omega), ofNat_toNat (show s.off / 256 < 256 by omega)]
          rw [show s.off % 256 + 256 * (s.off / 256) = s.off by omega, show s.len - 4 + 4 = m.length by omega]
          rw [if_neg (by simp only [List.length_append]; omega)]
          rw [copyMatch_says hoff m _ (by simpa using hfar) (by rw [List.length_append, hlen]; exact hrep)]
          exact ih he' hcap
      · rename_i hq
        rw [List.drop_left] at hq
        exact absurd rfl (hq _ _ _)

theorem moreLen_sound {n : Nat} {bs r : Bytes} {m : Nat} (h : moreLen n bs = some (m, r)) :
    ∃ k b, b < 255 ∧ m = n + 255 * k + b ∧ bs = List.replicate k 255 ++ UInt8.ofNat b :: r := by
  induction bs generalizing n with
  | nil => cases h
  | cons b bs ih =>
    rw [moreLen] at h
    split at h
    · rename_i hb
      obtain ⟨k, c, h1, h2, h3⟩ := ih h
      exact ⟨k + 1, c, h1, by omega, by rw [hb, List.replicate_succ, h3]; rfl⟩
    · rename_i hb
      cases h
      refine ⟨0, b.toNat, ?_, by omega, by simp⟩
      have := b.toNat_lt
      have h255 : b.toNat ≠ 255 := fun e => hb (UInt8.toNat_inj.mp e)
      omega

theorem readLen_sound {a : Nat} (ha : a ≤ 15) {bs r : Bytes} {m : Nat} (h : readLen a bs = some (m, r)) :
    a = bits m ∧ bs = continued m ++ r := by
  rw [readLen] at h
  split at h
  · rename_i h15
    obtain ⟨k, b, h1, h2, h3⟩ := moreLen_sound h
    refine ⟨by rw [bits]; omega, ?_⟩
    rw [continued, if_neg (by omega), show (m - 15) / 255 = k by omega, show (m - 15) % 255 = b by omega, h3]
    simp
  · cases h
    refine ⟨by rw [bits]; omega, ?_⟩
    rw [continued, if_pos (by omega)]
    rfl

theorem token_split (t : UInt8) : t = UInt8.ofNat (16 * (t.toNat / 16) + t.toNat % 16) := by
  rw [show 16 * (t.toNat / 16) + t.toNat % 16 = t.toNat by omega, UInt8.ofNat_toNat]

theorem decode_sound (k : Nat) {cap : Nat} {inp before data : Bytes} (hk : inp.length ≤ k) (h : decode cap before inp = some data) :
    ∃ ss last low, low ≤ 15 ∧ inp = blockBytes ss last low ∧ Says before ss last data ∧ data.length ≤ cap := by
  induction k generalizing inp before with
  | zero =>
    have : inp = [] := List.length_eq_zero_iff.mp (by omega)
    subst this
    rw [decode.eq_def] at h
    cases h
  | succ k ih =>
    rw [decode.eq_def] at h
    cases inp with
    | nil => cases h
    | cons t r0 =>
      have ht := t.toNat_lt
      simp only at h
      split at h
      · cases h
      · rename_i ll r1 hr1
        obtain ⟨a1, a2⟩ := readLen_sound (by omega) hr1
        split at h
        · split at h
          · rename_i hl
            cases h
            refine ⟨[], r1, t.toNat % 16, by omega, ?_, .last _ _, by rw [List.length_append]; omega⟩
            simp only [blockBytes, finalBytes, List.map_nil, List.flatten_nil, List.nil_append]
            rw [hl.1, ← a1, ← token_split, a2]
            simp
          · cases h
        · rename_i hroom
          split at h
          · rename_i o1 o2 r2 hd
            split at h
            · cases h
            · rename_i ml r3 hr3
              obtain ⟨b1, b2⟩ := readLen_sound (by omega) hr3
              split at h
              · cases h
              · rename_i hoff
                split at h
                · cases h
                · rename_i o ho
                  have hl : (r1.take ll).length = ll := by rw [List.length_take]; omega
                  have hlo := o1.toNat_lt
                  have hlh := o2.toNat_lt
                  obtain ⟨m, c1, c2, c3⟩ := copyMatch_sound (by omega) _ _ _ (by omega) ho
                  subst c1
                  have hlen : r3.length ≤ k := by
                    have x1 := readLen_length hr1
                    have x3 := readLen_length hr3
                    have x2 := congrArg List.length hd
                    rw [List.length_drop] at x2
                    simp only [List.length_cons] at x2 hk
                    omega
                  obtain ⟨ss, last, low, i1, i2, i3, i4⟩ := ih hlen h
                  refine ⟨⟨r1.take ll, o1.toNat + 256 * o2.toNat, ml + 4⟩ :: ss, last, low, i1, ?_, ?_, i4⟩
                  · simp only [blockBytes, List.map_cons, List.flatten_cons, sequenceBytes, hl, List.append_assoc]
                    rw [Nat.add_sub_cancel, ← a1, ← b1, ← token_split, show (o1.toNat + 256 * o2.toNat) % 256 = o1.toNat by omega,
                      show (o1.toNat + 256 * o2.toNat) / 256 = o2.toNat by omega, UInt8.ofNat_toNat, UInt8.ofNat_toNat]
                    rw [blockBytes] at i2
                    rw [a2, ← i2]
                    have := List.take_append_drop ll r1
                    rw [hd, b2] at this
                    exact congrArg (fun z => t :: (continued ll ++ z)) this.symm
                  · refine .cons c2 (by simp) (by simp only; omega) ?_ (by simp only; omega) ?_ i3
                    · simp only [hl]
                      simp only [List.length_append, hl] at hoff
                      omega
                    · rw [List.length_append] at c3
                      exact c3
          · cases h

end CH.Lz4
