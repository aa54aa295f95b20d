import Verif.Lemmas.Decimal

/-!
C30 (decimal comparison, rescaling, hashing, construction) and C31 (decimal text).
-/

namespace CH.Props
open Spec

theorem checkI64_ok {v : Int} (h : -(2 ^ 63) ≤ v ∧ v ≤ 2 ^ 63 - 1) : checkI64 v = .ok v := by
  rw [checkI64, if_pos (by simpa [i64Min, i64Max] using h)]

theorem checkI64_eq {v u : Int} (h : checkI64 v = .ok u) : u = v := by
  unfold checkI64 at h; split at h
  · injection h with h; exact h.symm
  · cases h

theorem factor10_ok {k : Nat} (h : k ≤ 18) : factor10 k = .ok (10 ^ k) := by rw [factor10, if_pos h]

theorem factor10_eq {k : Nat} {f : Int} (h : factor10 k = .ok f) : f = 10 ^ k := by
  unfold factor10 at h; split at h
  · injection h with h; exact h.symm
  · cases h

theorem pow10_pos (k : Nat) : (0 : Int) < 10 ^ k := Int.pow_pos (by omega)

theorem same_iff_le {a b : Decimal} (h : a.scale ≤ b.scale) :
    SameNumber a b ↔ b.underlying = a.underlying * 10 ^ (b.scale - a.scale) := by
  unfold SameNumber
  have e : (10 : Int) ^ b.scale = 10 ^ (b.scale - a.scale) * 10 ^ a.scale := by
    rw [← Int.pow_add, Nat.sub_add_cancel h]
  rw [e, ← Int.mul_assoc]
  constructor
  · intro h; exact (Int.eq_of_mul_eq_mul_right (Int.ne_of_gt (pow10_pos _)) h).symm
  · intro h; rw [h]

theorem same_symm {a b : Decimal} : SameNumber a b ↔ SameNumber b a := ⟨Eq.symm, Eq.symm⟩

/-- **C30**, comparison. Whenever `==` on two decimals returns, its answer is whether they denote the same number, and it does
return when the coarser one, rewritten at the finer scale, fits 64 bits. (The full claim, for every pair, is false:
`C30_eq_overflow_violated`.) -/
theorem C30_eq_partial (a b : Decimal) :
    (∀ r, a.eq b = .ok r → (r = true ↔ SameNumber a b)) ∧
    (a.scale ≤ 18 → b.scale ≤ 18 → RoomFor a (b.scale - a.scale) → RoomFor b (a.scale - b.scale) →
      a.eq b = .ok (decide (SameNumber a b))) := by
  have main : ∀ r, a.eq b = .ok r → (r = true ↔ SameNumber a b) := by
    intro r h
    unfold Decimal.eq at h
    split at h
    · obtain ⟨f, hf, h⟩ := out_bind_ok.mp h
      obtain ⟨u, hu, h⟩ := out_bind_ok.mp h
      cases h
      rw [same_iff_le (by omega), checkI64_eq hu, factor10_eq hf]; simp
    · split at h
      · rename_i he
        injection h with h; subst h
        rw [same_iff_le (by omega), he, Nat.sub_self, Int.pow_zero, Int.mul_one, beq_iff_eq]; exact eq_comm
      · obtain ⟨f, hf, h⟩ := out_bind_ok.mp h
        obtain ⟨u, hu, h⟩ := out_bind_ok.mp h
        cases h
        rw [same_symm, same_iff_le (by omega), checkI64_eq hu, factor10_eq hf]; simp
  refine ⟨main, fun ha hb ra rb => ?_⟩
  have : ∃ r, a.eq b = .ok r := by
    unfold Decimal.eq
    split
    · rw [factor10_ok (by omega)]
      exact ⟨_, out_bind_ok.mpr ⟨_, rfl, out_bind_ok.mpr ⟨_, checkI64_ok ra, rfl⟩⟩⟩
    · split
      · exact ⟨_, rfl⟩
      · rw [factor10_ok (by omega)]
        exact ⟨_, out_bind_ok.mpr ⟨_, rfl, out_bind_ok.mpr ⟨_, checkI64_ok rb, rfl⟩⟩⟩
  obtain ⟨r, hr⟩ := this
  rw [hr]
  congr 1
  have := main r hr
  cases r <;> simp_all

example : RoomFor ⟨-20, .n64, 18, 1⟩ 2 ∧ SameNumber ⟨-20, .n64, 18, 1⟩ ⟨-2000, .n64, 18, 3⟩ ∧
    (⟨-20, .n64, 18, 1⟩ : Decimal).eq ⟨-2000, .n64, 18, 3⟩ = .ok true ∧
    (⟨-20, .n64, 18, 1⟩ : Decimal).eq ⟨-2001, .n64, 18, 3⟩ = .ok false := by decide

/-- **C30** fails: comparing 10^18 (scale 0) with 1 (scale 18) overflows and panics instead of answering `false`. -/
theorem C30_eq_overflow_violated :
    ∃ a b, Decimal.new (10 ^ 18) 0 = .ok a ∧ Decimal.new 1 18 = .ok b ∧ a.eq b = .panic ∧ b.eq a = .panic :=
  ⟨_, _, rfl, rfl, by decide, by decide⟩

/-- **C30** fails in builds without overflow checks too: 2^46 and 0 compare equal. -/
theorem C30_eq_release_violated :
    ∃ a b, Decimal.new (2 ^ 46) 0 = .ok a ∧ Decimal.new 0 18 = .ok b ∧ a.eqRelease b = .ok true ∧ ¬ SameNumber a b :=
  ⟨_, _, rfl, rfl, by decide, by decide⟩

/-- **C30**, comparison without overflow checks: right whenever the rewritten number fits 64 bits. -/
theorem C30_eq_release_partial (a b : Decimal) (ha : a.scale ≤ 18) (hb : b.scale ≤ 18)
    (ra : RoomFor a (b.scale - a.scale)) (rb : RoomFor b (a.scale - b.scale)) :
    a.eqRelease b = .ok (decide (SameNumber a b)) := by
  have w : ∀ v : Int, (-(2 ^ 63) ≤ v ∧ v ≤ 2 ^ 63 - 1) → wrapSigned 8 v = v := by
    intro v hv
    simp only [wrapSigned]
    split <;> omega
  rw [← (C30_eq_partial a b).2 ha hb ra rb]
  unfold Decimal.eqRelease Decimal.eq
  split
  · rw [factor10_ok (by omega)]
    show Out.ok _ = Out.bind (checkI64 _) _
    rw [checkI64_ok ra, w _ ra]; rfl
  · split
    · rfl
    · rw [factor10_ok (by omega)]
      show Out.ok _ = Out.bind (checkI64 _) _
      rw [checkI64_ok rb, w _ rb]; rfl

example : RoomFor ⟨-20, .n64, 18, 1⟩ 2 ∧ RoomFor ⟨-2000, .n64, 18, 3⟩ 0 := by decide

/-- **C30**, raising the scale: the number is preserved exactly and only the scale changes, provided the result fits 64 bits;
whenever the call returns at all the number is preserved. -/
theorem C30_raise_partial (d : Decimal) (s : Nat) (h : d.scale ≤ s) :
    (∀ d', d.setScale s = .ok d' → SameNumber d d' ∧ d'.scale = s ∧ d'.precision = d.precision ∧ d'.nobits = d.nobits) ∧
    (s ≤ 18 → RoomFor d (s - d.scale) → ∃ d', d.setScale s = .ok d') := by
  constructor
  · intro d' hd
    unfold Decimal.setScale at hd
    split at hd
    · omega
    · split at hd
      · rename_i he; injection hd with hd; subst hd; exact ⟨rfl, he.symm, rfl, rfl⟩
      · obtain ⟨f, hf, hd⟩ := out_bind_ok.mp hd
        obtain ⟨u, hu, hd⟩ := out_bind_ok.mp hd
        cases hd
        refine ⟨?_, rfl, rfl, rfl⟩
        rw [same_iff_le (by simpa using h), checkI64_eq hu, factor10_eq hf]
  · intro hs hr
    unfold Decimal.setScale
    split
    · omega
    · split
      · exact ⟨_, rfl⟩
      · rw [factor10_ok (by omega)]
        exact ⟨_, out_bind_ok.mpr ⟨_, rfl, out_bind_ok.mpr ⟨_, checkI64_ok hr, rfl⟩⟩⟩

example : RoomFor ⟨-12345, .n64, 18, 2⟩ 3 ∧
    (⟨-12345, .n64, 18, 2⟩ : Decimal).setScale 5 = .ok ⟨-12345000, .n64, 18, 5⟩ := by decide

/-- **C30** fails: raising the scale of a large decimal panics. -/
theorem C30_raise_overflow_violated :
    ∃ d, Decimal.new (10 ^ 18) 0 = .ok d ∧ d.setScale 1 = .panic := ⟨_, rfl, by decide⟩

/-- **C30**, lowering the scale: always succeeds, and the result is the number truncated toward zero – what is cut off is less
than one unit of the last kept digit and has the number's own sign. -/
theorem C30_lower (d : Decimal) (s : Nat) (h : s ≤ d.scale) (hd : d.scale ≤ 18) :
    ∃ d' cut, d.setScale s = .ok d' ∧ d'.scale = s ∧ d'.precision = d.precision ∧ d'.nobits = d.nobits ∧
      d.underlying = d'.underlying * 10 ^ (d.scale - s) + cut ∧
      cut.natAbs < 10 ^ (d.scale - s) ∧ (0 ≤ d.underlying → 0 ≤ cut ∧ 0 ≤ d'.underlying) ∧
      (d.underlying ≤ 0 → cut ≤ 0 ∧ d'.underlying ≤ 0) := by
  by_cases he : s = d.scale
  · subst he
    refine ⟨d, 0, ?_, rfl, rfl, rfl, by simp, by simp, by simp, by simp⟩
    simp [Decimal.setScale]
  · have hl : s < d.scale := by omega
    have hp := pow10_pos (d.scale - s)
    refine ⟨{ d with underlying := Int.tdiv d.underlying (10 ^ (d.scale - s)), scale := s },
      Int.tmod d.underlying (10 ^ (d.scale - s)), ?_, rfl, rfl, rfl, ?_, ?_, ?_, ?_⟩
    · rw [Decimal.setScale, if_pos hl, factor10_ok (by omega)]; rfl
    · exact (Int.tdiv_mul_add_tmod _ _).symm
    · rw [Int.natAbs_tmod]
      have : (10 ^ (d.scale - s) : Int).natAbs = 10 ^ (d.scale - s) := by rw [Int.natAbs_pow]; rfl
      rw [this]
      exact Nat.mod_lt _ (Nat.pow_pos (by omega))
    · intro h0
      exact ⟨Int.tmod_nonneg _ h0, Int.tdiv_nonneg h0 (Int.le_of_lt hp)⟩
    · intro h0
      have e : d.underlying = -(-d.underlying) := by omega
      have h0' : 0 ≤ -d.underlying := by omega
      have h1 := Int.tmod_nonneg (10 ^ (d.scale - s)) h0'
      have h2 := Int.tdiv_nonneg h0' (Int.le_of_lt hp)
      rw [Int.neg_tmod] at h1
      rw [Int.neg_tdiv] at h2
      exact ⟨by omega, by simp only; omega⟩

example : (⟨-12399, .n64, 18, 4⟩ : Decimal).setScale 2 = .ok ⟨-123, .n64, 18, 2⟩ := by decide

/-- **C30**, hashing: decimals of the same type that denote the same number feed the hasher identically. -/
theorem C30_hash_partial (a b : Decimal) (hn : a.nobits = b.nobits) (hp : a.precision = b.precision) (hs : a.scale = b.scale)
    (h : SameNumber a b) : a.hashFeed = b.hashFeed := by
  have := (same_iff_le (Nat.le_of_eq hs)).mp h
  rw [hs] at this
  simp [Decimal.hashFeed, hn, hp, hs, this]

example : SameNumber ⟨7, .n32, 9, 2⟩ ⟨7, .n32, 9, 2⟩ := by decide

/-- **C30**, hashing: decimals that feed the hasher identically have the same type and denote the same number. -/
theorem C30_hash_separates (a b : Decimal) (h : a.hashFeed = b.hashFeed) :
    a.nobits = b.nobits ∧ a.precision = b.precision ∧ a.scale = b.scale ∧ SameNumber a b := by
  have hs : a.scale = b.scale := congrArg (fun x => x.2.2.2) h
  have hu : a.underlying = b.underlying := congrArg (fun x => x.1) h
  refine ⟨congrArg (fun x => x.2.1) h, congrArg (fun x => x.2.2.1) h, hs, (same_iff_le (Nat.le_of_eq hs)).mpr ?_⟩
  rw [hs, hu]; simp

example : (⟨7, .n32, 9, 2⟩ : Decimal).hashFeed = (⟨7, .n32, 9, 2⟩ : Decimal).hashFeed ∧
    (⟨7, .n32, 9, 2⟩ : Decimal).hashFeed ≠ (⟨7, .n32, 9, 3⟩ : Decimal).hashFeed := by decide

/-- **C30** fails: 0.2 and 0.20 compare equal but feed the hasher differently. -/
theorem C30_hash_violated :
    ∃ a b, Decimal.new 2 1 = .ok a ∧ Decimal.new 20 2 = .ok b ∧ a.eq b = .ok true ∧ a.hashFeed ≠ b.hashFeed :=
  ⟨_, _, rfl, rfl, by decide, by decide⟩

/-- The decimal denotes the integer `v`. -/
def DenotesInt (d : Decimal) (v : Int) : Prop := d.underlying = v * 10 ^ d.scale

/-- **C30**, construction from an `i64`: whenever `Decimal::of` returns, the decimal denotes the source, at the requested scale;
and it returns when the scaled source is at most 10^18 in magnitude. -/
theorem C30_of_i64 (v : Int) (s : Nat) :
    (∀ d, Decimal.of ⟨8, true⟩ v s = .ok d → DenotesInt d v ∧ d.scale = s) ∧
    (s ≤ 18 → (v * 10 ^ s).natAbs ≤ 10 ^ 18 → ∃ d, Decimal.of ⟨8, true⟩ v s = .ok d) := by
  have hc : ∀ k : Fin 19, IntTy.cast ⟨8, true⟩ (10 ^ k.val) = 10 ^ k.val := by decide
  constructor
  · intro d h
    unfold Decimal.of at h
    split at h
    · cases h
    · rename_i hs
      obtain ⟨f, hf, h⟩ := out_bind_ok.mp h
      obtain ⟨u, hu, h⟩ := out_bind_ok.mp h
      have := factor10_eq hf; subst this
      have hcs := hc ⟨s, by omega⟩
      simp only at hcs
      unfold IntTy.scaleBy at hu
      split at hu
      · rename_i hh
        injection hu with hu
        simp only [IntTy.holds, IntTy.cast, if_true, beq_iff_eq] at hh
        simp only [IntTy.cast, if_true] at hcs hu
        rw [hcs] at hu hh
        rw [hh] at hu
        subst hu
        split at h
        · cases h
        · cases h; exact ⟨rfl, rfl⟩
      · cases hu
  · intro hs hv
    have hcs := hc ⟨s, by omega⟩
    simp only at hcs
    have hw : wrapSigned 8 (v * 10 ^ s) = v * 10 ^ s := by
      generalize v * 10 ^ s = x at hv
      simp only [wrapSigned]
      split <;> omega
    have h1 : IntTy.scaleBy ⟨8, true⟩ v (10 ^ s) = .ok (v * 10 ^ s) := by
      simp only [IntTy.cast, if_true] at hcs
      simp only [IntTy.scaleBy, IntTy.holds, IntTy.cast, if_true, hcs, hw]
      simp
    refine ⟨⟨v * 10 ^ s, .n64, 18, s⟩, ?_⟩
    rw [Decimal.of, if_neg (by omega), factor10_ok hs]
    refine out_bind_ok.mpr ⟨_, rfl, out_bind_ok.mpr ⟨_, h1, ?_⟩⟩
    rw [if_neg (by omega)]

example : Decimal.of ⟨8, true⟩ (-25) 3 = .ok ⟨-25000, .n64, 18, 3⟩ := by decide

/-- **C30** fails for narrow sources: the factor is truncated to the source type, so `Decimal::of(2_i8, 4)` is 0.0032 and
`Decimal::of(1_u16, 16)` is 0. -/
theorem C30_of_narrow_violated :
    (∃ d, Decimal.of ⟨1, true⟩ 2 4 = .ok d ∧ ¬ DenotesInt d 2 ∧ d = ⟨32, .n64, 18, 4⟩) ∧
    (∃ d, Decimal.of ⟨2, false⟩ 1 16 = .ok d ∧ d.underlying = 0) := by
  refine ⟨⟨_, rfl, ?_, rfl⟩, ⟨_, rfl, rfl⟩⟩
  unfold DenotesInt; decide

/-- The decimals whose text is right: not negative, or with a whole part that is not zero. -/
def Printable (d : Decimal) : Prop := 0 ≤ d.underlying ∨ 10 ^ d.scale ≤ d.underlying.natAbs

/-- **C31**, every decimal with at least one fractional digit that is non-negative or at most −1 prints as the ordinary decimal
notation of its exact value. (The full claim is false: `C31_negative_violated`, `C31_scale_zero_violated`.) -/
theorem C31_text_partial (d : Decimal) (hs : 0 < d.scale) (hp : Printable d) :
    d.toStr = decimalText d.underlying d.scale := by
  obtain ⟨u, nb, p, s⟩ := d
  simp only [Printable] at hp hs ⊢
  rw [toStr_eq]
  simp only [decimalText, if_neg (show s ≠ 0 by omega), ← natChars_eq_toDigits]
  by_cases hb : 10 ^ s ≤ u.natAbs
  · have e := natChars_split s _ hb
    have key : ∀ pre : Str, (∀ c ∈ pre, c ≠ '.') →
        leadZero ((padZeros (pre ++ natChars u.natAbs) s).take ((padZeros (pre ++ natChars u.natAbs) s).length - s) ++
          '.' :: (padZeros (pre ++ natChars u.natAbs) s).drop ((padZeros (pre ++ natChars u.natAbs) s).length - s)) = pre ++ natChars (u.natAbs / 10 ^ s) ++ '.' :: lowDigits s u.natAbs := by
      intro pre hpre
      have hl : s ≤ (pre ++ natChars u.natAbs).length := by rw [e]; simp [lowDigits_length]; omega
      rw [padZeros_of_le hl, e, ← List.append_assoc]
      have hlen : (pre ++ natChars (u.natAbs / 10 ^ s) ++ lowDigits s u.natAbs).length - s =
          (pre ++ natChars (u.natAbs / 10 ^ s)).length := by simp [lowDigits_length]; omega
      rw [hlen, List.take_left, List.drop_left]
      have hne : ∀ c ∈ pre ++ natChars (u.natAbs / 10 ^ s), c ≠ '.' := by
        intro c hc
        rcases List.mem_append.mp hc with h | h
        · exact hpre c h
        · have := natChars_digits _ c h
          intro h'; subst h'; revert this; decide
      have hnil : pre ++ natChars (u.natAbs / 10 ^ s) ≠ [] := by simp [natChars_ne_nil]
      generalize pre ++ natChars (u.natAbs / 10 ^ s) = w at hne hnil
      cases w with
      | nil => exact absurd rfl hnil
      | cons c t =>
        have := hne c (by simp)
        exact leadZero_of_ne this
    by_cases hn : u < 0
    · have hi : intChars u = ['-'] ++ natChars u.natAbs := by simp [intChars, hn]
      rw [hi, if_pos hn]
      exact key ['-'] (by decide)
    · have hi : intChars u = [] ++ natChars u.natAbs := by simp [intChars, hn]
      rw [hi, if_neg hn]
      exact key [] (by simp)
  · have h0 : 0 ≤ u := hp.resolve_right hb
    have hi : intChars u = natChars u.natAbs := by rw [intChars, if_neg (by omega)]
    obtain ⟨m, rfl⟩ : ∃ m, s = m + 1 := ⟨s - 1, by omega⟩
    rw [hi, padZeros_natChars m _ (by omega), if_neg (by omega), Nat.div_eq_of_lt (by omega), lowDigits_length, Nat.sub_self,
      natChars_lt (by omega)]
    simp only [List.take_zero, List.drop_zero, List.nil_append]
    rfl

example : Printable ⟨-12345, .n64, 18, 3⟩ ∧ (⟨-12345, .n64, 18, 3⟩ : Decimal).toStr = "-12.345".toList ∧
    Printable ⟨5, .n64, 18, 3⟩ ∧ (⟨5, .n64, 18, 3⟩ : Decimal).toStr = "0.005".toList := by
  refine ⟨Or.inr (by decide), ?_, Or.inl (by decide), ?_⟩
  · rw [C31_text_partial _ (by decide) (Or.inr (by decide))]; decide
  · rw [C31_text_partial _ (by decide) (Or.inl (by decide))]; decide

/-- **C31** fails for negative decimals above −1: −0.05 prints as `0.-5`, −0.005 as `0.0-5` and −0.5 as `-.5`. -/
theorem C31_negative_violated :
    (⟨-5, .n64, 18, 2⟩ : Decimal).toStr = "0.-5".toList ∧ (⟨-5, .n64, 18, 3⟩ : Decimal).toStr = "0.0-5".toList ∧
    (⟨-5, .n64, 18, 1⟩ : Decimal).toStr = "-.5".toList ∧
    decimalText (-5) 2 = "-0.05".toList := by
  have h : intChars (-5) = ['-', '5'] := by simp [intChars, natChars_lt]; decide
  refine ⟨?_, ?_, ?_, by decide⟩ <;> simp [Decimal.toStr, h, padZeros] <;> decide

/-- **C31** is wrong for *every* negative decimal strictly between −1 and 0, not only in the witnesses above. -/
theorem C31_negative_always_violated (d : Decimal) (h : d.underlying < 0) (hs : d.underlying.natAbs < 10 ^ d.scale) :
    d.toStr ≠ decimalText d.underlying d.scale := by
  obtain ⟨u, nb, p, s⟩ := d
  simp only at h hs ⊢
  have hs0 : s ≠ 0 := by rintro rfl; simp at hs; omega
  obtain ⟨m, rfl⟩ : ∃ m, s = m + 1 := ⟨s - 1, by omega⟩
  intro he
  have h1 : decimalText u (m + 1) = '-' :: '0' :: '.' :: lowDigits (m + 1) u.natAbs := by
    rw [decimalText, if_pos h, if_neg hs0, Nat.div_eq_of_lt hs]; rfl
  rw [h1] at he
  have hl := congrArg List.length he
  have hlen : (natChars u.natAbs).length ≤ m + 1 := by
    have := congrArg List.length (padZeros_natChars m _ hs)
    simp only [padZeros, List.length_append, List.length_replicate, lowDigits_length] at this
    omega
  have hi : intChars u = '-' :: natChars u.natAbs := by rw [intChars, if_pos h]
  simp only [Decimal.toStr, hi] at hl
  simp only [List.length_cons, lowDigits_length] at hl
  generalize hr : padZeros ('-' :: natChars u.natAbs) (m + 1) = r at hl
  have hrl : r.length = max (m + 1) ((natChars u.natAbs).length + 1) := by
    rw [← hr]; simp [padZeros]; omega
  generalize hq : r.take (r.length - (m + 1)) ++ '.' :: r.drop (r.length - (m + 1)) = q at hl
  have hql : q.length = r.length + 1 := by rw [← hq]; simp; omega
  by_cases hcase : (natChars u.natAbs).length = m + 1
  · -- one character before the point: it is the sign
    have : r = '-' :: natChars u.natAbs := by rw [← hr, padZeros_of_le]; simp; omega
    have hq' : q = '-' :: '.' :: natChars u.natAbs := by
      rw [← hq, this]
      simp [hcase]
    rw [hq'] at hl
    simp [hcase] at hl
  · have : r.length = m + 1 := by omega
    have hq' : q = '.' :: r := by rw [← hq, this]; simp
    rw [hq'] at hl
    simp only [List.length_cons] at hl
    omega

example : (⟨-5, .n64, 18, 2⟩ : Decimal).underlying < 0 ∧ (5 : Nat) < 10 ^ 2 := by decide

/-- **C31** fails at scale 0: 5 prints as `5.`; more generally a stray point is always added. -/
theorem C31_scale_zero_violated (d : Decimal) (h : d.scale = 0) :
    d.toStr = decimalText d.underlying d.scale ++ ['.'] := by
  obtain ⟨u, nb, p, s⟩ := d
  simp only at h
  subst h
  have hd : decimalText u 0 = intChars u := by
    unfold decimalText intChars
    split <;> simp [← natChars_eq_toDigits]
  simp only [hd, Decimal.toStr, padZeros]
  simp only [Nat.zero_sub, List.replicate_zero, List.nil_append, Nat.sub_zero, List.take_length, List.drop_length]
  have hne : ∀ t, intChars u ++ ['.'] ≠ '.' :: t := by
    intro t ht
    unfold intChars at ht
    split at ht
    · injection ht with h1; revert h1; decide
    · have := natChars_digits u.natAbs
      have hnil := natChars_ne_nil u.natAbs
      cases hc : natChars u.natAbs with
      | nil => exact hnil hc
      | cons c t' =>
        rw [hc] at ht this
        injection ht with h1
        have := this c (by simp)
        rw [h1] at this
        revert this; decide
  split
  · rename_i t ht; exact absurd ht (hne t)
  · rfl

example : (⟨5, .n64, 18, 0⟩ : Decimal).scale = 0 := rfl

end CH.Props
