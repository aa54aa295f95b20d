import Verif.Model.Release
import Verif.Model.Load
import Verif.Lemmas.Column
import Verif.Props.Wire
import Verif.Props.Decimal

/-!
# C102: builds without overflow checks
-/

namespace CH.Props

open CH CH.Spec

/-! ### Variable-length integers -/

theorem uvarintR_far (l : UInt8) (rest : Bytes) (hl : l.toNat < 0x80) : ∀ (c : Bytes), (∀ b ∈ c, isCont b) → ∀ x s i, 10 ≤ c.length + i →
    readUvarintLoopR x s i (c ++ l :: rest) = .err .overflow rest
  | [], _, x, s, i, hi => by
    rw [List.nil_append, readUvarintLoopR, if_pos hl, if_pos (.inl (by simp at hi; omega))]
  | b :: c, hc, x, s, i, hi => by
    have hb : ¬ b.toNat < 0x80 := by have := hc b (by simp); simp [isCont] at this; omega
    rw [List.cons_append, readUvarintLoopR, if_neg hb]
    exact uvarintR_far l rest hl c (fun y hy => hc y (by simp [hy])) _ _ _ (by simp at hi; omega)

theorem uvarintR_near (l : UInt8) (rest : Bytes) (hl : l.toNat < 0x80) : ∀ (c : Bytes), (∀ b ∈ c, isCont b) → ∀ x i, c.length + i ≤ 9 →
    readUvarintLoopR x (7 * i) i (c ++ l :: rest) = readUvarintLoop x (7 * i) i (c ++ l :: rest)
  | [], _, x, i, hi => by
    have : 7 * i % 64 = 7 * i := by simp at hi; omega
    rw [List.nil_append, readUvarintLoopR, readUvarintLoop, this, if_pos hl, if_pos hl]
  | b :: c, hc, x, i, hi => by
    have hb : ¬ b.toNat < 0x80 := by have := hc b (by simp); simp [isCont] at this; omega
    simp at hi
    have h1 : 7 * i % 64 = 7 * i := by omega
    have h2 : (7 * i + 7) % 2 ^ 32 = 7 * (i + 1) := by omega
    rw [List.cons_append, readUvarintLoopR, readUvarintLoop, if_neg hb, if_neg hb, if_neg (show ¬ 7 * i ≥ 64 by omega), h1, h2,
      uvarintR_near l rest hl c (fun y hy => hc y (by simp [hy])) _ (i + 1) (by omega)]
    congr 1

theorem uvarintR_unfinished : ∀ (c : Bytes), (∀ b ∈ c, isCont b) → ∀ x s i, readUvarintLoopR x s i c = .more
  | [], _, _, _, _ => rfl
  | b :: c, hc, x, s, i => by
    have hb : ¬ b.toNat < 0x80 := by have := hc b (by simp); simp [isCont] at this; omega
    rw [readUvarintLoopR, if_neg hb]
    exact uvarintR_unfinished c (fun y hy => hc y (by simp [hy])) _ _ _

/-- C102: without overflow checks the reader of variable-length integers does what C02 asks for, on all bytes: the number if it fits
64 bits, an error if not, and nothing as long as the last byte is missing. It never panics and never gives a wrapped number. -/
theorem C102_uvarint (c : Bytes) (hc : ∀ b ∈ c, isCont b) :
    readUvarintR c = .more ∧
    ∀ (l : UInt8) (rest : Bytes), ¬ isCont l → readUvarintR (c ++ l :: rest) =
      if c.length ≥ 10 ∨ base128 (c ++ [l]) ≥ 2 ^ 64 then .err .overflow rest else .ok (base128 (c ++ [l])) rest := by
  refine ⟨uvarintR_unfinished c hc _ _ _, fun l rest hl => ?_⟩
  have hl' : l.toNat < 0x80 := by simp [isCont] at hl; omega
  by_cases h : c.length ≥ 10
  · rw [if_pos (.inl h)]
    exact uvarintR_far l rest hl' c hc _ _ _ (by omega)
  · have e : readUvarintR (c ++ l :: rest) = readUvarint (c ++ l :: rest) :=
      uvarintR_near l rest hl' c hc 0 0 (by omega)
    rw [e, C02_uvarint_total_partial c l rest hc hl, if_neg (by omega)]
    have : c.length ≠ 10 := by omega
    simp only [this, h, false_or]

/-- Eleven continuation bytes, on which a build with checks panics. -/
example : (∀ b ∈ List.replicate 11 (0x80 : UInt8), isCont b) ∧ ¬ isCont 0 ∧
    readUvarint (List.replicate 11 0x80 ++ [0, 9]) = .panic ∧
    readUvarintR (List.replicate 11 0x80 ++ [0, 9]) = .err .overflow [9] :=
  ⟨by simp [isCont], by simp [isCont], by decide, by decide⟩

/-! ### Decimals -/

/-- The number is an `i64`. -/
def Fits64 (v : Int) : Prop := -(2 ^ 63) ≤ v ∧ v ≤ 2 ^ 63 - 1

theorem wrap_eq_iff (v : Int) : wrapSigned 8 v = v ↔ Fits64 v := by
  simp only [wrapSigned, Fits64]
  constructor
  · intro h
    split at h <;> omega
  · intro h
    split <;> omega

theorem check_ok {v : Int} (h : Fits64 v) : checkI64 v = .ok v := by
  rw [checkI64, if_pos]
  exact h

theorem check_cases (v : Int) : checkI64 v = .ok v ∧ Fits64 v ∨ checkI64 v = .panic ∧ ¬ Fits64 v := by
  by_cases h : Fits64 v
  · exact .inl ⟨check_ok h, h⟩
  · right
    refine ⟨?_, h⟩
    rw [checkI64, if_neg]
    exact h

/-- C102: giving a decimal more digits without overflow checks never panics, and gives the same number exactly if that fits 64 bits.
Missing for the full property: numbers that do not fit become other numbers (`C102_scale_violated`). -/
theorem C102_scale_partial (d : Decimal) (s : Nat) (h : d.scale ≤ s) (hs : s ≤ 18) :
    ∃ d', d.setScaleR s = .ok d' ∧ d'.scale = s ∧ (d.scale < s → (SameNumber d d' ↔ RoomFor d (s - d.scale))) := by
  unfold Decimal.setScaleR
  rw [if_neg (by omega)]
  by_cases he : s = d.scale
  · rw [if_pos he]
    exact ⟨d, rfl, he.symm, fun h => by omega⟩
  · rw [if_neg he, factor10, if_pos (by omega)]
    refine ⟨_, rfl, rfl, fun _ => ?_⟩
    have hr : RoomFor d (s - d.scale) ↔ wrapSigned 8 (d.underlying * 10 ^ (s - d.scale)) = d.underlying * 10 ^ (s - d.scale) :=
      (wrap_eq_iff _).symm
    rw [hr]
    simp only [SameNumber]
    have hp : (10 : Int) ^ s = 10 ^ (s - d.scale) * 10 ^ d.scale := by
      rw [← Int.pow_add]
      congr 1
      omega
    have hpos : (10 : Int) ^ d.scale ≠ 0 := Int.pow_ne_zero (by decide)
    rw [hp, ← Int.mul_assoc]
    constructor
    · intro e
      exact (Int.eq_of_mul_eq_mul_right hpos e).symm
    · intro e
      rw [e]

/-- One number with room for the digits and one without. -/
example : (⟨15, .n64, 18, 1⟩ : Decimal).setScaleR 3 = .ok ⟨1500, .n64, 18, 3⟩ ∧ RoomFor ⟨15, .n64, 18, 1⟩ (3 - 1) ∧
    ¬ RoomFor ⟨10 ^ 18, .n64, 18, 0⟩ (1 - 0) := by decide

/-- C102: whatever decimal a build with checks gives when the number of digits is changed, one without gives the same. -/
theorem C102_scale_same (d d' : Decimal) (s : Nat) (h : d.setScale s = .ok d') : d.setScaleR s = .ok d' := by
  unfold Decimal.setScale at h
  unfold Decimal.setScaleR
  split at h
  · rename_i e
    rw [if_pos e]
    exact h
  · rename_i e
    rw [if_neg e]
    split at h
    · rename_i e'
      rw [if_pos e']
      exact h
    · rename_i e'
      rw [if_neg e']
      unfold factor10 at h ⊢
      split at h
      · rename_i hs
        rw [if_pos hs, obind_ok]
        rw [obind_ok] at h
        rcases check_cases (d.underlying * 10 ^ (s - d.scale)) with ⟨h1, hf⟩ | ⟨h1, -⟩
        · rw [h1, obind_ok] at h
          rw [(wrap_eq_iff _).mpr hf]
          exact h
        · rw [h1] at h
          simp at h
      · simp at h

example : (⟨15, .n64, 18, 1⟩ : Decimal).setScale 3 = .ok ⟨1500, .n64, 18, 3⟩ ∧
    (⟨1599, .n64, 18, 3⟩ : Decimal).setScale 1 = .ok ⟨15, .n64, 18, 1⟩ := by decide

/-- C102 fails: 10¹⁸ with one more digit becomes a negative number. -/
theorem C102_scale_violated : ∃ d d', Decimal.new (10 ^ 18) 0 = .ok d ∧ d.setScaleR 1 = .ok d' ∧ ¬ SameNumber d d' ∧
    d'.underlying = -8446744073709551616 := ⟨_, _, rfl, rfl, by decide, rfl⟩

/-- C102: making a decimal of an integer gives, if a build with checks gives one, the same without. -/
theorem C102_of_partial (t : IntTy) (source : Int) (scale : Nat) (d : Decimal) (h : Decimal.of t source scale = .ok d) :
    Decimal.ofR t source scale = .ok d := by
  unfold Decimal.of at h
  unfold Decimal.ofR
  split at h
  · simp at h
  · rename_i hs
    rw [if_neg hs]
    rw [factor10, if_pos (by omega)] at h ⊢
    rw [obind_ok] at h ⊢
    rw [IntTy.scaleBy] at h
    by_cases hh : t.holds (source * t.cast (10 ^ scale)) = true
    · rw [if_pos hh] at h
      have e : t.cast (source * t.cast (10 ^ scale)) = source * t.cast (10 ^ scale) := by simpa [IntTy.holds] using hh
      rw [e]
      exact h
    · rw [if_neg hh] at h
      simp at h

example : Decimal.of ⟨8, true⟩ 15 2 = .ok ⟨1500, .n64, 18, 2⟩ := by decide

/-- C102 fails: 200, an `u8`, with one digit after the point becomes 20.8. -/
theorem C102_of_violated : Decimal.of ⟨1, false⟩ 200 1 = .panic ∧ Decimal.ofR ⟨1, false⟩ 200 1 = .ok ⟨208, .n64, 18, 1⟩ := by decide

/-! ### Times -/

theorem powI64_wrap (e : Nat) : powI64 e = wrapSigned 8 (10 ^ e) := by
  unfold powI64
  split
  · rfl
  · rename_i h
    have : ∃ k : Int, (10 : Int) ^ e = 2 ^ 64 * k := by
      refine ⟨5 ^ 64 * 10 ^ (e - 64), ?_⟩
      rw [← Int.mul_assoc, show (2 : Int) ^ 64 * 5 ^ 64 = 10 ^ 64 by decide, ← Int.pow_add]
      congr 1
      omega
    obtain ⟨k, hk⟩ := this
    rw [hk]
    simp [wrapSigned]

theorem pow_nine {p : Nat} (h : p ≤ 9) : powI64 (ninesLeft p) = 10 ^ (9 - p) := by
  have : ninesLeft p = 9 - p := by
    unfold ninesLeft
    omega
  rw [this]
  have : ∀ k : Fin 10, powI64 k.val = 10 ^ k.val := by decide
  exact this ⟨9 - p, by omega⟩

/-- C102: the instant of a time without overflow checks is, for precisions up to nine, the right one if its nanoseconds fit 64 bits
(and then the build with checks gives the same). Missing for the full property: times that do not fit (`C102_time_violated`), and
other precisions (`C102_precision_violated`). -/
theorem C102_time_partial (v : Int) (p : Nat) (hp : p ≤ 9) (h : -(2 ^ 63) ≤ v * 10 ^ (9 - p)) (h' : v * 10 ^ (9 - p) ≤ 2 ^ 63 - 1) :
    toDatetimeR v p = toDatetime v p ∧
    ∀ s n, toDatetimeR v p = .ok (s, n) → s * 1000000000 + n = v * 10 ^ (9 - p) ∧ n < 1000000000 := by
  have hw : wrapSigned 8 (v * 10 ^ (9 - p)) = v * 10 ^ (9 - p) := (wrap_eq_iff _).mpr ⟨h, h'⟩
  have e : toDatetimeR v p = toDatetime v p := by
    unfold toDatetimeR toDatetime
    rw [if_pos (show p < 19 by omega), if_pos (show p < 19 by omega), if_pos hp, pow_nine hp, hw, check_ok ⟨h, h'⟩]
    rfl
  refine ⟨e, fun s n hs => ?_⟩
  unfold toDatetimeR at hs
  rw [if_pos (show p < 19 by omega), pow_nine hp, hw] at hs
  generalize v * 10 ^ (9 - p) = nano at hs
  dsimp only at hs
  split at hs
  · simp at hs
  · simp only [Out.ok.injEq, Prod.mk.injEq] at hs
    obtain ⟨rfl, rfl⟩ := hs
    rename_i hn
    have h1 := Int.mul_tdiv_add_tmod nano 1000000000
    have h2 := Int.tmod_lt_of_pos nano (show (0 : Int) < 1000000000 by decide)
    constructor
    · omega
    · omega

example : toDatetimeR 1500 3 = .ok (1, 500000000) ∧ -(2 ^ 63) ≤ (1500 : Int) * 10 ^ (9 - 3) := by decide

/-- C102: whatever instant a build with checks gives, for any precision, one without gives the same. -/
theorem C102_time_same (v : Int) (p : Nat) (r : Int × Nat) (h : toDatetime v p = .ok r) : toDatetimeR v p = .ok r := by
  by_cases hp : p < 19
  · by_cases h9 : p ≤ 9
    · rcases check_cases (v * 10 ^ (9 - p)) with ⟨-, hf⟩ | ⟨hc, -⟩
      · rw [(C102_time_partial v p h9 hf.1 hf.2).1]
        exact h
      · unfold toDatetime at h
        rw [if_pos hp, if_pos h9, hc] at h
        simp at h
    · unfold toDatetime at h
      rw [if_pos hp, if_neg h9] at h
      simp at h
  · unfold toDatetime at h
    unfold toDatetimeR
    rw [if_neg hp] at h ⊢
    exact h

example : toDatetime 1500 3 = .ok (1, 500000000) ∧ toDatetime 1500 20 = .ok (0, 0) := by decide

/-- C102 fails: a time so far away that its nanoseconds do not fit 64 bits becomes the last second of 1969. -/
theorem C102_time_violated : toDatetime (2 ^ 63 - 1) 0 = .panic ∧ toDatetimeR (2 ^ 63 - 1) 0 = .ok (-1, 0) := by decide

/-- C102 fails: with a precision from ten to eighteen, which a build with checks refuses by a panic, every time becomes the beginning
of 1970. -/
theorem C102_precision_violated (v : Int) (p : Nat) (h1 : 10 ≤ p) (h2 : p ≤ 18) :
    toDatetime v p = .panic ∧ toDatetimeR v p = .ok (0, 0) := by
  constructor
  · unfold toDatetime
    rw [if_pos (by omega), if_neg (by omega)]
    rfl
  · have : powI64 (ninesLeft p) = 0 := by
      unfold powI64
      rw [if_neg]
      unfold ninesLeft
      omega
    unfold toDatetimeR
    rw [if_pos (show p < 19 by omega), this, Int.mul_zero]
    decide

/-- C102: storing a time is the same without overflow checks for all precisions that a server may use, and for others up to 2³² - 55
a panic in either build, because of a division by zero. -/
theorem C102_store (s : Int) (n p : Nat) (hp : p ≤ 4294967241) : fromDatetimeR s n p = fromDatetime s n p := by
  unfold fromDatetimeR fromDatetime
  by_cases h : p ≤ 9
  · have hpos : (10 : Int) ^ (9 - p) ≠ 0 := Int.pow_ne_zero (by decide)
    simp only [pow_nine h, if_pos h, if_neg hpos]
  · have : powI64 (ninesLeft p) = 0 := by
      unfold powI64
      rw [if_neg]
      unfold ninesLeft
      omega
    simp only [this, if_true, if_neg h]

example : fromDatetimeR 1 500000000 3 = .ok 1500 ∧ fromDatetimeR 1 0 12 = .panic := by decide

/-- C102: comparing times without overflow checks is right for precisions up to nine if the nanoseconds of both fit 64 bits. Missing
for the full property: others (`C102_equal_violated`). -/
theorem C102_equal_partial (a b : Int) (p : Nat) (hp : p ≤ 9) (ha : -(2 ^ 63) ≤ a * 10 ^ (9 - p)) (ha' : a * 10 ^ (9 - p) ≤ 2 ^ 63 - 1)
    (hb : -(2 ^ 63) ≤ b * 10 ^ (9 - p)) (hb' : b * 10 ^ (9 - p) ≤ 2 ^ 63 - 1) : dt64EqR a p b p = .ok (decide (a = b)) := by
  unfold dt64EqR
  rw [if_pos rfl, multiplier, if_pos hp]
  rw [obind_ok, (wrap_eq_iff _).mpr ⟨ha, ha'⟩, (wrap_eq_iff _).mpr ⟨hb, hb'⟩]
  have hpos : (10 : Int) ^ (9 - p) ≠ 0 := Int.pow_ne_zero (by decide)
  congr 1
  by_cases h : a = b
  · simp [h]
  · have : a * 10 ^ (9 - p) ≠ b * 10 ^ (9 - p) := fun e => h (Int.eq_of_mul_eq_mul_right hpos e)
    simp [h, this]

example : dt64EqR 1500 3 1500 3 = .ok true ∧ dt64EqR 1500 3 1501 3 = .ok false := by decide

/-- C102: whatever a build with checks finds of two times, one without finds too. -/
theorem C102_equal_same (a b : Int) (p q : Nat) (r : Bool) (h : dt64Eq a p b q = .ok r) : dt64EqR a p b q = .ok r := by
  unfold dt64Eq at h
  unfold dt64EqR
  split at h
  · rename_i e
    rw [if_pos e]
    unfold multiplier at h ⊢
    split at h
    · rename_i hp
      rw [if_pos hp, obind_ok]
      rw [obind_ok] at h
      rcases check_cases (a * 10 ^ (9 - p)) with ⟨h1, hf⟩ | ⟨h1, -⟩
      · rcases check_cases (b * 10 ^ (9 - p)) with ⟨h2, hg⟩ | ⟨h2, -⟩
        · rw [h1, h2, obind_ok, obind_ok] at h
          rw [(wrap_eq_iff _).mpr hf, (wrap_eq_iff _).mpr hg]
          exact h
        · rw [h1, h2] at h
          simp at h
      · rw [h1] at h
        simp at h
    · simp at h
  · rename_i e
    rw [if_neg e]
    exact h

example : dt64Eq 1500 3 1500 3 = .ok true ∧ dt64Eq 1500 3 1500 4 = .ok false := by decide

/-- C102 fails: two times more than a thousand million years apart compare equal. -/
theorem C102_equal_violated : dt64Eq 0 0 (2 ^ 55) 0 = .panic ∧ dt64EqR 0 0 (2 ^ 55) 0 = .ok true := by decide

/-! ### Arrays whose offsets decrease -/

/-- The offsets around row `i` of an array. -/
def Around (offs : List Nat) (i a b : Nat) : Prop := offs[i]? = some b ∧ ((i = 0 ∧ a = 0) ∨ ∃ j, i = j + 1 ∧ offs[j]? = some a)

theorem around_at {offs : List Nat} {c : Col} {i a b : Nat} (h : Around offs i a b) : (Col.array offs c).at i =
    if b < a then .panic else rangeOut (fun j => c.at j) a b >>= fun vs => pure (.array c.sqlType vs) := by
  obtain ⟨h1, ⟨rfl, rfl⟩ | ⟨j, rfl, h2⟩⟩ := h
  · simp [Col.at, idx, h1]
  · simp [Col.at, idx, h1, h2]

theorem around_atR {sz : Nat} {offs : List Nat} {c : Col} {i a b : Nat} (h : Around offs i a b) : arrayAtR sz offs c i =
    if (2 ^ 64 + b - a) % 2 ^ 64 * sz > isizeMax then .panic
    else rangeOut (fun j => c.at j) a b >>= fun vs => pure (.array c.sqlType vs) := by
  obtain ⟨h1, ⟨rfl, rfl⟩ | ⟨j, rfl, h2⟩⟩ := h
  · simp [arrayAtR, idx, h1]
  · simp [arrayAtR, idx, h1, h2]

/-- C102: a row of an array whose offsets do not decrease there is the same in both builds. -/
theorem C102_array_partial (sz : Nat) (offs : List Nat) (c : Col) (i a b : Nat) (h : Around offs i a b) (hab : a ≤ b) (hb : b < 2 ^ 64)
    (hc : (b - a) * sz < 2 ^ 63) : arrayAtR sz offs c i = (Col.array offs c).at i := by
  have e : (2 ^ 64 + b - a) % 2 ^ 64 = b - a := by omega
  rw [around_at h, around_atR h]
  rw [e, if_neg (by simp only [isizeMax]; omega), if_neg (by omega)]

example : Around [2, 3] 1 2 3 ∧ arrayAtR 32 [2, 3] (.num .u8 [7, 8, 9]) 1 = .ok (.array (.num .u8) [.num .u8 9]) :=
  ⟨⟨rfl, .inr ⟨0, rfl, rfl⟩⟩, rfl⟩

/-- C102 where the offsets decrease: a build with checks panics; one without panics or gives an empty array, and gives that exactly if
the wrapped difference is small enough to be allocated. -/
theorem C102_array_decrease (sz : Nat) (offs : List Nat) (c : Col) (i a b : Nat) (h : Around offs i a b) (hab : b < a) (ha : a < 2 ^ 64) :
    (Col.array offs c).at i = .panic ∧
      arrayAtR sz offs c i = if (2 ^ 64 - (a - b)) * sz < 2 ^ 63 then .ok (.array c.sqlType []) else .panic := by
  have e : (2 ^ 64 + b - a) % 2 ^ 64 = 2 ^ 64 - (a - b) := by omega
  rw [around_at h, around_atR h]
  refine ⟨if_pos hab, ?_⟩
  rw [e]
  by_cases hs : (2 ^ 64 - (a - b)) * sz < 2 ^ 63
  · rw [if_pos hs, if_neg (by simp only [isizeMax]; omega)]
    have : b - a = 0 := by omega
    simp [rangeOut, this, mapOut]
  · rw [if_neg hs, if_pos (by simp only [isizeMax]; omega)]

/-- Offsets that go back a little are a panic in both builds. -/
example : Around [3, 1] 1 3 1 ∧ arrayAtR 32 [3, 1] (.num .u8 [7]) 1 = .panic := ⟨⟨rfl, .inr ⟨0, rfl, rfl⟩⟩, rfl⟩

/-- C102 fails for arrays: a server sends two rows with the offsets 2⁶⁴ - 1 and 0, which are read without an error; the second row is
a panic with checks and an empty array without. -/
theorem C102_array_violated : ∃ bs col, (Plan.array (.num .u8)).load 2 bs = .ok col [] ∧ col = .array [2 ^ 64 - 1, 0] (.num .u8 []) ∧
    col.at 1 = .panic ∧ ∀ sz, sz < 2 ^ 62 → arrayAtR sz [2 ^ 64 - 1, 0] (.num .u8 []) 1 = .ok (.array (.num .u8) []) := by
  have hA : Around [2 ^ 64 - 1, 0] 1 (2 ^ 64 - 1) 0 := ⟨rfl, .inr ⟨0, rfl, rfl⟩⟩
  refine ⟨List.replicate 8 255 ++ List.replicate 8 0, _, rfl, rfl, ?_, fun sz hsz => ?_⟩
  · exact (C102_array_decrease 1 _ (.num .u8 []) _ _ _ hA (by decide) (by decide)).1
  · rw [(C102_array_decrease sz _ (.num .u8 []) _ _ _ hA (by decide) (by decide)).2, if_pos (by omega)]
    rfl

theorem around_map {offs : List Nat} {k v : Col} {i a b : Nat} (h : Around offs i a b) : (Col.map offs k v).at i =
    if b < a then .panic else rangeOut (fun j => k.at j) a b >>= fun ks => rangeOut (fun j => v.at j) a b >>= fun vs =>
      mapBuild ([], []) ks vs >>= fun m => pure (.map k.sqlType v.sqlType m.1 m.2) := by
  obtain ⟨h1, ⟨rfl, rfl⟩ | ⟨j, rfl, h2⟩⟩ := h
  · simp [Col.at, idx, h1]
  · simp [Col.at, idx, h1, h2]

theorem around_mapR {fits : Nat → Bool} {offs : List Nat} {k v : Col} {i a b : Nat} (h : Around offs i a b) : mapAtR fits offs k v i =
    if fits ((2 ^ 64 + b - a) % 2 ^ 64) = false then .panic
    else rangeOut (fun j => k.at j) a b >>= fun ks => rangeOut (fun j => v.at j) a b >>= fun vs =>
      mapBuild ([], []) ks vs >>= fun m => pure (.map k.sqlType v.sqlType m.1 m.2) := by
  obtain ⟨h1, ⟨rfl, rfl⟩ | ⟨j, rfl, h2⟩⟩ := h
  · simp [mapAtR, idx, h1]
  · simp [mapAtR, idx, h1, h2]

/-- C102: a row of a map whose offsets do not decrease there is the same in both builds, if a table of its entries can be had. -/
theorem C102_map_partial (fits : Nat → Bool) (offs : List Nat) (k v : Col) (i a b : Nat) (h : Around offs i a b) (hab : a ≤ b)
    (hb : b < 2 ^ 64) (hc : fits (b - a) = true) : mapAtR fits offs k v i = (Col.map offs k v).at i := by
  have e : (2 ^ 64 + b - a) % 2 ^ 64 = b - a := by omega
  rw [around_map h, around_mapR h, e, hc, if_neg (by simp), if_neg (by omega)]

example : Around [2, 3] 1 2 3 ∧ mapAtR (· < 2 ^ 50) [2, 3] (.num .u8 [7, 8, 9]) (.num .u8 [1, 2, 3]) 1 =
    .ok (.map (.num .u8) (.num .u8) [.num .u8 9] [.num .u8 3]) := ⟨⟨rfl, .inr ⟨0, rfl, rfl⟩⟩, rfl⟩

/-- C102 where the offsets decrease: a build with checks panics; one without panics or gives an empty map, and gives that exactly if a
table for the wrapped difference can be had. -/
theorem C102_map_decrease (fits : Nat → Bool) (offs : List Nat) (k v : Col) (i a b : Nat) (h : Around offs i a b) (hab : b < a)
    (ha : a < 2 ^ 64) : (Col.map offs k v).at i = .panic ∧
      mapAtR fits offs k v i = if fits (2 ^ 64 - (a - b)) = true then .ok (.map k.sqlType v.sqlType [] []) else .panic := by
  have e : (2 ^ 64 + b - a) % 2 ^ 64 = 2 ^ 64 - (a - b) := by omega
  rw [around_map h, around_mapR h]
  refine ⟨if_pos hab, ?_⟩
  rw [e]
  have hz : b - a = 0 := by omega
  cases fits (2 ^ 64 - (a - b)) with
  | true => simp [rangeOut, hz, mapOut, mapBuild]
  | false => simp

/-- Offsets that go back a little. -/
example : Around [3, 1] 1 3 1 ∧ mapAtR (· < 2 ^ 50) [3, 1] (.num .u8 [7]) (.num .u8 [8]) 1 = .panic := ⟨⟨rfl, .inr ⟨0, rfl, rfl⟩⟩, rfl⟩

/-- C102 fails for maps: offsets that go back from 2⁶⁴ - 1 to 0 are a panic with checks and an empty map without. -/
theorem C102_map_violated : ∃ bs col, (Plan.map (.num .u8) (.num .u8)).load 2 bs = .ok col [] ∧
    col = .map [2 ^ 64 - 1, 0] (.num .u8 []) (.num .u8 []) ∧ col.at 1 = .panic ∧
    ∀ fits : Nat → Bool, fits 1 = true → mapAtR fits [2 ^ 64 - 1, 0] (.num .u8 []) (.num .u8 []) 1 = .ok (.map (.num .u8) (.num .u8) [] []) := by
  have hA : Around [2 ^ 64 - 1, 0] 1 (2 ^ 64 - 1) 0 := ⟨rfl, .inr ⟨0, rfl, rfl⟩⟩
  refine ⟨List.replicate 8 255 ++ List.replicate 8 0, _, rfl, rfl, ?_, fun fits hf => ?_⟩
  · exact (C102_map_decrease (fun _ => true) _ (.num .u8 []) (.num .u8 []) _ _ _ hA (by decide) (by decide)).1
  · rw [(C102_map_decrease fits _ (.num .u8 []) (.num .u8 []) _ _ _ hA (by decide) (by decide)).2]
    have : 2 ^ 64 - (2 ^ 64 - 1 - 0) = 1 := by decide
    rw [this, hf]
    rfl

example : ((· < 2 ^ 50) : Nat → Bool) 1 = true := by decide

end CH.Props
