import Verif.Spec.Column
import Verif.Lemmas.Wire

/-! Saving and loading columns. -/

namespace CH
open Spec

@[simp] theorem obind_ok (a : α) (f : α → Out β) : (Out.ok a >>= f) = f a := rfl
@[simp] theorem obind_err (e : Err) (f : α → Out β) : ((Out.err e : Out α) >>= f) = .err e := rfl
@[simp] theorem obind_panic (f : α → Out β) : ((Out.panic : Out α) >>= f) = .panic := rfl
@[simp] theorem opure (a : α) : (pure a : Out α) = .ok a := rfl

theorem obind_eq_ok {x : Out α} {f : α → Out β} {b : β} (h : (x >>= f) = .ok b) : ∃ a, x = .ok a ∧ f a = .ok b := by
  cases x with
  | ok a => exact ⟨a, rfl, h⟩
  | err e => simp at h
  | panic => simp at h

theorem slice_ok {l : List α} {s e : Nat} (h : s ≤ e) (h2 : e ≤ l.length) :
    slice l s e = .ok ((l.drop s).take (e - s)) := by
  rw [slice, if_pos ⟨h, h2⟩]

theorem numsBytes_length (w : Nat) (xs : List Nat) : (numsBytes w xs).length = xs.length * w := by
  induction xs with
  | nil => simp [numsBytes]
  | cons x xs ih =>
    have : numsBytes w (x :: xs) = putLE w x ++ numsBytes w xs := rfl
    rw [this, List.length_append, ih, putLE_length, List.length_cons, Nat.succ_mul]; omega

theorem splitLE_numsBytes {w : Nat} {xs : List Nat} (h : ∀ x ∈ xs, x < 256 ^ w) :
    splitLE w xs.length (numsBytes w xs) = xs := by
  induction xs with
  | nil => rfl
  | cons x xs ih =>
    have hc : numsBytes w (x :: xs) = putLE w x ++ numsBytes w xs := rfl
    have hl := putLE_length w x
    rw [List.length_cons, splitLE, hc, List.take_append_of_le_length (by omega), List.take_of_length_le (by omega),
      getLE_putLE_lt (h x (by simp)), List.drop_append_of_le_length (by omega), List.drop_of_length_le (by omega),
      List.nil_append, ih (fun x hx => h x (by simp [hx]))]

theorem room {n w : Nat} (hn : n < 2 ^ 56) (hw : w ≤ 80) : n * w < 2 ^ 63 := by
  have := Nat.mul_le_mul_left n hw
  omega

theorem NumTy.width_le (t : NumTy) : t.width ≤ 80 := by cases t <;> decide
theorem EnumW.width_le (w : EnumW) : w.width ≤ 80 := by cases w <;> decide
theorem NoBits.width_le (w : NoBits) : w.width ≤ 80 := by cases w <;> decide
theorem IdxTy.width_le (w : IdxTy) : w.width ≤ 80 := by cases w <;> decide

theorem loadNums_put {w : Nat} {xs : List Nat} (h : ∀ x ∈ xs, x < 256 ^ w) (rest : Bytes) {n : Nat} (hn : xs.length = n)
    (hm : n * w < 2 ^ 63) : loadNums w n (numsBytes w xs ++ rest) = .ok xs rest := by
  subst hn
  rw [loadNums, bind_ok (alloc_ok hm _), bind_ok (readN_append' _ _ (numsBytes_length w xs)), splitLE_numsBytes h]; rfl

theorem mem_sub {l : List α} {s n : Nat} {x : α} (h : x ∈ (l.drop s).take n) : x ∈ l :=
  List.mem_of_mem_drop (List.mem_of_mem_take h)

theorem length_sub {l : List α} {s e : Nat} (h2 : e ≤ l.length) : ((l.drop s).take (e - s)).length = e - s := by
  simp; omega

theorem readMany_put {p : Reader α} {enc : α → Bytes} {xs : List α}
    (h : ∀ x ∈ xs, ∀ rest, p (enc x ++ rest) = .ok x rest) (rest : Bytes) {n : Nat} (hn : xs.length = n) :
    readMany p n (xs.flatMap enc ++ rest) = .ok xs rest := by
  induction xs generalizing n with
  | nil => subst hn; rfl
  | cons x xs ih =>
    subst hn
    rw [List.length_cons, readMany, List.flatMap_cons, List.append_assoc, bind_ok (h x (by simp) _),
      bind_ok (ih (fun x hx => h x (by simp [hx])) rfl)]
    rfl

theorem readMany_fixed {n k : Nat} {b : Bytes} (h : b.length = k * n) (rest : Bytes) :
    ∃ xs : List Bytes, readMany (readN n) k (b ++ rest) = .ok xs rest ∧ xs.flatten = b := by
  induction k generalizing b with
  | zero =>
    have : b = [] := by simpa using h
    exact ⟨[], by rw [this]; rfl, by rw [this]; rfl⟩
  | succ k ih =>
    have hb : b = b.take n ++ b.drop n := (List.take_append_drop n b).symm
    rw [Nat.succ_mul] at h
    have h1 : (b.take n).length = n := by rw [List.length_take]; omega
    obtain ⟨xs, h2, h3⟩ := ih (b := b.drop n) (by rw [List.length_drop]; omega)
    refine ⟨b.take n :: xs, ?_, by rw [List.flatten_cons, h3]; exact hb.symm⟩
    rw [readMany, show b ++ rest = b.take n ++ (b.drop n ++ rest) by rw [← List.append_assoc, ← hb],
      bind_ok (readN_append' _ _ h1), bind_ok h2]
    rfl

theorem idx_ok {l : List α} {i : Nat} (h : i < l.length) : idx l i = .ok l[i] := by
  rw [idx, List.getElem?_eq_getElem h]

theorem mapOut_ok {f : α → Out β} {g : α → β} {l : List α} (h : ∀ a ∈ l, f a = .ok (g a)) : mapOut f l = .ok (l.map g) := by
  induction l with
  | nil => rfl
  | cons a l ih => rw [mapOut, h a (by simp), obind_ok, ih (fun a ha => h a (by simp [ha]))]; rfl

theorem mapOut_congr {f g : α → Out β} {l : List α} (h : ∀ a ∈ l, f a = g a) : mapOut f l = mapOut g l := by
  induction l with
  | nil => rfl
  | cons a l ih => rw [mapOut, mapOut, h a (by simp), ih (fun a ha => h a (by simp [ha]))]

theorem rangeOut_congr {f g : Nat → Out β} {s e : Nat} (h : ∀ i, s ≤ i → i < e → f i = g i) : rangeOut f s e = rangeOut g s e := by
  apply mapOut_congr
  intro a ha
  simp only [List.mem_range'_1] at ha
  exact h a (by omega) (by omega)

theorem rangeOut_shift {f g : Nat → Out β} {s e k : Nat} (h : ∀ i, s ≤ i → i < e → f i = g (k + i)) :
    rangeOut f s e = rangeOut g (k + s) (k + e) := by
  unfold rangeOut
  rw [show k + e - (k + s) = e - s by omega]
  generalize hn : e - s = n
  induction n generalizing s with
  | zero => rfl
  | succ n ih =>
    rw [List.range'_succ, List.range'_succ, mapOut, mapOut, h s (by omega) (by omega),
      ih (fun i h1 h2 => h i (by omega) h2) (by omega)]
    rfl

theorem rangeOut_idx {l : List α} {s e : Nat} (h2 : e ≤ l.length) :
    rangeOut (idx l) s e = .ok ((l.drop s).take (e - s)) := by
  unfold rangeOut
  generalize hn : e - s = n
  induction n generalizing s with
  | zero => simp [mapOut]
  | succ n ih =>
    rw [List.range'_succ, mapOut, idx_ok (by omega), obind_ok, ih (s := s + 1) (by omega), obind_ok]
    rw [List.drop_eq_getElem_cons (i := s) (by omega), List.take_succ_cons]
    rfl

/-- Last offset of rows `s..e`. -/
theorem lastOff_sub {offs : List Nat} {s e : Nat} (h : s ≤ e) (h2 : e ≤ offs.length) (h0 : elemsBefore offs s = 0) :
    lastOff ((offs.drop s).take (e - s)) = elemsBefore offs e := by
  unfold lastOff
  by_cases hse : s = e
  · subst hse; simp [h0]
  · unfold elemsBefore
    have : offs.take e = offs.take s ++ (offs.drop s).take (e - s) := by
      rw [← List.take_add, Nat.add_sub_cancel' h]
    have hne : (offs.drop s).take (e - s) ≠ [] := by
      intro hn
      have := congrArg List.length hn
      simp at this
      omega
    rw [this, List.getLast?_append]
    cases h1 : ((offs.drop s).take (e - s)).getLast? with
    | none => exact absurd (List.getLast?_eq_none_iff.mp h1) hne
    | some y => rfl

/-- The column that loading the bytes of rows `s..e` yields. -/
def Col.sub (tz : Tz) : Col → Nat → Nat → Col
  | .num t xs, s, e => .num t ((xs.drop s).take (e - s))
  | .str xs, s, e => .str ((xs.drop s).take (e - s))
  | .fixed n buf, s, e => .fixed n ((buf.drop (s * n)).take (e * n - s * n))
  | .date _ xs, s, e => .date tz ((xs.drop s).take (e - s))
  | .datetime _ xs, s, e => .datetime tz ((xs.drop s).take (e - s))
  | .ip k buf, s, e => .ip k ((buf.drop (s * k.size)).take (e * k.size - s * k.size))
  | .nullable nulls c, s, e => .nullable ((nulls.drop s).take (e - s)) (c.sub tz s e)
  | .array offs c, s, e => .array ((offs.drop s).take (e - s)) (c.sub tz 0 (elemsBefore offs e))
  | .map offs k v, s, e =>
    .map ((offs.drop s).take (e - s)) (k.sub tz 0 (elemsBefore offs e)) (v.sub tz 0 (elemsBefore offs e))
  | .decimal p sc nb xs, s, e => .decimal p sc nb ((xs.drop s).take (e - s))
  | .enum w items xs, s, e => .enum w items ((xs.drop s).take (e - s))
  | .simpleAgg f c, s, e => .simpleAgg f (c.sub tz s e)
  | .lowCard ity index d _, s, e =>
    if e - s = 0 then .lowCard .u8 [] (d.sub tz 0 0) none
    else match d.len with
      | .ok n => .lowCard ity ((index.drop s).take (e - s)) (d.sub tz 0 n) none
      | _ => .lowCard ity ((index.drop s).take (e - s)) d none
  | .chunk c cs _, s, e => c.sub tz (cs + s) (cs + e)
  | c, _, _ => c

theorem elemsBefore_mono {offs : List Nat} (h : offs.Pairwise (· ≤ ·)) {a b : Nat} (hab : a ≤ b) :
    elemsBefore offs a ≤ elemsBefore offs b := by
  unfold elemsBefore
  have hp : offs.take a <+: offs.take b := List.take_prefix_take_left hab
  obtain ⟨t, ht⟩ := hp
  rw [← ht]
  cases t with
  | nil => simp
  | cons x t =>
    have hpw : (offs.take b).Pairwise (· ≤ ·) := h.sublist (List.take_sublist b offs)
    rw [← ht, List.pairwise_append] at hpw
    rw [List.getLast?_append]
    cases h1 : (offs.take a).getLast? with
    | none => simp
    | some y =>
      cases h2 : (x :: t).getLast? with
      | none => simp at h2
      | some z =>
        simp only [Option.some_or, Option.getD_some]
        exact hpw.2.2 y (List.mem_of_mem_getLast? h1) z (List.mem_of_mem_getLast? h2)

theorem elemsBefore_zero (offs : List Nat) : elemsBefore offs 0 = 0 := by simp [elemsBefore]

theorem Spec.Savable.shrink {tz : Tz} {c : Col} {s e e' : Nat} (h : Savable tz c s e) (h1 : s ≤ e') (h2 : e' ≤ e) :
    Savable tz c s e' := by
  induction c generalizing s e e' with
  | num t xs => exact ⟨h1, by have := h.2.1; omega, h.2.2⟩
  | str xs => exact ⟨h1, by have := h.2.1; omega, h.2.2⟩
  | fixed n buf => exact ⟨h.1, h1, Nat.le_trans (Nat.mul_le_mul_right n h2) h.2.2⟩
  | date z xs => exact ⟨h1, by have := h.2.1; omega, h.2.2⟩
  | datetime z xs => exact ⟨h.1, h1, by have := h.2.2.1; omega, h.2.2.2⟩
  | ip k buf => exact ⟨h1, Nat.le_trans (Nat.mul_le_mul_right _ h2) h.2⟩
  | nullable nulls c ih => exact ⟨by have := h.1; omega, ih h.2 h1 h2⟩
  | array offs c ih =>
    obtain ⟨a1, a2, a3, a4, a5, a6⟩ := h
    exact ⟨h1, by omega, a3, a4, a5, ih a6 (by omega) (elemsBefore_mono a4 h2)⟩
  | map offs k v ihk ihv =>
    obtain ⟨a1, a2, a3, a4, a5, a6, a7⟩ := h
    exact ⟨h1, by omega, a3, a4, a5, ihk a6 (by omega) (elemsBefore_mono a4 h2), ihv a7 (by omega) (elemsBefore_mono a4 h2)⟩
  | decimal p sc nb xs => exact ⟨h.1, h1, by have := h.2.2.1; omega, h.2.2.2⟩
  | enum w items xs => exact ⟨h1, by have := h.2.1; omega, h.2.2⟩
  | simpleAgg f c ih => exact ih h h1 h2
  | lowCard ity index d vm ih =>
    obtain ⟨a1, a2, a3, a4⟩ := h
    exact ⟨h1, by omega, by omega, a4⟩
  | chunk c cs ce ih => exact ⟨by have := h.1; omega, ih h.2 (by omega) (by omega)⟩
  | _ => exact absurd h (by simp [Savable])

theorem Spec.Savable.le {tz : Tz} {c : Col} {s e : Nat} (h : Savable tz c s e) : s ≤ e := by
  induction c generalizing s e with
  | num t xs => exact h.1
  | str xs => exact h.1
  | fixed n buf => exact h.2.1
  | date z xs => exact h.1
  | datetime z xs => exact h.2.1
  | ip k buf => exact h.1
  | nullable nulls c ih => exact ih h.2
  | array offs c ih => exact h.1
  | map offs k v ihk ihv => exact h.1
  | decimal p sc nb xs => exact h.2.1
  | enum w items xs => exact h.1
  | simpleAgg f c ih => exact ih h
  | lowCard ity index d vm ih => exact h.1
  | chunk c cs ce ih => have := ih h.2; omega
  | _ => exact absurd h (by simp [Savable])

theorem saveNums_ok {w : Nat} {xs : List Nat} {s e : Nat} (h : s ≤ e) (h2 : e ≤ xs.length) :
    saveNums w xs s e = .ok (numsBytes w ((xs.drop s).take (e - s))) := by
  rw [saveNums, slice_ok h h2]; rfl

theorem fromFlags_lcFlags (ity : IdxTy) : IdxTy.fromFlags (lcFlags ity) = some ity := by cases ity <;> rfl
theorem lcFlags_bits (ity : IdxTy) : lcFlags ity / 2 ^ 8 % 2 = 0 ∧ lcFlags ity / 2 ^ 9 % 2 = 1 ∧ lcFlags ity < 256 ^ 8 := by
  cases ity <;> decide

/-- An empty range is sent as nothing. -/
theorem save_nothing {tz : Tz} {c : Col} {s : Nat} (h : Savable tz c s s) : c.save s s = .ok [] := by
  induction c generalizing s with
  | num t xs => rw [Col.save, saveNums_ok h.1 h.2.1]; simp [numsBytes]
  | str xs => rw [Col.save, if_neg (by have := h.2.1; omega)]; simp
  | fixed n buf => rw [Col.save, slice_ok (Nat.le_refl _) h.2.2]; simp
  | date z xs => rw [Col.save, saveNums_ok h.1 h.2.1]; simp [numsBytes]
  | datetime z xs => rw [Col.save, saveNums_ok h.2.1 h.2.2.1]; simp [numsBytes]
  | ip k buf => rw [Col.save, slice_ok (Nat.le_refl _) h.2]; simp
  | nullable nulls c ih => rw [Col.save, slice_ok (Nat.le_refl _) h.1, obind_ok, ih h.2]; simp
  | array offs c ih =>
    obtain ⟨h1, h2, h3, h4, h5, h6⟩ := h
    rw [h5] at h6
    rw [Col.save, rangeOut_idx h2, obind_ok]
    simp [ih h6, numsBytes]
  | map offs k v ihk ihv =>
    obtain ⟨h1, h2, h3, h4, h5, h6, h7⟩ := h
    rw [h5] at h6 h7
    rw [Col.save, rangeOut_idx h2, obind_ok]
    simp [ihk h6, ihv h7, numsBytes]
  | decimal p sc nb xs => rw [Col.save, saveNums_ok h.2.1 h.2.2.1]; simp [numsBytes]
  | enum w items xs => rw [Col.save, saveNums_ok h.1 h.2.1]; simp [numsBytes]
  | simpleAgg f c ih => exact ih h
  | lowCard ity index d vm ih => rw [Col.save, if_pos rfl]
  | chunk c cs ce ih => rw [Col.save, Nat.min_eq_right h.1]; exact ih h.2
  | _ => exact absurd h (by simp [Savable])

/-- Saving succeeds, and loading the bytes gives the selected rows and leaves what follows. -/
theorem save_load {tz : Tz} {c : Col} {s e : Nat} (h : Savable tz c s e) (hm : InMemory c) :
    ∃ bytes, c.save s e = .ok bytes ∧
      ∀ rest, (planOf tz c.sqlType).load (e - s) (bytes ++ rest) = .ok (c.sub tz s e) rest := by
  induction c generalizing s e with
  | num t xs =>
    obtain ⟨h1, h2, h3⟩ := h
    refine ⟨_, saveNums_ok h1 h2, fun rest => ?_⟩
    rw [Col.sqlType, planOf, Plan.load, bind_ok (loadNums_put (fun x hx => h3 x (mem_sub hx)) _ (length_sub h2)
      (room (by simp only [InMemory] at hm; omega) (NumTy.width_le _)))]; rfl
  | str xs =>
    obtain ⟨h1, h2, h3⟩ := h
    refine ⟨_, by rw [Col.save, if_neg (by omega)], fun rest => ?_⟩
    simp only [InMemory] at hm
    rw [Col.sqlType, planOf, Plan.load, bind_ok (alloc_ok (by omega) _),
      bind_ok (readMany_put (enc := putBytes) (fun x hx rest => readBytesLP_put _ x rest (by omega) (h3 x (mem_sub hx))) _ (length_sub h2))]
    rfl
  | fixed n buf =>
    obtain ⟨h0, h1, h2⟩ := h
    have hmul : s * n ≤ e * n := Nat.mul_le_mul_right n h1
    refine ⟨_, slice_ok hmul h2, fun rest => ?_⟩
    have hl : ((buf.drop (s * n)).take (e * n - s * n)).length = (e - s) * n := by
      rw [length_sub h2, Nat.sub_mul]
    obtain ⟨xs, hx, hf⟩ := readMany_fixed hl rest
    rw [Col.sqlType, planOf, Plan.load, bind_ok (alloc_ok (by
      have := length_sub (l := buf) (s := s * n) h2
      have hm : buf.length < 2 ^ 63 := hm
      rw [← hl, this]; omega) _), bind_ok hx, hf]; rfl
  | date z xs =>
    obtain ⟨h1, h2, h3⟩ := h
    refine ⟨_, saveNums_ok h1 h2, fun rest => ?_⟩
    rw [Col.sqlType, planOf, Plan.load, bind_ok (loadNums_put (fun x hx => h3 x (mem_sub hx)) _ (length_sub h2)
      (room (by simp only [InMemory] at hm; omega) (by decide)))]; rfl
  | datetime z xs =>
    obtain ⟨h0, h1, h2, h3⟩ := h
    refine ⟨_, saveNums_ok h1 h2, fun rest => ?_⟩
    rw [Col.sqlType, planOf, Plan.load, bind_ok (loadNums_put (fun x hx => h3 x (mem_sub hx)) _ (length_sub h2)
      (room (by simp only [InMemory] at hm; omega) (by decide)))]; rfl
  | ip k buf =>
    obtain ⟨h1, h2⟩ := h
    have hmul : s * k.size ≤ e * k.size := Nat.mul_le_mul_right _ h1
    refine ⟨_, slice_ok hmul h2, fun rest => ?_⟩
    have hl : ((buf.drop (s * k.size)).take (e * k.size - s * k.size)).length = (e - s) * k.size := by
      rw [length_sub h2, Nat.sub_mul]
    rw [Col.sqlType, planOf, Plan.load, bind_ok (alloc_ok (by
      have := length_sub (l := buf) (s := s * k.size) h2
      have hm : buf.length < 2 ^ 63 := hm
      rw [← hl, this]; omega) _), bind_ok (readN_append' _ _ hl)]; rfl
  | nullable nulls c ih =>
    obtain ⟨h1, h2⟩ := h
    obtain ⟨b, hb, hl⟩ := ih h2 hm.2
    have hm1 : nulls.length < 2 ^ 56 := hm.1
    refine ⟨(nulls.drop s).take (e - s) ++ b, by rw [Col.save, slice_ok h2.le h1, obind_ok, hb]; rfl, fun rest => ?_⟩
    rw [Col.sqlType, planOf, Plan.load, List.append_assoc, bind_ok (alloc_ok (by omega) _), bind_ok (readN_append' _ _ (length_sub h1)),
      bind_ok (hl rest)]
    rfl
  | array offs c ih =>
    obtain ⟨h1, h2, h3, h4, h5, h6⟩ := h
    obtain ⟨b, hb, hl⟩ := ih h6 hm.2
    have hm1 : offs.length < 2 ^ 56 := hm.1
    have hlast : lastOff ((offs.drop s).take (e - s)) = elemsBefore offs e := lastOff_sub h1 h2 h5
    refine ⟨numsBytes 8 ((offs.drop s).take (e - s)) ++ b, ?_, fun rest => ?_⟩
    · rw [Col.save, rangeOut_idx h2, obind_ok]
      rw [show ((offs.drop s).take (e - s)).getLast?.getD 0 = elemsBefore offs e from hlast, hb]; rfl
    · rw [Col.sqlType, planOf, Plan.load, List.append_assoc,
        bind_ok (loadNums_put (fun x hx => h3 x (mem_sub hx)) _ (length_sub h2) (room (by omega) (by decide))), hlast, bind_ok (by simpa using hl rest)]
      rfl
  | map offs k v ihk ihv =>
    obtain ⟨h1, h2, h3, h4, h5, h6, h7⟩ := h
    obtain ⟨b, hb, hl⟩ := ihk h6 hm.2.1
    obtain ⟨b', hb', hl'⟩ := ihv h7 hm.2.2
    have hm1 : offs.length < 2 ^ 56 := hm.1
    have hlast : lastOff ((offs.drop s).take (e - s)) = elemsBefore offs e := lastOff_sub h1 h2 h5
    refine ⟨numsBytes 8 ((offs.drop s).take (e - s)) ++ b ++ b', ?_, fun rest => ?_⟩
    · rw [Col.save, rangeOut_idx h2, obind_ok]
      rw [show ((offs.drop s).take (e - s)).getLast?.getD 0 = elemsBefore offs e from hlast, hb, obind_ok, hb']; rfl
    · rw [Col.sqlType, planOf, Plan.load, List.append_assoc, List.append_assoc,
        bind_ok (loadNums_put (fun x hx => h3 x (mem_sub hx)) _ (length_sub h2) (room (by omega) (by decide))), hlast, bind_ok (by simpa using hl _), bind_ok (by simpa using hl' rest)]
      rfl
  | decimal p sc nb xs =>
    obtain ⟨h0, h1, h2, h3⟩ := h
    refine ⟨_, saveNums_ok h1 h2, fun rest => ?_⟩
    rw [Col.sqlType, planOf, Plan.load, ← h0, bind_ok (loadNums_put (fun x hx => h3 x (mem_sub hx)) _ (length_sub h2)
      (room (by simp only [InMemory] at hm; omega) (NoBits.width_le _)))]; rfl
  | enum w items xs =>
    obtain ⟨h1, h2, h3⟩ := h
    refine ⟨_, saveNums_ok h1 h2, fun rest => ?_⟩
    rw [Col.sqlType, planOf, Plan.load, bind_ok (loadNums_put (fun x hx => h3 x (mem_sub hx)) _ (length_sub h2)
      (room (by simp only [InMemory] at hm; omega) (EnumW.width_le _)))]; rfl
  | simpleAgg f c ih =>
    obtain ⟨b, hb, hl⟩ := ih h hm
    refine ⟨b, hb, fun rest => ?_⟩
    rw [Col.sqlType, planOf, Plan.load, bind_ok (hl rest)]; rfl
  | lowCard ity index d vm ih =>
    obtain ⟨h1, h2, h3, n, hn, hn64, hix, hd⟩ := h
    by_cases hse : s = e
    · subst hse
      obtain ⟨b0, hb0, hl0⟩ := ih (hd.shrink (e' := 0) (by omega) (by omega)) hm.2
      rw [save_nothing (hd.shrink (by omega) (by omega))] at hb0
      injection hb0 with hb0
      subst hb0
      refine ⟨[], by rw [Col.save, if_pos rfl], fun rest => ?_⟩
      rw [Col.sqlType, planOf, Plan.load, if_pos (by omega), bind_ok (hl0 rest), Col.sub, if_pos (by omega)]; rfl
    · obtain ⟨b, hb, hl⟩ := ih hd hm.2
      have hm1 : index.length < 2 ^ 56 := hm.1
      refine ⟨putLE 8 1 ++ putLE 8 (lcFlags ity) ++ putLE 8 n ++ b ++ putLE 8 (e - s) ++
        numsBytes ity.width ((index.drop s).take (e - s)), ?_, fun rest => ?_⟩
      · rw [Col.save, if_neg hse, hn, obind_ok, hb, obind_ok, if_neg (by omega), saveNums_ok h1 h2]; rfl
      · have hf := lcFlags_bits ity
        rw [Col.sqlType, planOf, Plan.load, if_neg (by omega)]
        simp only [List.append_assoc]
        rw [bind_ok (readLE_put (by decide) _), if_neg (by decide), bind_ok (readLE_put hf.2.2 _), fromFlags_lcFlags]
        simp only
        rw [if_neg (by rw [hf.1]; decide), if_neg (by rw [hf.2.1]; decide), bind_ok (readLE_put (by rw [pow256]; omega) _),
          bind_ok (by simpa using hl _), bind_ok (readLE_put (by rw [pow256]; omega) _),
          bind_ok (loadNums_put (fun x hx => (hix x (mem_sub hx)).2) _ (length_sub h2) (room (by omega) (IdxTy.width_le _))),
          if_pos trivial]
        rw [Col.sub, if_neg (by omega), hn]; rfl
  | chunk c cs ce ih =>
    obtain ⟨h1, h2⟩ := h
    obtain ⟨b, hb, hl⟩ := ih h2 hm
    refine ⟨b, by rw [Col.save, Nat.min_eq_right h1]; exact hb, fun rest => ?_⟩
    have := hl rest
    rw [show cs + e - (cs + s) = e - s by omega] at this
    exact this
  | _ => exact absurd h (by simp [Savable])

theorem sub_sqlType {tz : Tz} {c : Col} {s e : Nat} (h : Savable tz c s e) : (c.sub tz s e).sqlType = c.sqlType := by
  induction c generalizing s e with
  | nullable nulls c ih => rw [Col.sub, Col.sqlType, ih h.2, Col.sqlType]
  | array offs c ih => rw [Col.sub, Col.sqlType, ih h.2.2.2.2.2, Col.sqlType]
  | map offs k v ihk ihv => rw [Col.sub, Col.sqlType, ihk h.2.2.2.2.2.1, ihv h.2.2.2.2.2.2, Col.sqlType]
  | simpleAgg f c ih => rw [Col.sub, Col.sqlType, ih h, Col.sqlType]
  | lowCard ity index d vm ih =>
    obtain ⟨h1, h2, h3, n, hn, hn64, hix, hd⟩ := h
    rw [Col.sub]
    split
    · rw [Col.sqlType, ih (hd.shrink (by omega) (by omega)), Col.sqlType]
    · rw [hn]; simp only; rw [Col.sqlType, ih hd, Col.sqlType]
  | chunk c cs ce ih => exact ih h.2
  | _ => first | rfl | exact absurd h (by simp [Savable])

theorem sub_len {tz : Tz} {c : Col} {s e : Nat} (h : Savable tz c s e) : (c.sub tz s e).len = .ok (e - s) := by
  induction c generalizing s e with
  | num t xs => rw [Col.sub, Col.len, length_sub h.2.1]
  | str xs => rw [Col.sub, Col.len, length_sub h.2.1]
  | fixed n buf =>
    rw [Col.sub, Col.len, if_neg (by have := h.1; omega), length_sub h.2.2, ← Nat.sub_mul, Nat.mul_div_cancel _ h.1]
  | date z xs => rw [Col.sub, Col.len, length_sub h.2.1]
  | datetime z xs => rw [Col.sub, Col.len, length_sub h.2.2.1]
  | ip k buf =>
    rw [Col.sub, Col.len, length_sub h.2, ← Nat.sub_mul, Nat.mul_div_cancel _ (by cases k <;> decide)]
  | nullable nulls c ih => rw [Col.sub, Col.len, ih h.2, obind_ok, length_sub h.1, if_pos rfl]; rfl
  | array offs c ih => rw [Col.sub, Col.len, length_sub h.2.1]
  | map offs k v ihk ihv => rw [Col.sub, Col.len, length_sub h.2.1]
  | decimal p sc nb xs => rw [Col.sub, Col.len, length_sub h.2.2.1]
  | enum w items xs => rw [Col.sub, Col.len, length_sub h.2.1]
  | simpleAgg f c ih => exact ih h
  | lowCard ity index d vm ih =>
    obtain ⟨h1, h2, h3, n, hn, hn64, hix, hd⟩ := h
    rw [Col.sub]
    split
    · rename_i h0; rw [Col.len, h0]; rfl
    · rw [hn]; simp only; rw [Col.len, length_sub h2]
  | chunk c cs ce ih => rw [Col.sub, ih h.2]; congr 1; omega
  | _ => exact absurd h (by simp [Savable])

theorem idx_sub {l : List α} {s n i : Nat} (h : i < n) : idx ((l.drop s).take n) i = idx l (s + i) := by
  unfold idx
  rw [List.getElem?_take_of_lt h, List.getElem?_drop]

theorem slice_sub {l : List α} {s e a b : Nat} (h0 : s ≤ e) (h1 : a ≤ b) (h2 : b ≤ e - s) (h3 : e ≤ l.length) :
    slice ((l.drop s).take (e - s)) a b = slice l (s + a) (s + b) := by
  rw [slice_ok h1 (by rw [length_sub h3]; exact h2), slice_ok (by omega) (by omega)]
  rw [List.drop_take, List.drop_drop, List.take_take]
  congr 2
  omega

theorem elemsBefore_succ {offs : List Nat} {i : Nat} (h : i < offs.length) : elemsBefore offs (i + 1) = offs[i] := by
  unfold elemsBefore
  rw [← List.take_append_getElem h, List.getLast?_append]
  rfl

/-- The start of row `i` in an array or map column. -/
theorem rowStart_eq {offs : List Nat} {i : Nat} (h : i < offs.length) :
    (if i > 0 then idx offs (i - 1) else Out.ok 0) = .ok (elemsBefore offs i) := by
  cases i with
  | zero => simp [elemsBefore_zero]
  | succ i =>
    rw [if_pos (by omega), Nat.add_sub_cancel, idx_ok (by omega), elemsBefore_succ]

theorem elemsBefore_sub {offs : List Nat} {s e i : Nat} (h : i ≤ e - s) (h0 : elemsBefore offs s = 0) :
    elemsBefore ((offs.drop s).take (e - s)) i = elemsBefore offs (s + i) := by
  by_cases hi : s + i ≤ offs.length
  · rw [← lastOff_sub (Nat.le_add_right s i) hi h0]
    unfold elemsBefore lastOff
    rw [List.take_take, Nat.min_eq_left h, Nat.add_sub_cancel_left]
  · unfold elemsBefore at *
    rw [List.take_take, Nat.min_eq_left h]
    by_cases hs : offs.length ≤ s
    · rw [List.take_of_length_le hs] at h0
      rw [List.take_of_length_le (l := offs) (by omega), h0, List.drop_of_length_le hs]; simp
    · have h1 : offs = offs.take s ++ offs.drop s := (List.take_append_drop s offs).symm
      rw [List.take_of_length_le (l := offs.drop s) (by simp; omega), List.take_of_length_le (l := offs) (by omega)]
      rw [congrArg List.getLast? h1, List.getLast?_append]
      cases h2 : (offs.drop s).getLast? with
      | none => simp at h2; omega
      | some y => rfl

theorem at_array (offs : List Nat) (c : Col) (i : Nat) : (Col.array offs c).at i =
    ((if i > 0 then idx offs (i - 1) else Out.ok 0) >>= fun start => idx offs i >>= fun stop =>
      if stop < start then Out.panic
      else rangeOut (fun j => c.at j) start stop >>= fun vs => pure (.array c.sqlType vs)) := by
  rw [Col.at]; split <;> rfl

theorem at_map (offs : List Nat) (k v : Col) (i : Nat) : (Col.map offs k v).at i =
    ((if i > 0 then idx offs (i - 1) else Out.ok 0) >>= fun start => idx offs i >>= fun stop =>
      if stop < start then Out.panic
      else rangeOut (fun j => k.at j) start stop >>= fun ks => rangeOut (fun j => v.at j) start stop >>= fun vs =>
        mapBuild ([], []) ks vs >>= fun m => pure (.map k.sqlType v.sqlType m.1 m.2)) := by
  rw [Col.at]; split <;> rfl

theorem sub_at {tz : Tz} {c : Col} {s e : Nat} (h : Savable tz c s e) {i : Nat} (hi : i < e - s) :
    (c.sub tz s e).at i = c.at (s + i) := by
  induction c generalizing s e i with
  | num t xs => rw [Col.sub, Col.at, Col.at, idx_sub hi]
  | str xs => rw [Col.sub, Col.at, Col.at, idx_sub hi]
  | fixed n buf =>
    obtain ⟨h0, h1, h2⟩ := h
    have hm : (i + 1) * n ≤ (e - s) * n := Nat.mul_le_mul_right n hi
    rw [Col.sub, Col.at, Col.at, slice_sub (Nat.mul_le_mul_right n h1) (by omega) (by rw [← Nat.sub_mul]; rw [Nat.succ_mul] at hm; exact hm) h2,
      Nat.add_mul, Nat.add_assoc]
  | date z xs => rw [Col.sub, Col.at, Col.at, idx_sub hi]
  | datetime z xs => rw [Col.sub, Col.at, Col.at, idx_sub hi, h.1]
  | ip k buf =>
    obtain ⟨h1, h2⟩ := h
    have hm : (i + 1) * k.size ≤ (e - s) * k.size := Nat.mul_le_mul_right _ hi
    rw [Col.sub, Col.at, Col.at, slice_sub (Nat.mul_le_mul_right _ h1) (Nat.mul_le_mul_right _ (by omega)) (by rw [← Nat.sub_mul]; exact hm) h2,
      ← Nat.add_mul, ← Nat.add_mul, Nat.add_assoc]
  | nullable nulls c ih => rw [Col.sub, Col.at, Col.at, idx_sub hi, sub_sqlType h.2, ih h.2 hi]
  | array offs c ih =>
    obtain ⟨h1, h2, h3, h4, h5, h6⟩ := h
    rw [Col.sub, at_array, at_array, rowStart_eq (by rw [length_sub h2]; exact hi), rowStart_eq (by omega), idx_sub hi,
      elemsBefore_sub (by omega) h5, sub_sqlType h6, idx_ok (by omega : s + i < offs.length)]
    simp only [obind_ok]
    rw [← elemsBefore_succ (by omega : s + i < offs.length)]
    rw [rangeOut_congr (g := fun j => c.at j)]
    intro j _ hj
    have := elemsBefore_mono h4 (show s + i + 1 ≤ e by omega)
    rw [ih h6 (by omega), Nat.zero_add]
  | map offs k v ihk ihv =>
    obtain ⟨h1, h2, h3, h4, h5, h6, h7⟩ := h
    rw [Col.sub, at_map, at_map, rowStart_eq (by rw [length_sub h2]; exact hi), rowStart_eq (by omega), idx_sub hi,
      elemsBefore_sub (by omega) h5, sub_sqlType h6, sub_sqlType h7, idx_ok (by omega : s + i < offs.length)]
    simp only [obind_ok]
    rw [← elemsBefore_succ (by omega : s + i < offs.length)]
    have hle := elemsBefore_mono h4 (show s + i + 1 ≤ e by omega)
    rw [rangeOut_congr (g := fun j => k.at j), rangeOut_congr (f := fun j => (Col.sub tz v 0 _).at j) (g := fun j => v.at j)]
    · intro j _ hj; rw [ihv h7 (by omega), Nat.zero_add]
    · intro j _ hj; rw [ihk h6 (by omega), Nat.zero_add]
  | decimal p sc nb xs => rw [Col.sub, Col.at, Col.at, idx_sub hi]
  | enum w items xs => rw [Col.sub, Col.at, Col.at, idx_sub hi]
  | simpleAgg f c ih => exact ih h hi
  | lowCard ity index d vm ih =>
    obtain ⟨h1, h2, h3, n, hn, hn64, hix, hd⟩ := h
    rw [Col.sub, if_neg (by omega), hn]
    simp only
    rw [Col.at, Col.at, idx_sub hi, idx_ok (by omega : s + i < index.length), obind_ok, obind_ok,
      ih hd (by have := (hix index[s + i] (List.getElem_mem _)).1; omega), Nat.zero_add]
  | chunk c cs ce ih =>
    obtain ⟨h1, h2⟩ := h
    rw [Col.sub, ih h2 (by omega), Col.at, if_neg (by omega)]
    congr 1; omega
  | _ => exact absurd h (by simp [Savable])

end CH
