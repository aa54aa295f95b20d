import Verif.Model.Endian
import Verif.Spec.Native
import Verif.Lemmas.Native
import Verif.Lemmas.Column

/-!
# C103: columns of numbers mean the same on every machine
-/

namespace CH.Props

open CH CH.Spec

theorem mem_length (o : Order) (w v : Nat) : (o.mem w v).length = w := by
  cases o <;> simp [Order.mem]

theorem num_mem (o : Order) {w v : Nat} (h : v < 256 ^ w) : o.num (o.mem w v) = v := by
  cases o
  · exact getLE_putLE_lt h
  · simp only [Order.num, Order.mem, List.reverse_reverse]
    exact getLE_putLE_lt h

theorem listBytes_length (o : Order) (w : Nat) (xs : List Nat) : (listBytes o w xs).length = xs.length * w := by
  induction xs with
  | nil => simp [listBytes]
  | cons x xs ih =>
    have : listBytes o w (x :: xs) = o.mem w x ++ listBytes o w xs := rfl
    rw [this, List.length_append, mem_length, ih, List.length_cons, Nat.succ_mul, Nat.add_comm]

theorem listBytes_drop (o : Order) (w : Nat) : ∀ (k : Nat) (xs : List Nat), (listBytes o w xs).drop (k * w) = listBytes o w (xs.drop k)
  | 0, xs => by simp
  | k + 1, [] => by simp [listBytes]
  | k + 1, x :: xs => by
    have : listBytes o w (x :: xs) = o.mem w x ++ listBytes o w xs := rfl
    rw [this, List.drop_succ_cons, ← listBytes_drop o w k xs, Nat.succ_mul, Nat.add_comm, ← List.drop_drop]
    have := mem_length o w x
    congr 1
    rw [List.drop_append_of_le_length (by omega), List.drop_of_length_le (by omega), List.nil_append]

theorem listBytes_take (o : Order) (w : Nat) : ∀ (k : Nat) (xs : List Nat), (listBytes o w xs).take (k * w) = listBytes o w (xs.take k)
  | 0, xs => by simp [listBytes]
  | k + 1, [] => by simp [listBytes]
  | k + 1, x :: xs => by
    have e : listBytes o w (x :: xs) = o.mem w x ++ listBytes o w xs := rfl
    have e' : listBytes o w (x :: xs.take k) = o.mem w x ++ listBytes o w (xs.take k) := rfl
    have := mem_length o w x
    rw [e, List.take_succ_cons, e', ← listBytes_take o w k xs, Nat.succ_mul, Nat.add_comm, List.take_append,
      List.take_of_length_le (by omega), this, Nat.add_sub_cancel_left]

/-- What is sent is the memory of the rows that are asked for. -/
theorem saveData_eq (o : Order) {w : Nat} (hw : 0 < w) (xs : List Nat) (s e : Nat) :
    saveData o w xs s e = (slice xs s e).bind fun ys => .ok (listBytes o w ys) := by
  unfold saveData slice
  rw [listBytes_length]
  by_cases h : s ≤ e ∧ e ≤ xs.length
  · rw [if_pos h, if_pos ⟨Nat.mul_le_mul_right w h.1, Nat.mul_le_mul_right w h.2⟩]
    simp only [Out.bind]
    rw [listBytes_drop, ← Nat.sub_mul, listBytes_take]
  · rw [if_neg h, if_neg]
    · rfl
    · intro ⟨h1, h2⟩
      exact h ⟨Nat.le_of_mul_le_mul_right h1 hw, Nat.le_of_mul_le_mul_right h2 hw⟩

/-- C103 on little-endian machines: the bytes of the rows asked for are sent, and those of each number are what servers take for that
number: as many as the type is wide, the least significant first. -/
theorem C103_little_partial (w : Nat) (hw : 0 < w) (xs : List Nat) (hx : ∀ x ∈ xs, x < 256 ^ w) (s e : Nat) (h : s ≤ e) (he : e ≤ xs.length) :
    ∃ words : List Bytes, saveData .little w xs s e = .ok words.flatten ∧ words.length = e - s ∧
      ∀ i b, words[i]? = some b → ∃ x, xs[s + i]? = some x ∧ Word w x b := by
  refine ⟨((xs.drop s).take (e - s)).map (putLE w), ?_, ?_, ?_⟩
  · rw [saveData_eq _ hw, slice, if_pos ⟨h, he⟩]
    simp only [Out.bind, listBytes, List.flatMap_def]
    rfl
  · simp
    omega
  · intro i b hb
    simp only [List.getElem?_map, Option.map_eq_some_iff] at hb
    obtain ⟨x, hx', rfl⟩ := hb
    rw [List.getElem?_take] at hx'
    split at hx'
    · rw [List.getElem?_drop] at hx'
      exact ⟨x, hx', word_put (hx x (List.mem_of_getElem? hx'))⟩
    · simp at hx'

example : saveData .little 4 [7, 1, 258] 1 3 = .ok [1, 0, 0, 0, 2, 1, 0, 0] ∧ ∀ x ∈ [7, 1, 258], x < 256 ^ 4 := by decide

/-- C103: the models of columns elsewhere are those of little-endian machines. -/
theorem C103_models (w : Nat) (hw : 0 < w) (xs : List Nat) (s e : Nat) :
    saveData .little w xs s e = saveNums w xs s e ∧ loadList .little w = loadNums w := by
  refine ⟨saveData_eq .little hw xs s e, ?_⟩
  have key : ∀ n bs, splitMem .little w n bs = splitLE w n bs := by
    intro n
    induction n with
    | zero => intro; rfl
    | succ n ih =>
      intro bs
      rw [splitMem, splitLE, ih]
      rfl
  funext size
  unfold loadList loadNums
  simp only [key]

example : loadList .little 2 2 [1, 0, 2, 1, 9] = .ok [1, 258] [9] ∧ loadNums 2 2 [1, 0, 2, 1, 9] = .ok [1, 258] [9] := ⟨rfl, rfl⟩

theorem splitMem_listBytes (o : Order) (w : Nat) : ∀ xs : List Nat, (∀ x ∈ xs, x < 256 ^ w) →
    splitMem o w xs.length (listBytes o w xs) = xs
  | [], _ => rfl
  | x :: xs, h => by
    have e : listBytes o w (x :: xs) = o.mem w x ++ listBytes o w xs := rfl
    have hl := mem_length o w x
    rw [List.length_cons, splitMem, e, List.take_append_of_le_length (by omega), List.take_of_length_le (by omega),
      List.drop_append_of_le_length (by omega), List.drop_of_length_le (by omega), List.nil_append,
      splitMem_listBytes o w xs (fun y hy => h y (by simp [hy])), num_mem o (h x (by simp))]

/-- C103 on any one machine: a column of numbers that is sent and comes back byte for byte is the column that was sent. -/
theorem C103_own (o : Order) (w : Nat) (xs : List Nat) (rest : Bytes) (hx : ∀ x ∈ xs, x < 256 ^ w) (hl : xs.length * w < 2 ^ 63) :
    loadList o w xs.length (listBytes o w xs ++ rest) = .ok xs rest := by
  have h1 : alloc (xs.length * w) (listBytes o w xs ++ rest) = .ok () (listBytes o w xs ++ rest) := by
    rw [alloc, if_pos (by simp only [isizeMax]; omega)]
  have hb := listBytes_length o w xs
  have h2 : readN (xs.length * w) (listBytes o w xs ++ rest) = .ok (listBytes o w xs) rest := by
    rw [readN, if_pos (by simp [hb]), ← hb, List.take_left, List.drop_left]
  unfold loadList
  rw [bind_ok h1, bind_ok h2]
  show Res.ok (splitMem o w xs.length (listBytes o w xs)) rest = _
  rw [splitMem_listBytes o w xs hx]

example : listBytes .big 2 [1, 258] = [0, 1, 1, 2] ∧ loadList .big 2 2 ([0, 1, 1, 2] ++ [9]) = .ok [1, 258] [9] := ⟨rfl, rfl⟩

/-- C103: exactly those columns are sent right from any machine whose numbers read the same in both directions. -/
theorem C103_exactly_partial (o : Order) (w : Nat) (xs : List Nat) :
    listBytes o w xs = listBytes .little w xs ↔ o = .little ∨ ∀ x ∈ xs, (putLE w x).reverse = putLE w x := by
  cases o with
  | little => simp
  | big =>
    simp only [reduceCtorEq, false_or]
    induction xs with
    | nil => simp [listBytes]
    | cons x xs ih =>
      have e : ∀ o : Order, listBytes o w (x :: xs) = o.mem w x ++ listBytes o w xs := fun _ => rfl
      rw [e, e]
      constructor
      · intro h
        obtain ⟨h1, h2⟩ := List.append_inj h (by rw [mem_length, mem_length])
        intro y hy
        rcases List.mem_cons.mp hy with rfl | hy
        · exact h1
        · exact ih.mp h2 y hy
      · intro h
        rw [ih.mpr fun y hy => h y (by simp [hy])]
        congr 1
        exact h x (by simp)

/-- Columns of bytes, and zeroes. -/
example : (∀ x ∈ [1, 2, 200], (putLE 1 x).reverse = putLE 1 x) ∧ ∀ x ∈ [0, 0], (putLE 8 x).reverse = putLE 8 x := by decide

/-- C103 fails on big-endian machines: the number 1 in a column of type `UInt32` is what servers take for 16777216. -/
theorem C103_numbers_violated : ∃ b, saveData .big 4 [1] 0 1 = .ok b ∧ Word 4 16777216 b ∧ ¬ Word 4 1 b := by
  refine ⟨[0, 0, 0, 1], rfl, ⟨rfl, rfl⟩, ?_⟩
  intro h
  have := h.2
  revert this
  decide

/-- C103 fails on big-endian machines even without a server: the offset of an array of one number is sent with the least significant
byte first and read the other way, so that the array has 2⁵⁶ numbers. -/
theorem C103_offsets_violated : loadList .big 8 1 (saveOffsets [1]) = .ok [2 ^ 56] [] ∧ loadList .little 8 1 (saveOffsets [1]) = .ok [1] [] :=
  ⟨rfl, rfl⟩

end CH.Props
