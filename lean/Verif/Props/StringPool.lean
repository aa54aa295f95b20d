import Verif.Lemmas.StringPool
import Verif.Model.Load

/-! C20: the string store. -/

namespace CH.Props
open CH.Spec CH.StringPool

/-- **C20**: any strings pushed one after the other into a pool of any capacity can be read back, row by row, and no two rows
overlap – whenever the pushes succeed at all. -/
theorem C20_stored (capacity : Nat) (xs : List Bytes) (p0 p : StringPool) (h0 : withCapacity capacity = .ok p0)
    (h : p0.pushAll xs = .ok p) : Stores p xs ∧ Apart p := by
  have hi : Inv p0 [] := by
    unfold withCapacity at h0; split at h0
    · cases h0; exact Inv.empty _
    · cases h0
  rcases hi.pushAll xs with ⟨e, _⟩ | ⟨p', e, hi', _⟩
  · rw [e] at h; cases h
  · rw [e] at h; cases h
    exact ⟨hi'.stores, hi'.apart⟩

/-- **C20**: the pushes succeed for every capacity and all strings the standard library can allocate at all. -/
theorem C20_succeeds (capacity : Nat) (xs : List Bytes) (h : Allocatable capacity xs) :
    ∃ p0 p, withCapacity capacity = .ok p0 ∧ p0.pushAll xs = .ok p := by
  have e : withCapacity capacity = .ok ⟨[], [], 0, capacity⟩ := by
    unfold withCapacity; rw [if_pos (by have := h.1; simp only [isizeMax]; omega)]
  rcases (Inv.empty capacity).pushAll xs with ⟨_, hn⟩ | ⟨p, hp, _⟩
  · exact absurd h hn
  · exact ⟨_, p, e, hp⟩

example : Allocatable 2 [List.replicate 100 1, [], List.replicate 61 2, [3]] ∧
    (match (StringPool.mk [] [] 0 2).pushAll [List.replicate 100 1, [], List.replicate 61 2, [3]] with
      | .ok p => (p.pointers, p.get 2)
      | _ => ([], .panic)) =
    ([⟨0, 0, 100⟩, ⟨0, 100, 0⟩, ⟨1, 0, 61⟩, ⟨1, 61, 1⟩], .ok (some (List.replicate 61 2))) :=
  ⟨⟨by decide, by decide⟩, by decide +kernel⟩

/-- **C20**, pools built from a vector (`From<Vec<T>>`). -/
theorem C20_of_list (xs : List Bytes) (h : Allocatable xs.length xs) : ∃ p, ofList xs = .ok p ∧ Stores p xs ∧ Apart p := by
  obtain ⟨p0, p, h0, hp⟩ := C20_succeeds xs.length xs h
  refine ⟨p, by simp only [ofList, h0, hp], C20_stored _ _ _ _ h0 hp⟩

example : Allocatable 3 [[1], [], [2, 3]] := ⟨by decide, by decide⟩

/-- **C20**: pushing more strings never changes the rows already there. -/
theorem C20_push_keeps (capacity : Nat) (xs ys : List Bytes) (p0 p p' : StringPool) (h0 : withCapacity capacity = .ok p0)
    (h : p0.pushAll xs = .ok p) (h' : p.pushAll ys = .ok p') (i : Nat) (hi : i < p.len) : p'.get i = p.get i := by
  have hall : ∀ (xs : List Bytes) (p0 : StringPool), p0.pushAll xs = .ok p → p0.pushAll (xs ++ ys) = .ok p' := by
    intro xs
    induction xs with
    | nil => intro p0 h; cases h; exact h'
    | cons x xs ih =>
      intro p0 h
      simp only [List.cons_append, pushAll] at h ⊢
      cases hp : p0.push x with
      | ok p1 => rw [hp] at h; exact ih p1 h
      | err e => rw [hp] at h; cases h
      | panic => rw [hp] at h; cases h
  have s1 := (C20_stored _ _ _ _ h0 h).1
  have s2 := (C20_stored _ _ _ _ h0 (hall xs p0 h)).1
  have hx : xs[i]? = some (xs[i]'(by rw [← s1.1]; exact hi)) := List.getElem?_eq_getElem _
  rw [(s1.2.1 i _ hx).1, (s2.2.1 i _ (by rw [List.getElem?_append_left (by rw [← s1.1]; exact hi)]; exact hx)).1]

example : ∃ p p', (StringPool.mk [] [] 0 0).pushAll [[1, 2]] = .ok p ∧ p.pushAll [[], [5, 6, 7]] = .ok p' ∧ 0 < p.len ∧
    p'.get 0 = .ok (some [1, 2]) := ⟨_, _, rfl, rfl, by decide, by decide⟩

/-- **C20**: even a slot that is only partly written (the reader ran out of bytes) leaves all earlier rows alone. -/
theorem C20_short_write (capacity : Nat) (xs : List Bytes) (p0 p p1 p2 : StringPool) (q : StringPtr) (size : Nat) (s : Bytes)
    (h0 : withCapacity capacity = .ok p0) (h : p0.pushAll xs = .ok p) (ha : p.allocate size = .ok (p1, q))
    (hf : p1.fill q s = .ok p2) (i : Nat) (hi : i < xs.length) : p2.get i = p.get i := by
  have hi0 : Inv p0 [] := by
    unfold withCapacity at h0; split at h0
    · cases h0; exact Inv.empty _
    · cases h0
  rcases hi0.pushAll xs with ⟨e, _⟩ | ⟨p', e, hp, _⟩
  · rw [e] at h; cases h
  · rw [e] at h; cases h
    rcases hp.allocate size with ⟨e, _⟩ | ⟨p1', q', s0, e, hq, hl, hi1, _, hpp⟩
    · rw [e] at ha; cases ha
    · rw [e] at ha; cases ha
      have hs : s.length ≤ q.len := by
        unfold fill at hf; split at hf
        · assumption
        · cases hf
      obtain ⟨p2', s', e2, i2, _⟩ := hi1.fill (q := q) (s := s) (by rw [hpp]; simp) hs
      rw [e2] at hf; cases hf
      have hx : ([] ++ xs)[i]? = some xs[i] := by simp [List.getElem?_eq_getElem hi]
      rw [(hp.stores.2.1 i _ hx).1, (i2.stores.2.1 i _ (by rw [List.getElem?_append_left (by simpa using hi)]; exact hx)).1]

example : ∃ p1 q p2, (StringPool.mk [[9, 9, 0]] [⟨0, 0, 2⟩] 2 0).allocate 1 = .ok (p1, q) ∧ p1.fill q [] = .ok p2 ∧
    p2.get 0 = .ok (some [9, 9]) := ⟨_, _, _, rfl, rfl, by decide⟩

/-- **C20**: the recursion in `allocate` ends after at most two calls, for every reachable pool and every size. -/
theorem C20_allocate_ends (capacity : Nat) (xs : List Bytes) (p0 p : StringPool) (h0 : withCapacity capacity = .ok p0)
    (h : p0.pushAll xs = .ok p) (size fuel : Nat) (hf : 2 ≤ fuel) : allocateFuel fuel p size = some (p.allocate size) := by
  have hi0 : Inv p0 [] := by
    unfold withCapacity at h0; split at h0
    · cases h0; exact Inv.empty _
    · cases h0
  rcases hi0.pushAll xs with ⟨e, _⟩ | ⟨p', e, hp, _⟩
  · rw [e] at h; cases h
  · rw [e] at h; cases h
    obtain ⟨k, rfl⟩ : ∃ k, fuel = k + 2 := ⟨fuel - 2, by omega⟩
    unfold StringPool.allocate
    rcases hp.room size with ⟨b, hb, hs⟩ | hn
    · rw [allocate_old hb (getLast_small hp hb) hs, allocate_old hb (getLast_small hp hb) hs]
    · rw [allocate_new hn, allocate_new hn]

example : allocateFuel 7 ⟨[], [], 0, 0⟩ 0 = some ((StringPool.mk [] [] 0 0).allocate 0) := by decide

/-- **C20**, receiving: reading a string column into a pool gives the pool holding exactly the strings on the wire, and asks for more
data, fails or panics exactly when the reader of columns, which keeps the strings in a list, does. -/
theorem C20_load (size : Nat) (bs : Bytes) :
    (∃ p xs rest, load size bs = .ok p rest ∧ Plan.string.load size bs = .ok (.str xs) rest ∧ Stores p xs ∧ Apart p) ∨
    (load size bs = .more ∧ Plan.string.load size bs = .more) ∨
    (∃ e r, load size bs = .err e r ∧ Plan.string.load size bs = .err e r) ∨
    (load size bs = .panic ∧ Plan.string.load size bs = .panic) := by
  have hp : Plan.string.load size bs = Reader.bind (alloc (size * 24)) (fun _ => Reader.bind (readMany (readBytesLP (size * 80)) size)
    (fun xs => Reader.pure (.str xs))) bs := rfl
  rw [hp]
  unfold load Reader.bind alloc
  by_cases hw : size * 24 ≤ isizeMax
  · rw [withCapacity, if_pos hw, if_pos hw]
    simp only
    rcases loadRows_spec size (Inv.empty size) bs with ⟨e, e'⟩ | ⟨p', ss, rest, e, e', hj⟩ | ⟨e, e'⟩ | ⟨x, r, e, e'⟩
    · rw [e, e']; exact .inr (.inr (.inr ⟨rfl, rfl⟩))
    · rw [e, e']; exact .inl ⟨p', ss, rest, rfl, rfl, hj.stores, hj.apart⟩
    · rw [e, e']; exact .inr (.inl ⟨rfl, rfl⟩)
    · rw [e, e']; exact .inr (.inr (.inl ⟨x, r, rfl, rfl⟩))
  · rw [withCapacity, if_neg hw, if_neg hw]
    exact .inr (.inr (.inr ⟨rfl, rfl⟩))

example : (match load 2 [1, 97, 2, 98, 99, 7] with | .ok p r => (r, p.get 1) | _ => ([], .panic)) = ([7], .ok (some [98, 99])) := by
  decide +kernel

/-- **C20**, sending: saving rows of a pool writes what the column of the list of strings writes, and never reads outside the
store. -/
theorem C20_save (p : StringPool) (xs : List Bytes) (h : Stores p xs) (start stop : Nat) (hs : start ≤ stop) :
    (∃ b, p.save start stop = .ok (some b) ∧ (Col.str xs).save start stop = .ok b) := by
  refine ⟨((xs.drop start).take (stop - start)).flatMap putBytes, ?_, ?_⟩
  · simp only [save, collect_spec h, if_neg (Nat.not_lt.mpr hs), List.drop_zero]
    rw [← foldr_some]
    congr 2
    rw [← List.map_drop, ← List.map_take]
    congr 1
    rw [List.drop_take, List.take_take, Nat.min_self]
  · rw [Col.save, if_neg (Nat.not_lt.mpr hs)]

example : (match ofList [[1], [], [2, 3]] with | .ok p => p.save 1 3 | _ => .panic) = .ok (some [0, 2, 2, 3]) := by decide +kernel

/-- **C20** fails for hostile input: a string length above `isize::MAX` sent by the server panics in `allocate` ("capacity
overflow") instead of waiting for bytes that will never come or reporting an error. -/
theorem C20_hostile_length_violated :
    load 1 [0x80, 0x80, 0x80, 0x80, 0x80, 0x80, 0x80, 0x80, 0x80, 0x01] = .panic := by
  decide

/-- **C20** fails for hostile input: so does a row count the pool cannot reserve room for. -/
theorem C20_hostile_rows_violated (rows : Nat) (h : 2 ^ 63 ≤ rows * 80) (bs : Bytes) (n : Nat) (rest : Bytes)
    (hb : readUvarint bs = .ok n rest) : load rows bs = .panic := by
  unfold load
  cases hw : withCapacity rows with
  | err e => unfold withCapacity at hw; split at hw <;> cases hw
  | panic => rfl
  | ok p0 =>
    unfold withCapacity at hw; split at hw
    · cases hw
      obtain ⟨k, rfl⟩ : ∃ k, rows = k + 1 := ⟨rows - 1, by omega⟩
      show Reader.bind (readInto _) (loadRows k) bs = .panic
      have : (StringPool.mk [] [] 0 (k + 1)).allocate n = .panic := by
        unfold allocate
        rw [allocate_new (.inl rfl), if_neg (by simp only [isizeMax]; omega)]
      unfold Reader.bind readInto
      rw [hb]
      simp only [this]
    · cases hw

example : 2 ^ 63 ≤ (2 ^ 60) * 80 ∧ readUvarint [0] = .ok 0 [] := ⟨by decide, by decide⟩

end CH.Props
