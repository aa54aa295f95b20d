import Verif.Lemmas.ReleasePool

/-!
# C102 and C20: the store of strings in builds without overflow checks
-/

namespace CH.Props

open CH CH.Spec CH.StringPool

/-- C102: without overflow checks, too, a pool holds the strings that were put into it, each inside its chunk and apart from the others,
so that reading them through unchecked pointers is safe. -/
theorem C102_pool_stored (capacity : Nat) (xs : List Bytes) (p0 p : StringPool) (h0 : withCapacity capacity = .ok p0)
    (h : p0.pushAllR xs = .ok p) : Stores p xs ∧ Apart p := by
  unfold withCapacity at h0
  split at h0
  · cases h0
    have := (InvR.empty capacity).pushAll h
    exact ⟨this.stores, this.apart⟩
  · cases h0

example : (match withCapacity 1 with
    | .ok p => (match p.pushAllR [[1], List.replicate 80 2, [3]] with | .ok q => some (q.chunks.map List.length, q.pointers.map (·.shift)) | _ => none)
    | _ => none) = some ([80, 80, 80], [0, 0, 0]) := by decide +kernel

/-- C102: what a server sends makes a pool of as many strings as there are rows, in the same way safe to read. -/
theorem C102_pool_read (rows : Nat) (bs rest : Bytes) (p : StringPool) (h : loadR rows bs = .ok p rest) :
    ∃ xs, xs.length = rows ∧ Stores p xs ∧ Apart p := by
  unfold loadR withCapacity at h
  split at h
  · rename_i p0 h0
    split at h0
    · cases h0
      obtain ⟨xs, hl, hi⟩ := InvR.loadRows rows (InvR.empty rows) h
      rw [List.nil_append] at hi
      exact ⟨xs, hl, hi.stores, hi.apart⟩
    · cases h0
  · cases h
  · cases h

example : (match loadR 2 [1, 97, 2, 98, 99, 7] with | .ok p rest => some (p.get 0, p.get 1, rest) | _ => none) =
    some (.ok (some [97]), .ok (some [98, 99]), [7]) := by decide +kernel

/-- C102: two calls of `allocate` suffice without overflow checks, too. -/
theorem C102_pool_ends (capacity : Nat) (xs : List Bytes) (p0 p : StringPool) (h0 : withCapacity capacity = .ok p0)
    (h : p0.pushAllR xs = .ok p) (size fuel : Nat) (hf : 2 ≤ fuel) : allocateFuelR fuel p size = some (p.allocateR size) := by
  have hi : InvR p ([] ++ xs) := by
    unfold withCapacity at h0
    split at h0
    · cases h0; exact (InvR.empty capacity).pushAll h
    · cases h0
  obtain ⟨f, rfl⟩ : ∃ f, fuel = f + 2 := ⟨fuel - 2, by omega⟩
  unfold StringPool.allocateR
  rcases Inv.room hi size with ⟨b, hb, hs⟩ | hn
  · rw [allocateR_old (p := p) hb (getLast_small hi hb) hs, allocateR_old (p := p) hb (getLast_small hi hb) hs]
  · rw [allocateR_new (p := p) (fun b hb => getLast_small hi hb) hn, allocateR_new (p := p) (fun b hb => getLast_small hi hb) hn]

example : allocateFuelR 9 ⟨[List.replicate 80 0], [], 70, 1⟩ 20 = some (StringPool.allocateR ⟨[List.replicate 80 0], [], 70, 1⟩ 20) := by
  decide +kernel

/-- C102: up to 2⁶⁴ / 80 rows the pools of the two builds are the same. -/
theorem C102_pool_same (capacity : Nat) (hc : capacity * 80 < 2 ^ 64) (xs : List Bytes) (p0 : StringPool) (h0 : withCapacity capacity = .ok p0) :
    p0.pushAllR xs = p0.pushAll xs := by
  unfold withCapacity at h0
  split at h0
  · cases h0
    exact pushAll_same (InvR.empty capacity) hc xs
  · cases h0

example : 1000000 * 80 < 2 ^ 64 ∧ withCapacity 1000000 = .ok ⟨[], [], 0, 1000000⟩ := ⟨by decide, rfl⟩

theorem first_chunk (c L : Nat) (hL : c * 80 % usizeEnd = L) (h : L ≤ isizeMax) :
    ∃ p, StringPool.pushR ⟨[], [], 0, c⟩ [] = .ok p ∧ p.chunks.map List.length = [L] := by
  have e := allocateR_new (p := ⟨[], [], 0, c⟩) (size := 0) (fun b hb => by cases hb) (.inl rfl) 0
  simp only at e
  rw [hL, Nat.max_eq_left (Nat.zero_le _), if_pos h] at e
  refine ⟨_, by simp only [StringPool.pushR, StringPool.allocateR, List.length_nil, e, StringPool.fill]; rfl, ?_⟩
  simp [overwrite]

theorem first_refused (c : Nat) (h : ¬ c * 80 ≤ isizeMax) : StringPool.push ⟨[], [], 0, c⟩ [] = .panic := by
  have e := allocate_new (p := ⟨[], [], 0, c⟩) (size := 0) (.inl rfl) 0
  rw [if_neg (fun hh => h hh.1)] at e
  simp only [StringPool.push, StringPool.allocate, List.length_nil, e]

/-- C102 fails for pools of 2⁵⁸ rows, whose pointers a `Vec` could hold if there were as much memory: with checks the first string is a
panic, without it gets a chunk of 2⁶² bytes. -/
theorem C102_pool_violated : ∃ p0, withCapacity (2 ^ 58) = .ok p0 ∧ p0.push [] = .panic ∧
    ∃ p, p0.pushR [] = .ok p ∧ p.chunks.map List.length = [2 ^ 62] := by
  have h0 : withCapacity (2 ^ 58) = .ok ⟨[], [], 0, 2 ^ 58⟩ := by
    unfold withCapacity
    rw [if_pos (by simp only [isizeMax]; omega)]
  exact ⟨_, h0, first_refused _ (by simp only [isizeMax]; omega), first_chunk _ _ (by simp only [usizeEnd]) (by simp only [isizeMax]; omega)⟩

example : (2 ^ 58) * 24 < 2 ^ 63 ∧ 2 ^ 58 * 80 > 2 ^ 64 := by decide

end CH.Props
