import Verif.Lemmas.Demand2
import Verif.Props.Block

/-!
# C106: the memory asked for and the data that came
-/

namespace CH.Props

open CH CH.Spec

/-- C106: the readers with the memory they ask for are the readers of columns: they end in the same way, at the same place. -/
theorem C106_same (known : Tz → Bool) (tz : Tz) (name : Str) (size : Nat) (bs : Bytes) :
    ((resolve known tz name).demand size bs).1.done = (loadData known tz name size bs).done ∧ (readStringM bs).1 = readString bs :=
  ⟨demand_same _ _ _, readStringM_same bs⟩

example : (Plan.array (.num .u8)).demand 1 [2, 0, 0, 0, 0, 0, 0, 0, 7, 8, 9] = (.ok () [9], 10) ∧
    (Plan.array (.num .u8)).load 1 [2, 0, 0, 0, 0, 0, 0, 0, 7, 8, 9] = .ok (.array [2] (.num .u8 [7, 8])) [9] := ⟨rfl, rfl⟩

/-- C106, what holds: a column that has been read to its end, of whatever type and however nested, with its name and that of its type,
has asked for at most 184 times the bytes that it was read from. -/
theorem C106_read_partial (known : Tz → Bool) (tz : Tz) (size : Nat) (bs rest : Bytes) (k : Nat)
    (h : readColumnM known tz size bs = (.ok () rest, k)) : k + 184 * rest.length ≤ 184 * bs.length :=
  (readStringM_lin.bind fun _ => readStringM_lin.bind fun _ => demand_lin _ _) bs () rest k h

/-- A string of two letters takes 24 bytes for its place and a chunk of 80. -/
example : Plan.string.demand 1 [2, 97, 98, 7] = (.ok () [7], 104) := by decide +kernel

/-- C106 from below: what has been read is kept. The plan of a column that has been read asked for at least the bytes that it was read
from, but for the 32 bytes of numbers before each part of low cardinality. -/
theorem C106_kept (p : Plan) (size : Nat) (bs rest : Bytes) (k : Nat) (h : p.demand size bs = (.ok () rest, k)) :
    bs.length ≤ rest.length + k + 32 * p.lowCards := demand_keeps p size bs () rest k h

/-- One row of low cardinality: its dictionary of one number and its index take a byte each, of the 34 that came. -/
example : (Plan.lowCard (.num .u8)).demand 1 (putLE 8 1 ++ putLE 8 (lcFlags .u8) ++ putLE 8 1 ++ [7] ++ putLE 8 1 ++ [0]) =
    (.ok () [], 2) ∧ (Plan.lowCard (.num .u8)).lowCards = 1 := by
  decide +kernel

/-- C106: columns whose rows all take the same number of bytes take no more memory than they have bytes on the wire. -/
theorem C106_numbers (w size : Nat) (bs rest : Bytes) (xs : List Nat) (k : Nat) (h : loadNumsM w size bs = (.ok xs rest, k)) :
    k = size * w ∧ k + rest.length = bs.length := by
  obtain ⟨u, r1, k1, k2, h1, h2, rfl⟩ := mbind_ok h
  simp only [Metered.take, alloc, Prod.mk.injEq] at h1
  obtain ⟨h1, rfl⟩ := h1
  simp only [Metered.free, Prod.mk.injEq] at h2
  obtain ⟨h2, rfl⟩ := h2
  split at h1
  · cases h1
    rw [if_pos ‹_›]
    obtain ⟨b, r, h3, h4⟩ := bind_eq_ok h2
    cases h4
    exact ⟨rfl, readN_used h3⟩
  · cases h1

example : loadNumsM 2 2 [1, 0, 2, 1, 9] = (.ok [1, 258] [9], 4) := rfl

/-- C106 for columns of servers that send what they announce: however the bytes come in pieces, no attempt to read them takes more
memory than the column will take in the end, which is at most 184 times its bytes. -/
theorem C106_pieces (known : Tz → Bool) (tz : Tz) (size : Nat) (first more rest : Bytes) (k : Nat)
    (h : readColumnM known tz size (first ++ more) = (.ok () rest, k)) :
    (readColumnM known tz size first).2 ≤ k ∧ k ≤ 184 * (first ++ more).length := by
  have hm : MonoM (readColumnM known tz size) := readStringM_mono.bind fun _ => readStringM_mono.bind fun _ => demand_mono _ _
  refine ⟨?_, ?_⟩
  · have := hm.le first more
    rwa [h] at this
  · have := C106_read_partial known tz size _ rest k h
    omega

/-- The first nine bytes of an array of two numbers. -/
example : (Plan.array (.num .u8)).demand 1 [2, 0, 0, 0, 0, 0, 0, 0, 7] = (.more, 10) ∧
    (Plan.array (.num .u8)).demand 1 ([2, 0, 0, 0, 0, 0, 0, 0, 7] ++ [8]) = (.ok () [], 10) := ⟨rfl, rfl⟩

/-- C106 for blocks, which have any number of columns: a block that has been read asked for at most 184 times its bytes, and no attempt
to read it, while only a part of it had come, asked for more than that. -/
theorem C106_block_partial (known : Tz → Bool) (tz : Tz) (first more rest : Bytes) (b : Block) (h : rawLoad known tz (first ++ more) = .ok b rest) :
    ∃ k, rawLoadM known tz (first ++ more) = (.ok () rest, k) ∧ k + 184 * rest.length ≤ 184 * (first ++ more).length ∧
      (rawLoadM known tz first).2 ≤ k := by
  have e : rawLoadM known tz (first ++ more) = (.ok () rest, (rawLoadM known tz (first ++ more)).2) := Prod.ext (rawLoadM_ok h) rfl
  exact ⟨_, e, rawLoadM_lin known tz _ _ _ _ e, (rawLoadM_mono known tz).le first more⟩

/-- A block of two columns and three rows, of which the first ten bytes have come. -/
example (known : Tz → Bool) : ∃ first more b, rawLoad known "UTC".toList (first ++ more) = .ok b [] ∧ Rect b 3 := by
  obtain ⟨bytes, _, h⟩ := C10_block_roundtrip_partial known "UTC".toList 3 sampleBlock (sampleBlock_ok known)
  obtain ⟨b, h1, _, _, _, h5, _⟩ := h []
  rw [List.append_nil] at h1
  exact ⟨bytes.take 10, bytes.drop 10, b, by rw [List.take_append_drop]; exact h1, h5⟩

/-- C106 for the store of strings: whatever strings are put into it in whatever order, its chunks take at most three times their bytes
and 160 bytes for each row that was announced. -/
theorem C106_pool (capacity : Nat) (ss : List Bytes) (p p' : StringPool) (h0 : StringPool.withCapacity capacity = .ok p) (h : p.pushAll ss = .ok p') :
    (p'.chunks.map List.length).sum ≤ 3 * (ss.map List.length).sum + 160 * capacity := by
  unfold StringPool.withCapacity at h0
  split at h0
  · cases h0
    obtain ⟨hf, hc⟩ := StringPool.pushAll_frugal ss (StringPool.Inv.empty capacity) (u := 0) ⟨.inl rfl⟩ h
    have := hf.room
    rw [hc] at this
    simp only [StringPool.room] at this
    omega
  · cases h0

/-- Three strings, the second of which does not fit the rest of the first chunk. -/
example : (match StringPool.withCapacity 1 with
    | .ok p => (match p.pushAll [[1], List.replicate 80 2, [3]] with | .ok q => q.chunks.map List.length | _ => [])
    | _ => []) = [80, 80, 80] := by decide +kernel

/-- C106 fails while the data has not come: a text of which nothing but its length has come takes all its memory, however much that
is. -/
theorem C106_text_violated (n : Nat) (h : n < 2 ^ 63) (hn : 0 < n) : readStringM (putUvarint n) = (.more, n) ∧ (putUvarint n).length ≤ 10 := by
  constructor
  · have hu : readUvarint (putUvarint n) = .ok n [] := by
      have := readUvarint_put (v := n) (by omega) []
      rwa [List.append_nil] at this
    have h1 : n ≤ isizeMax := by simp only [isizeMax]; omega
    have h2 : ¬ n ≤ ([] : Bytes).length := by simp; omega
    unfold readStringM
    simp only [mbind_run, Metered.free, hu, Metered.take, alloc, if_pos h1, readN, if_neg h2]
    simp
  · exact (putUvarint_length (by omega)).2

example : (2 ^ 62 : Nat) < 2 ^ 63 ∧ (putUvarint (2 ^ 62)).length = 9 := by decide +kernel

/-- C106 fails for columns in the same way: the number of rows alone, which stands before all columns, takes the memory of the rows. -/
theorem C106_rows_violated (rows : Nat) (h : 0 < rows) (h8 : rows * 8 < 2 ^ 63) : (Plan.num .u64).demand rows [] = (.more, rows * 8) := by
  have h1 : rows * 8 ≤ isizeMax := by simp only [isizeMax]; omega
  have h2 : ¬ rows * 8 ≤ ([] : Bytes).length := by simp; omega
  have hw : NumTy.u64.width = 8 := rfl
  simp only [Plan.demand, loadNumsM, mbind_run, Metered.take, alloc, hw, if_pos h1, Metered.free, bind_run, readN, if_neg h2]
  rfl

example : 0 < 2 ^ 59 ∧ 2 ^ 59 * 8 < 2 ^ 63 := by decide

/-- C106 fails for the attempts taken together: with every piece that comes the message is read from its beginning, and the memory of
the whole text is taken anew. A text of `n` bytes that comes byte by byte takes `n` times `n` bytes. -/
theorem C106_again_violated (n : Nat) (body : Bytes) (h : n < 2 ^ 63) (cuts : List Nat) :
    (cuts.map fun c => (readStringM (putUvarint n ++ body.take c)).2).sum = cuts.length * n := by
  have key : ∀ c, (readStringM (putUvarint n ++ body.take c)).2 = n := by
    intro c
    have h1 : n ≤ isizeMax := by simp only [isizeMax]; omega
    have e : ∀ f : Bytes → Metered String, (∀ b r, (f b r).2 = 0) →
        ((Metered.take n).bind (fun _ => (Metered.free (readN n)).bind f) (body.take c)).2 = n := by
      intro f hf
      simp only [mbind_run, Metered.take, alloc, if_pos h1, Metered.free]
      cases readN n (body.take c) with
      | ok b r => simp [hf]
      | more | err | panic => simp
    unfold readStringM
    rw [mbind_run]
    simp only [Metered.free, readUvarint_put (show n < 2 ^ 64 by omega) (body.take c)]
    rw [Nat.zero_add]
    exact e (fun b => match strOfBytes? b with | some s => .free (Reader.pure s) | none => .free (Reader.fail .utf8))
      fun b r => by cases strOfBytes? b <;> rfl
  induction cuts with
  | nil => simp
  | cons c cs ih => rw [List.map_cons, List.sum_cons, ih, key, List.length_cons, Nat.succ_mul, Nat.add_comm]

example : ([1, 2, 3].map fun c => (readStringM (putUvarint 3 ++ [97, 98, 99].take c)).2) = [3, 3, 3] := by decide +kernel

end CH.Props
