import Verif.Model.Oversize
import Verif.Props.Protocol

/-! C11: blocks that are too large to be compressed. -/

namespace CH.Props
open CH CH.Spec

/-- C11. Blocks of up to 2113929216 bytes (`LZ4_MAX_INPUT_SIZE`) are written as `Model/Compressed` writes them; what is proved of that holds. -/
theorem C11_sizes (z : Codec) (b : Block) (compress : Bool) (h : ∀ x, b.write = .ok x → x.length ≤ 2113929216) :
    b.writeI32 z compress = b.writeC z compress := by
  cases compress with
  | false => rfl
  | true =>
    rw [Block.writeI32, Block.writeC, if_pos rfl, if_pos rfl]
    cases hx : b.write with
    | ok x =>
      have hl := h x hx
      have hs : toSigned 4 (x.length % 2 ^ 32) = x.length := by
        rw [toSigned]
        rw [if_pos (by omega)]
        omega
      have hc : compressI32 z x = z.compress x := by
        simp only [compressI32, hs, lz4Max]
        rw [if_pos (by omega)]
        simp
      show Out.ok (putFrameI32 z x) = Out.ok (putFrame z x)
      rw [putFrameI32, putFrame, hc]
    | err e => rfl
    | panic => rfl

theorem putLE_mod (w v : Nat) : putLE w (v % 256 ^ w) = putLE w v := by
  induction w generalizing v with
  | zero => rfl
  | succ w ih =>
    simp only [putLE]
    rw [show v % 256 ^ (w + 1) / 256 = (v / 256) % 256 ^ w by
      rw [Nat.pow_succ, Nat.mul_comm, Nat.mod_mul_right_div_self], ih]
    congr 1
    rw [← UInt8.toNat_inj]
    simp only [UInt8.toNat_ofNat']
    rw [Nat.pow_succ, Nat.mul_comm, show 2 ^ 8 = 256 from rfl, Nat.mod_mul_right_mod]

/-- A frame with nothing behind the header. -/
theorem frame_fails {z : Codec} {original : Nat} (hd : z.decompress [] (original % 2 ^ 32) = none) (rest : Bytes) :
    decompressBuffer z (putLE 8 (z.hash (frameHeader 9 original ++ [])).1.toNat ++
      putLE 8 (z.hash (frameHeader 9 original ++ [])).2.toNat ++ (frameHeader 9 original ++ []) ++ rest) =
      .err (.other "can't decompress data") rest := by
  generalize hf : z.hash (frameHeader 9 original ++ []) = f
  have l1 := f.1.toNat_lt
  have l2 := f.2.toNat_lt
  have hh : frameHeader 9 original = frameHeader 9 (original % 2 ^ 32) := by
    rw [frameHeader, frameHeader, ← putLE_mod 4 original]
  rw [hh] at hf ⊢
  have ho : original % 2 ^ 32 < 2 ^ 32 := Nat.mod_lt _ (by decide)
  rw [decompressBuffer, show ∀ x y w : Bytes, x ++ y ++ (frameHeader 9 (original % 2 ^ 32) ++ []) ++ w =
    x ++ (y ++ (putLE 1 0x82 ++ (putLE 4 9 ++ (putLE 4 (original % 2 ^ 32) ++ ([] ++ w))))) from
    fun x y w => by simp [frameHeader, putLE]]
  rw [bind_ok (readLE_put (by simpa using l1) _), bind_ok (readLE_put (by simpa using l2) _), bind_ok (readLE_put (by decide) _),
    if_neg (by decide), bind_ok (readLE_put (by omega) _), bind_ok (readLE_put (by simpa using ho) _), if_neg (by omega),
    bind_ok (show readN (9 - 9) ([] ++ rest) = .ok [] rest from readN_append' [] _ rfl), hf, if_neg (by simp), if_neg (by omega), hd]
  rfl

theorem frame_wraps {z : Codec} {compressed original : Nat} {body d : Bytes} (h9 : 9 ≤ compressed)
    (hmax : compressed ≤ 0x40000000) (hb : body.length = compressed - 9)
    (hd : z.decompress body (original % 2 ^ 32) = some d) (rest : Bytes) :
    decompressBuffer z (putLE 8 (z.hash (frameHeader compressed original ++ body)).1.toNat ++
      putLE 8 (z.hash (frameHeader compressed original ++ body)).2.toNat ++ (frameHeader compressed original ++ body) ++ rest) =
      .ok (resizeB d (original % 2 ^ 32)) rest := by
  have hh : frameHeader compressed original = frameHeader compressed (original % 2 ^ 32) := by
    rw [frameHeader, frameHeader, ← putLE_mod 4 original]
  rw [hh]
  exact decompressBuffer_put h9 hmax (Nat.mod_lt _ (by decide)) hb hd rest

theorem rawLoad_nil (known : Tz → Bool) (tz : Tz) : rawLoad known tz [] = .more := by
  rw [rawLoad, readBlockInfo]
  simp [bind_run, loop_run, readBlockInfoStep, readUvarint, readUvarintLoop]

/-- C11 is violated for larger blocks: with a decompressor that does not make something out of nothing, what is written for a block
of more than 2113929216 bytes, and fewer than 2^32, cannot be read by anyone: the frame has a right checksum and no data. -/
theorem C11_large_violated (known : Tz → Bool) (z : Codec) (tz : Tz) (b : Block) (x rest : Bytes) (hx : b.write = .ok x)
    (h1 : 2113929216 < x.length) (h2 : x.length < 2 ^ 32) (hd : ∀ n, 0 < n → z.decompress [] n = none) :
    ∃ bytes, b.writeI32 z true = .ok bytes ∧ blockLoad known z tz true (bytes ++ rest) = .err (.other "can't decompress data") rest := by
  have hc : compressI32 z x = [] := by
    have : ¬ (0 ≤ toSigned 4 (x.length % 2 ^ 32) ∧ toSigned 4 (x.length % 2 ^ 32) ≤ lz4Max) := by
      simp only [toSigned, lz4Max]
      split <;> omega
    simp only [compressI32]
    rw [if_neg this]
  refine ⟨putFrameI32 z x, by rw [Block.writeI32, if_pos rfl, hx]; rfl, ?_⟩
  rw [blockLoad, if_pos rfl, readCompressed]
  refine loop_err ?_
  have hf := frame_fails (z := z) (original := x.length) (hd _ (by omega)) rest
  rw [refill, rawLoad_nil]
  simp only [putFrameI32, hc, List.length_nil, Nat.add_zero]
  rw [bind_run, hf]

/-- C11 is violated for smaller ones that do not become small enough: the client writes frames of more than 1 GiB, which it would
itself refuse to read. -/
theorem C11_incompressible_violated (known : Tz → Bool) (z : Codec) (tz : Tz) (b : Block) (x rest : Bytes) (hx : b.write = .ok x)
    (h1 : x.length ≤ 2113929216) (h2 : 2 ^ 30 < 9 + (z.compress x).length) (h3 : 9 + (z.compress x).length < 2 ^ 32) :
    ∃ bytes r, b.writeI32 z true = .ok bytes ∧ blockLoad known z tz true (bytes ++ rest) = .err (.other "compressed data too big") r := by
  rw [C11_sizes z b true (fun y hy => by cases hx.symm.trans hy; exact h1)]
  refine ⟨putFrame z x, z.compress x ++ rest, by rw [Block.writeC, if_pos rfl, hx]; rfl, ?_⟩
  rw [blockLoad, if_pos rfl, readCompressed]
  refine loop_err ?_
  rw [refill, rawLoad_nil]
  simp only [putFrame]
  generalize z.hash _ = f
  have l1 := f.1.toNat_lt
  have l2 := f.2.toNat_lt
  rw [bind_run, decompressBuffer, show ∀ a b w : Bytes, a ++ b ++ (frameHeader (9 + (z.compress x).length) x.length ++ z.compress x) ++ w =
    a ++ (b ++ (putLE 1 0x82 ++ (putLE 4 (9 + (z.compress x).length) ++ (putLE 4 x.length ++ (z.compress x ++ w))))) from
    fun a b w => by simp [frameHeader, putLE]]
  rw [bind_ok (readLE_put (by simpa using l1) _), bind_ok (readLE_put (by simpa using l2) _), bind_ok (readLE_put (by decide) _),
    if_neg (by decide), bind_ok (readLE_put (by simpa using h3) _), bind_ok (readLE_put (by omega) _), if_pos (by omega)]
  rfl

/-- C11 is violated for still larger ones in another way: of a block of `2^32 + k` bytes only the first `k` are compressed, and the
frame announces `k` bytes. It is a right frame, with a part of the block. -/
theorem C11_wrapped_violated (z : Codec) (b : Block) (x : Bytes) (k : Nat) (hx : b.write = .ok x)
    (h1 : x.length = 2 ^ 32 + k) (h2 : k ≤ 2113929216) (hz : z.decompress (z.compress (x.take k)) k = some (x.take k))
    (hf : 9 + (z.compress (x.take k)).length ≤ 2 ^ 30) :
    ∃ bytes, b.writeI32 z true = .ok bytes ∧ IsFrame z bytes (x.take k) := by
  have hc : compressI32 z x = z.compress (x.take k) := by
    have : toSigned 4 (x.length % 2 ^ 32) = k := by
      rw [h1, toSigned, if_pos (by omega)]; omega
    simp only [compressI32, this, lz4Max]
    rw [if_pos (by omega)]
    simp
  refine ⟨putFrameI32 z x, by rw [Block.writeI32, if_pos rfl, hx]; rfl, fun rest => ?_⟩
  have hm : x.length % 2 ^ 32 = k := by omega
  have := frame_wraps (z := z) (compressed := 9 + (z.compress (x.take k)).length) (original := x.length) (body := z.compress (x.take k))
    (d := x.take k) (by omega) (by omega) (by omega) (by rw [hm]; exact hz) rest
  rw [hm] at this
  simp only [putFrameI32, hc]
  rw [this]
  simp [resizeB, show min k x.length = k by omega, List.take_take]

/-- A block with one string of `n` bytes. -/
def exWide (n : Nat) : Block := ⟨⟨false, -1⟩, [⟨"s", .str [List.replicate n 0]⟩]⟩

-- such blocks are of every size
theorem exWide_write (n : Nat) (hn : n < 2 ^ 64) : ∃ x, (exWide n).write = .ok x ∧ n < x.length ∧ x.length < n + 100 := by
  have hw : (exWide n).write = .ok (putBlockInfo ⟨false, -1⟩ ++ putUvarint 1 ++ putUvarint 1 ++
      [putString "s" ++ putString "String" ++ (putUvarint (List.replicate n (0 : UInt8)).length ++ List.replicate n 0 ++ [])].flatten) := by
    rfl
  have h1 := putUvarint_length (v := n) hn
  have h2 := putUvarint_length (v := 1) (by decide)
  have h3 := putUvarint_length (v := 2) (by decide)
  have h4 : (putString "s").length < 20 := by decide +kernel
  have h5 : (putString "String").length < 20 := by decide +kernel
  have h6 : (putBlockInfo ⟨false, -1⟩).length < 20 := by decide +kernel
  refine ⟨_, hw, ?_, ?_⟩
  · simp only [List.length_append, List.length_replicate, List.flatten_cons, List.flatten_nil, List.length_nil]; omega
  · simp only [List.length_append, List.length_replicate, List.flatten_cons, List.flatten_nil, List.length_nil]; omega

-- blocks and codecs for the theorems above
example : ∃ (z : Codec) (b : Block) (x : Bytes), b.write = .ok x ∧ 2113929216 < x.length ∧ x.length < 2 ^ 32 ∧
    ∀ n, 0 < n → z.decompress [] n = none := by
  obtain ⟨x, h1, h2, h3⟩ := exWide_write 2200000000 (by decide)
  exact ⟨⟨id, fun b _ => if b = [] then none else some b, fun _ => (0, 0)⟩, exWide 2200000000, x, h1, by omega, by omega, fun n _ => rfl⟩

example : ∃ (z : Codec) (b : Block) (x : Bytes) (k : Nat), b.write = .ok x ∧ x.length = 2 ^ 32 + k ∧ k ≤ 2113929216 ∧
    z.decompress (z.compress (x.take k)) k = some (x.take k) ∧ 9 + (z.compress (x.take k)).length ≤ 2 ^ 30 := by
  obtain ⟨x, h1, h2, h3⟩ := exWide_write (2 ^ 32) (by decide)
  obtain ⟨k, hk⟩ := Nat.exists_eq_add_of_le (Nat.le_of_lt h2)
  have hk' : k < 100 := by omega
  clear h2 h3
  generalize 2 ^ 32 = m at h1 hk ⊢
  refine ⟨⟨id, fun b _ => some b, fun _ => (0, 0)⟩, exWide m, x, k, h1, hk, by omega, by simp only [id], ?_⟩
  simp only [id, List.length_take]
  omega

example : ∃ (z : Codec) (b : Block) (x : Bytes), b.write = .ok x ∧ x.length ≤ 2113929216 ∧ 2 ^ 30 < 9 + (z.compress x).length := by
  obtain ⟨x, h1, h2, h3⟩ := exWide_write (2 ^ 30) (by decide)
  refine ⟨⟨id, fun b _ => some b, fun _ => (0, 0)⟩, exWide (2 ^ 30), x, h1, by omega, ?_⟩
  simp only [id]
  omega

example : ∀ x, (exWide 3).write = .ok x → x.length ≤ 2113929216 := by
  intro x hx
  obtain ⟨y, h1, h2, h3⟩ := exWide_write 3 (by decide)
  cases hx.symm.trans h1
  omega

end CH.Props
