import Verif.Lemmas.Lz4
import Verif.Props.City
import Verif.Props.Answer
import Verif.Props.Protocol

/-! C96: compressed data with the decompressor and the checksum written out. -/

namespace CH.Props

open CH CH.Spec

/-- C96. Every block of the LZ4 format is decompressed to what it says, whatever compressor made it, if there is room for it. -/
theorem C96_decoded (ss : List Lz4.Sequence) (last : Bytes) (low : Nat) (data : Bytes) (n : Nat) (hlow : low ≤ 15)
    (hs : Lz4.Says [] ss last data) (he : Lz4.EndRules ss last) (hn : data.length ≤ n) (hmax : n < 2 ^ 31) :
    CH.Lz4.decompressSafe (Lz4.blockBytes ss last low) n = some data := by
  rw [CH.Lz4.decompressSafe, if_pos hmax]
  exact CH.Lz4.decode_says hlow hs he hn

/-- Three literals, twenty bytes that repeat them, five literals. -/
def exLz4 : List Lz4.Sequence := [⟨[1, 2, 3], 3, 20⟩]

/-- The twenty bytes. -/
def exMatch : Bytes := [1, 2, 3, 1, 2, 3, 1, 2, 3, 1, 2, 3, 1, 2, 3, 1, 2, 3, 1, 2]

theorem exLz4_says : Lz4.Says [] exLz4 [9, 8, 7, 6, 5] ([1, 2, 3] ++ exMatch ++ [9, 8, 7, 6, 5]) :=
  .cons (m := exMatch) rfl (by decide) (by decide) (by decide) (by decide)
    (show ∀ i, i < 20 → ([] ++ [1, 2, 3] ++ exMatch : Bytes)[0 + 3 + i]? = ([] ++ [1, 2, 3] ++ exMatch : Bytes)[0 + 3 + i - 3]? by decide)
    (.last _ _)

theorem exLz4_end : Lz4.EndRules exLz4 [9, 8, 7, 6, 5] := fun s hs => by
  cases hs
  decide

/-- The bytes of that block: `3F`, the literals, the distance, one continuation byte, then the final literals. -/
example : Lz4.blockBytes exLz4 [9, 8, 7, 6, 5] 0 = [0x3F, 1, 2, 3, 3, 0, 1, 0x50, 9, 8, 7, 6, 5] := by decide +kernel

example : CH.Lz4.decompressSafe [0x3F, 1, 2, 3, 3, 0, 1, 0x50, 9, 8, 7, 6, 5] 28 = some ([1, 2, 3] ++ exMatch ++ [9, 8, 7, 6, 5]) := by
  decide +kernel

/-- C96_decoded applies to it. -/
example : CH.Lz4.decompressSafe (Lz4.blockBytes exLz4 [9, 8, 7, 6, 5] 0) 28 = some ([1, 2, 3] ++ exMatch ++ [9, 8, 7, 6, 5]) :=
  C96_decoded _ _ _ _ _ (by decide) exLz4_says exLz4_end (by decide) (by decide)

/-- C96. Nothing but a block of the format is accepted, and the result is what that block says. -/
theorem C96_only (body d : Bytes) (n : Nat) (h : CH.Lz4.decompressSafe body n = some d) :
    ∃ ss last low, low ≤ 15 ∧ body = Lz4.blockBytes ss last low ∧ Lz4.Says [] ss last d ∧ d.length ≤ n := by
  rw [CH.Lz4.decompressSafe] at h
  split at h
  · exact CH.Lz4.decode_sound _ (Nat.le_refl _) h
  · cases h

/-- C96_only: a block that stops inside its literals, one with a match from before its start, and one whose match leaves too little behind are
refused. -/
example : CH.Lz4.decompressSafe [0x30, 1, 2] 3 = none ∧ CH.Lz4.decompressSafe [0x10, 1, 2, 0, 0x80, 1, 2, 3, 4, 5, 6, 7, 8] 40 = none ∧
    CH.Lz4.decompressSafe [0x3F, 1, 2, 3, 3, 0, 1, 0x50, 9, 8, 7, 6, 5] 27 = none := by decide +kernel

theorem codec_hash (c : Bytes → Bytes) (b : Bytes) : (CH.Lz4.codec c).hash b = City.hash b := by
  obtain ⟨R, h⟩ := C80_value b
  simp [CH.Lz4.codec, h]

theorem frame_laid {data f : Bytes} (c : Bytes → Bytes) (h : Lz4.Frame data f) (hl : data.length < 2 ^ 31) : FrameLaid (CH.Lz4.codec c) data f := by
  obtain ⟨lo, hi, size, orig, ss, last, low, h1, h2, h3, h4, h5, h6, h7, h8⟩ := h
  refine ⟨lo, hi, size, orig, Lz4.blockBytes ss last low, h4, ?_, ?_, h7, h8, C96_decoded ss last low data _ h1 h2 h3 (Nat.le_refl _) hl⟩
  · rw [codec_hash]; exact h5
  · rw [codec_hash]; exact h6

theorem inTurn_imp {α : Type} {R S : α → Bytes → Prop} {xs : List α} {b : Bytes} (h : InTurn R xs b) (hi : ∀ x ∈ xs, ∀ f, R x f → S x f) :
    InTurn S xs b := by
  induction h with
  | nil => exact .nil
  | cons h _ ih => exact .cons (hi _ (by simp) _ h) (ih fun x hx => hi x (by simp [hx]))

/-- The data of the frame in the project's test. -/
def exData : Bytes := [1, 0, 2, 255, 255, 255, 255, 0, 1, 1, 1, 115, 6, 83, 116, 114, 105, 110, 103, 3, 97, 98, 99]

/-- The frame in the project's test, /repo/src/types/block/compressed.rs:131-135. -/
def exWholeFrame : Bytes := [245, 5, 222, 235, 225, 158, 59, 108, 225, 31, 65, 215, 66, 66, 36, 92] ++ exFrame

/-- That frame keeps to the format: it holds 23 literals. -/
theorem exFrame_framed : Lz4.Framed exData exWholeFrame := by
  have hh : City.hash exFrame = (7799001872884172277, 6639504605497597921) := by
    obtain ⟨R, h⟩ := C80_value exFrame
    have h' : (City.hash128 exFrame).map (·.1) = some (7799001872884172277, 6639504605497597921) := by decide +kernel
    rw [h] at h'
    exact Option.some.inj h'
  have hf : Lz4.Frame exData exWholeFrame := by
    refine ⟨[245, 5, 222, 235, 225, 158, 59, 108], [225, 31, 65, 215, 66, 66, 36, 92], [34, 0, 0, 0], [23, 0, 0, 0], [], exData, 0, by decide,
      .last [] exData, fun s hs => (by cases hs), by decide +kernel, ?_⟩
    rw [show [0x82] ++ [34, 0, 0, 0] ++ [23, 0, 0, 0] ++ Lz4.blockBytes [] exData 0 = exFrame by decide +kernel, hh]
    exact ⟨⟨rfl, by decide +kernel⟩, ⟨rfl, by decide +kernel⟩, ⟨rfl, by decide +kernel⟩, ⟨rfl, by decide +kernel⟩⟩
  have := InTurn.cons (R := fun d f => Lz4.Frame d f ∧ f.length ≤ 16 + 2 ^ 30) (xs := []) (bs := []) ⟨hf, by decide⟩ .nil
  rw [List.append_nil] at this
  exact ⟨[exData], by simp, by decide, this⟩

/-- C96. Frames that keep to the format carry their data for the decompressor and the checksum of the client, whatever the client compresses
with: all that is proved about compressed answers (C77, C89 and others) holds for them. -/
theorem C96_carried (c : Bytes → Bytes) (data b : Bytes) (h : Lz4.Framed data b) : Carried (CH.Lz4.codec c) true data b := by
  obtain ⟨ds, h1, h2, h3⟩ := h
  rw [Carried, if_pos rfl]
  exact ⟨ds, h1, fun d hd => (h2 d hd).1, inTurn_imp h3 fun d hd f hf => ⟨frame_laid c hf.1 (h2 d hd).2, hf.2⟩⟩

example : Carried (CH.Lz4.codec fun b => b) true exData exWholeFrame := C96_carried _ _ _ exFrame_framed

/-- C96. A block that a server sends in such frames, cut in any way, is the block that its bytes are without compression. -/
theorem C96_block (known : Tz → Bool) (c : Bytes → Bytes) (tz : Tz) (data b : Bytes) (block : Block) (h : Lz4.Framed data b)
    (hb : rawLoad known tz data = .ok block []) (rest : Bytes) :
    blockLoad known (CH.Lz4.codec c) tz true (b ++ rest) = .ok block rest := by
  obtain ⟨ds, h1, h2, h3⟩ := h
  have h3' := inTurn_imp (S := fun d f => FrameLaid (CH.Lz4.codec c) d f ∧ f.length ≤ 16 + 2 ^ 30) h3
    fun d hd f hf => ⟨frame_laid c hf.1 (h2 d hd).2, hf.2⟩
  obtain ⟨fs, g1, g2, g3⟩ := frames_split h3' fun d hd => (h2 d hd).1
  have := C13_framing_transparent known (CH.Lz4.codec c) tz fs g1 block (by rw [g2, h1]; exact hb) rest
  rw [g3] at this
  exact this

/-- `test_decompress_block`, /repo/src/types/block/mod.rs:475-490: the frame holds the column `s` with the string `abc`. -/
example : ∃ block, blockLoad (fun _ => true) (CH.Lz4.codec fun b => b) "UTC".toList true (exWholeFrame ++ [7]) = .ok block [7] ∧
    block.columns.map (fun c => (c.name, match c.data with | .str xs => xs | _ => [])) = [("s", [[97, 98, 99]])] := by
  have key : (match rawLoad (fun _ => true) "UTC".toList exData with
      | .ok block r => decide (r = [] ∧
        block.columns.map (fun c => (c.name, match c.data with | .str xs => xs | _ => [])) = [("s", [[97, 98, 99]])])
      | _ => false) = true := by decide +kernel
  cases h : rawLoad (fun _ => true) "UTC".toList exData with
  | ok block r =>
    rw [h] at key
    obtain ⟨k1, k2⟩ := of_decide_eq_true key
    rw [k1] at h
    exact ⟨block, C96_block _ _ _ _ _ _ exFrame_framed h _, k2⟩
  | more => rw [h] at key; cases key
  | err e r => rw [h] at key; cases key
  | panic => rw [h] at key; cases key

/-- C96. Whatever is accepted is a frame with the right checksum around a block of the format; the data are what that block says, filled up
with zeros to the size announced. -/
theorem C96_checked_partial (c : Bytes → Bytes) (bs d rest : Bytes) (h : decompressBuffer (CH.Lz4.codec c) bs = .ok d rest) :
    ∃ lo hi size orig ss last low out, low ≤ 15 ∧ Lz4.Says [] ss last out ∧
      bs = putLE 8 lo ++ putLE 8 hi ++ ([0x82] ++ putLE 4 size ++ putLE 4 orig ++ Lz4.blockBytes ss last low) ++ rest ∧
      City.hash ([0x82] ++ putLE 4 size ++ putLE 4 orig ++ Lz4.blockBytes ss last low) = (UInt64.ofNat lo, UInt64.ofNat hi) ∧
      size = 1 + 4 + 4 + (Lz4.blockBytes ss last low).length ∧ d = out ++ List.replicate (orig - out.length) 0 := by
  obtain ⟨lo, hi, size, orig, body, out, h1, h2, h3, h4, h5, h6, h7⟩ := C12_checked_frame _ bs d rest h
  obtain ⟨ss, last, low, g1, rfl, g3, g4⟩ := C96_only body out orig h6
  refine ⟨lo, hi, size, orig, ss, last, low, out, g1, g3, by rw [h1]; simp, ?_, by omega, ?_⟩
  · rw [codec_hash] at h2
    rw [← h2]
    simp
  · rw [h7, resizeB, List.take_of_length_le g4]

example : ∃ d rest, decompressBuffer (CH.Lz4.codec fun b => b) exWholeFrame = .ok d rest := ⟨exData, [], by decide +kernel⟩

/-- C96 fails: the number of bytes that LZ4 wrote is not compared with the size announced. A frame may announce any larger size (below 2 GB), and the
client takes zero bytes for the rest of the data. -/
theorem C96_short_violated (c : Bytes → Bytes) (ss : List Lz4.Sequence) (last : Bytes) (low : Nat) (data : Bytes) (n : Nat) (hlow : low ≤ 15)
    (hs : Lz4.Says [] ss last data) (he : Lz4.EndRules ss last) (hn : data.length < n) (hmax : n < 2 ^ 31)
    (hsize : 9 + (Lz4.blockBytes ss last low).length ≤ 2 ^ 30) :
    ∃ f : Bytes, ∀ rest, decompressBuffer (CH.Lz4.codec c) (f ++ rest) = .ok (data ++ List.replicate (n - data.length) 0) rest := by
  have hd := C96_decoded ss last low data n hlow hs he (by omega) hmax
  have e : resizeB data n = data ++ List.replicate (n - data.length) 0 := by rw [resizeB, List.take_of_length_le (by omega)]
  have key := fun rest => decompressBuffer_put (z := CH.Lz4.codec c) (compressed := 9 + (Lz4.blockBytes ss last low).length) (original := n)
    (body := Lz4.blockBytes ss last low) (by omega) hsize (by omega) (by omega) hd rest
  rw [e] at key
  exact ⟨_, key⟩

example : ∃ f : Bytes, ∀ rest, decompressBuffer (CH.Lz4.codec fun b => b) (f ++ rest) =
    .ok ([1, 2, 3] ++ exMatch ++ [9, 8, 7, 6, 5] ++ List.replicate (40 - 28) 0) rest :=
  C96_short_violated _ _ _ _ _ 40 (by decide) exLz4_says exLz4_end (by decide) (by decide) (show 9 + (Lz4.blockBytes exLz4 [9, 8, 7, 6, 5] 0).length ≤ 2 ^ 30 by decide +kernel)

/-- C96. What the client sends compressed is read back as the same block, for every compressor that keeps to the format. (`_partial`: as C10
and C11.) -/
theorem C96_own_partial (known : Tz → Bool) (c : Bytes → Bytes) (tz : Tz) (n : Nat) (b : Block) (h : BlockOK known tz n b)
    (hc : ∀ x, b.write = .ok x → (∃ ss last low, low ≤ 15 ∧ Lz4.Says [] ss last x ∧ Lz4.EndRules ss last ∧ c x = Lz4.blockBytes ss last low) ∧
      x.length < 2 ^ 31 ∧ 9 + (c x).length ≤ 2 ^ 30) :
    ∃ bytes, b.writeC (CH.Lz4.codec c) true = .ok bytes ∧ ∀ rest, ∃ b', blockLoad known (CH.Lz4.codec c) tz true (bytes ++ rest) = .ok b' rest ∧
      b'.info = b.info ∧ header b' = header b ∧ b'.rowCount = .ok n ∧ ∀ i, i < n → rowOf b' i = rowOf b i := by
  refine C11_compressed_roundtrip_partial known _ tz n b h fun x hx => ?_
  obtain ⟨⟨ss, last, low, h1, h2, h3, h4⟩, h5, h6⟩ := hc x hx
  refine ⟨?_, by omega, h6⟩
  show CH.Lz4.decompressSafe (c x) x.length = some x
  rw [h4]
  exact C96_decoded ss last low x _ h1 h2 h3 (Nat.le_refl _) h5

/-- A compressor that only makes literals keeps to the format; with it the sample block comes back. -/
example : ∃ bytes, sampleBlock.writeC (CH.Lz4.codec fun x => Lz4.blockBytes [] x 0) true = .ok bytes ∧ ∀ rest, ∃ b',
    blockLoad (fun _ => true) (CH.Lz4.codec fun x => Lz4.blockBytes [] x 0) "UTC".toList true (bytes ++ rest) = .ok b' rest ∧
      b'.info = sampleBlock.info ∧ header b' = header sampleBlock ∧ b'.rowCount = .ok 3 ∧ ∀ i, i < 3 → rowOf b' i = rowOf sampleBlock i :=
  C96_own_partial _ _ _ 3 sampleBlock (sampleBlock_ok _) fun x hx => by
    refine ⟨⟨[], x, 0, by decide, .last [] x, fun s hs => (by cases hs), rfl⟩, ?_⟩
    have hl : (match sampleBlock.write with | .ok x => x.length | _ => 0) < 2 ^ 10 := by decide +kernel
    rw [hx] at hl
    have hl : x.length < 2 ^ 10 := hl
    refine ⟨by omega, ?_⟩
    simp only [Lz4.blockBytes, Lz4.finalBytes, Lz4.continued, List.map_nil, List.flatten_nil, List.nil_append, List.length_append, List.length_singleton]
    split <;> simp <;> omega

/-- `test_decompress`, /repo/src/types/block/compressed.rs:124-142, with the real functions. -/
example : decompressBuffer (CH.Lz4.codec fun b => b)
    ([245, 5, 222, 235, 225, 158, 59, 108, 225, 31, 65, 215, 66, 66, 36, 92] ++ exFrame) =
    .ok [1, 0, 2, 255, 255, 255, 255, 0, 1, 1, 1, 115, 6, 83, 116, 114, 105, 110, 103, 3, 97, 98, 99] [] := by
  decide +kernel

end CH.Props
