import Verif.Model.Block

/-!
Model of compressed block framing: /repo/src/types/block/compressed.rs and the compressed branch of `Block::write`
(/repo/src/types/block/mod.rs:330-360). LZ4 and CityHash are foreign code and enter as parameters
(`Model/City.lean` models CityHash).
-/

namespace CH

/-- The foreign functions: `LZ4_compress_default` (block/mod.rs:340-345), `LZ4_decompress_safe` with the announced original size
(compressed.rs:104-111; `none` is a negative status, otherwise the bytes it wrote), and `city_hash_128` (low half, high
half). Allocation of the announced sizes is not modelled. -/
structure Codec where
  compress : Bytes → Bytes
  decompress : Bytes → Nat → Option Bytes
  hash : Bytes → UInt64 × UInt64

/-- The header in front of the compressed bytes, /repo/src/types/block/compressed.rs:91-95, block/mod.rs:349-354: method byte,
size including this header, original size. -/
def frameHeader (compressed original : Nat) : Bytes := 0x82 :: (putLE 4 compressed ++ putLE 4 original)

/-- `decompress_buffer`, /repo/src/types/block/compressed.rs:66-118. For announced sizes below 9 the buffer still gets the nine
header bytes (the writing cursor extends the vector) and nothing more is read; if the checksum matches, `compressed - 9`
then underflows. The decompressed bytes sit in a zeroed vector of the announced original size; the status is not compared
with that size. -/
def decompressBuffer (z : Codec) : Reader Bytes := do
  let lo ← readLE 8
  let hi ← readLE 8
  let method ← readLE 1
  if method ≠ 0x82 then Reader.fail (.other "unsupported compression method")
  else do
    let compressed ← readLE 4
    let original ← readLE 4
    if compressed > 0x40000000 then Reader.fail (.other "compressed data too big")
    else do
      let body ← readN (compressed - 9)
      if (z.hash (frameHeader compressed original ++ body)).1.toNat ≠ lo ∨
          (z.hash (frameHeader compressed original ++ body)).2.toNat ≠ hi then
        Reader.fail (.other "data was corrupted")
      else if compressed < 9 then Reader.panic
      else
        match z.decompress body original with
        | none => Reader.fail (.other "can't decompress data")
        | some d => Reader.pure (resizeB d original)

/-- The reader asks for more bytes (`WouldBlock`). -/
def Reader.wait : Reader α := fun _ => .more

/-- One refill of `CompressedReader::read`, /repo/src/types/block/compressed.rs:38-63, in front of a reader `p` of decompressed
data. `buf` is everything decompressed so far. As `p` gives the same answer when its input is extended (proved:
`rawLoad_mono`), running `p` on all data decompressed so far and refilling exactly when it asks for more is the same as
refilling whenever the cursor runs empty. A frame of no bytes makes `Read::read` return 0, which `read_bytes` reports as
`WouldBlock` (read_ex.rs:33-36). -/
def refill (z : Codec) (p : Reader α) (buf : Bytes) : Reader (Bytes ⊕ α) :=
  match p buf with
  | .ok a _ => Reader.pure (.inr a)
  | .err e _ => Reader.fail e
  | .panic => Reader.panic
  | .more => do
    let d ← decompressBuffer z
    if d = [] then Reader.wait else Reader.pure (.inl (buf ++ d))

/-- Running `p` behind a `CompressedReader`, /repo/src/types/block/compressed.rs:22-63. -/
def readCompressed (z : Codec) (p : Reader α) : Reader α := Reader.loop (refill z p) []

/-- `Block::load`, /repo/src/types/block/mod.rs:156-166. -/
def blockLoad (known : Tz → Bool) (z : Codec) (tz : Tz) (compress : Bool) : Reader Block :=
  if compress then readCompressed z (rawLoad known tz) else rawLoad known tz

/-- A frame holding the given data, as the compressed branch of `Block::write` builds it
(/repo/src/types/block/mod.rs:335-359). The sizes handed to LZ4 are cast to `i32`, which matters for more than about 2 GB of data: see
`putFrameI32` (Model/Oversize). -/
def putFrame (z : Codec) (data : Bytes) : Bytes :=
  let body := z.compress data
  let frame := frameHeader (9 + body.length) data.length ++ body
  putLE 8 (z.hash frame).1.toNat ++ putLE 8 (z.hash frame).2.toNat ++ frame

/-- `Block::write`, /repo/src/types/block/mod.rs:329-369. -/
def Block.writeC (b : Block) (z : Codec) (compress : Bool) : Out Bytes :=
  if compress then do
    let tmp ← b.write
    pure (putFrame z tmp)
  else b.write

end CH
