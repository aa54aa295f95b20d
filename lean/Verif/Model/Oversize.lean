import Verif.Model.Compressed

/-!
The compressed branch of `Block::write` with the numbers it hands to LZ4: sizes are cast to `i32`
(/repo/src/types/block/mod.rs:338-345). `putFrame` (Model/Compressed) compresses data of every size.
-/

namespace CH

/-- `LZ4_MAX_INPUT_SIZE` of lz4.h, foreign code. -/
def lz4Max : Nat := 0x7E000000

/-- What lies behind the header after `LZ4_compress_default`, /repo/src/types/block/mod.rs:338-347: the function is given
`tmp.len() as i32` as the size of its input. For more than `LZ4_MAX_INPUT_SIZE` bytes and for negative sizes it writes nothing and
returns 0 (lz4.h), and the buffer is cut to the header (line 347). -/
def compressI32 (z : Codec) (data : Bytes) : Bytes :=
  let n := toSigned 4 (data.length % 2 ^ 32)
  if 0 ≤ n ∧ n ≤ lz4Max then z.compress (data.take n.toNat) else []

/-- The frame, /repo/src/types/block/mod.rs:349-359, as `putFrame`. -/
def putFrameI32 (z : Codec) (data : Bytes) : Bytes :=
  let body := compressI32 z data
  let frame := frameHeader (9 + body.length) data.length ++ body
  putLE 8 (z.hash frame).1.toNat ++ putLE 8 (z.hash frame).2.toNat ++ frame

/-- `Block::write`, /repo/src/types/block/mod.rs:329-369. -/
def Block.writeI32 (b : Block) (z : Codec) (compress : Bool) : Out Bytes :=
  if compress then do
    let tmp ← b.write
    pure (putFrameI32 z tmp)
  else b.write

end CH
