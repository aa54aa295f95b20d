import Verif.Lemmas.CityValue
import Verif.Lemmas.Wire

/-!
C80: the checksum of compressed blocks.
-/

namespace CH.Props
open CH CH.Spec CH.City

/-- C80. For every buffer the checksum function ends, reads no byte outside the buffer, shifts by no more than 63 bits, and reads
every byte of the buffer. -/
theorem C80_reads (source : Bytes) : ∃ h reads, hash128 source = some (h, reads) ∧ ReadsInside source.length reads ∧
    ∀ i : Nat, i < source.length → ReadAt reads i := by
  obtain ⟨h, R, hr, hi, hc, _⟩ := reads_hash source
  refine ⟨h, R, ?_, hi, fun i hlt => hc i (by omega)⟩
  rw [hash128, hr []]
  rfl

/-- The test of /repo/clickhouse-rs-cityhash-sys/src/lib.rs:23-31. -/
example : hash128 [0x61, 0x62, 0x63] = some ((0x900ff195577748fe, 0x13a9176355b20d7e), [(0, 1), (1, 1), (2, 1)]) := by
  decide +kernel

/-- The frame of `test_decompress`, /repo/src/types/block/compressed.rs:131-135, without its checksum. -/
def exFrame : Bytes := [130, 34, 0, 0, 0, 23, 0, 0, 0, 240, 8, 1, 0, 2, 255, 255, 255, 255, 0, 1, 1, 1, 115, 6, 83, 116, 114, 105, 110,
  103, 3, 97, 98, 99]

/-- The checksum in front of that frame. -/
example : (hash128 exFrame).map (fun r => putLE 8 r.1.1.toNat ++ putLE 8 r.1.2.toNat) =
    some [245, 5, 222, 235, 225, 158, 59, 108, 225, 31, 65, 215, 66, 66, 36, 92] := by
  decide +kernel

/-- 300 bytes: two rounds of the main loop and one round at the end, which begins before the pointer left by the main loop. -/
example : ((hash128 (List.replicate 300 7)).map fun r => (r.2.length, r.2.getLast?)) = some (50, some (292, 8)) := by
  decide +kernel

/-- C80. The checksum is CityHash128 of the bytes, whatever the length. -/
theorem C80_value (source : Bytes) : ∃ reads, hash128 source = some (Spec.City.hash source, reads) := by
  obtain ⟨R, h⟩ := val_hash source
  exact ⟨R, by rw [hash128, h []]; rfl⟩

/-- The two tests again: what the specification gives for them. -/
example : Spec.City.hash [0x61, 0x62, 0x63] = (0x900ff195577748fe, 0x13a9176355b20d7e) := by
  obtain ⟨R, h⟩ := C80_value [0x61, 0x62, 0x63]
  have h' : (hash128 [0x61, 0x62, 0x63]).map (·.1) = some (0x900ff195577748fe, 0x13a9176355b20d7e) := by decide +kernel
  rw [h] at h'
  exact Option.some.inj h'

/-- Compression with the real checksum; the test frame holds its data uncompressed (one run of literals, two bytes in front). -/
def exCityCodec : Codec := ⟨fun b => 240 :: 8 :: b, fun b _ => some (b.drop 2), fun b => (hash128 b).elim (0, 0) (·.1)⟩

/-- `test_decompress`, /repo/src/types/block/compressed.rs:124-142. -/
example : decompressBuffer exCityCodec
    ([245, 5, 222, 235, 225, 158, 59, 108, 225, 31, 65, 215, 66, 66, 36, 92] ++ exFrame) =
    .ok [1, 0, 2, 255, 255, 255, 255, 0, 1, 1, 1, 115, 6, 83, 116, 114, 105, 110, 103, 3, 97, 98, 99] [] := by
  decide +kernel

end CH.Props
