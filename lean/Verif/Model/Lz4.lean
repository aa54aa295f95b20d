import Verif.Model.Compressed
import Verif.Model.City

/-!
The two foreign functions behind `decompress_buffer` (/repo/src/types/block/compressed.rs:66-118), written out: `LZ4_decompress_safe`
(called at 104-111) and `city_hash_128` (`Model/City`). Everywhere else the functions are parameters (`Codec`).

`LZ4_decompress_safe` is C code outside /repo; what follows is its behaviour by the LZ4 block format and by the checks of the
reference decoder. Simplified: a match at distance 0 (no encoder makes one) is refused here, while the C code then copies bytes
of the destination; a length whose continuation bytes reach into the last bytes of the input may be refused a little earlier
by the C code, but then there is no room for the literals or the match either.
-/

namespace CH.Lz4

/-- Continuation bytes of a length (the C function `read_variable_length` behind /repo/src/types/block/compressed.rs:104-111): each 255
adds and goes on, the first other byte adds and ends. -/
def moreLen (n : Nat) : Bytes → Option (Nat × Bytes)
  | [] => none
  | b :: bs => if b = 255 then moreLen (n + 255) bs else some (n + b.toNat, bs)

/-- A length: four bits of the token, continued if they are all set (behind /repo/src/types/block/compressed.rs:104-111). -/
def readLen (nibble : Nat) (bs : Bytes) : Option (Nat × Bytes) := if nibble = 15 then moreLen 15 bs else some (nibble, bs)

/-- Copying a match byte by byte, so that it may overlap what it writes (behind /repo/src/types/block/compressed.rs:104-111). -/
def copyMatch (off : Nat) : Nat → Bytes → Option Bytes
  | 0, out => some out
  | n + 1, out =>
    match out[out.length - off]? with
    | none => none
    | some b => copyMatch off n (out ++ [b])

theorem moreLen_length {n : Nat} {bs : Bytes} {m : Nat} {r : Bytes} (h : moreLen n bs = some (m, r)) : r.length < bs.length := by
  induction bs generalizing n with
  | nil => cases h
  | cons b bs ih =>
    rw [moreLen] at h
    split at h
    · have := ih h
      simp only [List.length_cons]; omega
    · cases h
      simp

theorem readLen_length {n : Nat} {bs : Bytes} {m : Nat} {r : Bytes} (h : readLen n bs = some (m, r)) : r.length ≤ bs.length := by
  rw [readLen] at h
  split at h
  · exact Nat.le_of_lt (moreLen_length h)
  · cases h
    exact Nat.le_refl _

/-- The loop of `LZ4_decompress_safe` (behind /repo/src/types/block/compressed.rs:104-111): `cap` is the size of the destination, `out`
what has been written. Literals that end within twelve bytes of the end of the destination, or with fewer than eight bytes of input
behind them, have to be the last thing in the input; a match has to leave five bytes of the destination. -/
def decode (cap : Nat) (out : Bytes) (inp : Bytes) : Option Bytes :=
  match inp with
  | [] => none
  | t :: r0 =>
    match _h1 : readLen (t.toNat / 16) r0 with
    | none => none
    | some (ll, r1) =>
      if cap < out.length + ll + 12 ∨ r1.length < ll + 8 then
        if r1.length = ll ∧ out.length + ll ≤ cap then some (out ++ r1) else none
      else
        match _h2 : r1.drop ll with
        | o1 :: o2 :: r2 =>
          match _h3 : readLen (t.toNat % 16) r2 with
          | none => none
          | some (ml, r3) =>
            let out := out ++ r1.take ll
            let off := o1.toNat + 256 * o2.toNat
            if off = 0 ∨ out.length < off ∨ cap < out.length + (ml + 4) + 5 then none
            else
              match copyMatch off (ml + 4) out with
              | none => none
              | some out => decode cap out r3
        | _ => none
termination_by inp.length
decreasing_by
  have a1 := readLen_length _h1
  have a3 := readLen_length _h3
  have a2 := congrArg List.length _h2
  rw [List.length_drop] at a2
  simp only [List.length_cons] at a2 ⊢
  omega

/-- `LZ4_decompress_safe` as called at /repo/src/types/block/compressed.rs:104-111: `original as c_int` is negative from 2^31 on, which is
refused. -/
def decompressSafe (body : Bytes) (original : Nat) : Option Bytes := if original < 2 ^ 31 then decode original [] body else none

/-- The foreign functions of /repo/src/types/block/compressed.rs; the compressor (only called by `Block::write`, block/mod.rs:340-345) stays
a parameter, as the format leaves it open how to compress. -/
def codec (compress : Bytes → Bytes) : Codec :=
  ⟨compress, decompressSafe, fun b => (City.hash128 b).elim (0, 0) (·.1)⟩

end CH.Lz4
