import Verif.Base

/-!
Model of the primitive wire codec: /repo/src/binary/uvarint.rs, /repo/src/binary/encoder.rs,
/repo/src/binary/read_ex.rs, /repo/src/types/marshal.rs, /repo/src/types/unmarshal.rs.
-/

namespace CH

/-- `put_uvarint`, /repo/src/binary/uvarint.rs:3-14. The scratch buffer (encoder.rs:18-22) is dropped: the function
returns the bytes written to it; that they are at most 10 (so that indexing the scratch buffer never panics) is part of
property C01. -/
def putUvarint (x : Nat) : Bytes :=
  if x ≥ 0x80 then (UInt8.ofNat x ||| 0x80) :: putUvarint (x >>> 7) else [UInt8.ofNat x]
termination_by x
decreasing_by simp only [Nat.shiftRight_eq_div_pow]; omega

/-- The loop of `read_uvarint`, /repo/src/binary/read_ex.rs:83-97. `x`, `s`, `i` are the loop variables. A shift amount
of 64 or more is the arithmetic-overflow panic of `u64 << u32`. -/
def readUvarintLoop (x s i : Nat) : Reader Nat
  | [] => .more
  | b :: bs =>
    if b.toNat < 0x80 then
      if i > 9 ∨ (i = 9 ∧ b.toNat > 1) then .err .overflow bs
      else .ok (x ||| ((b.toNat <<< s) % 2 ^ 64)) bs
    else if s ≥ 64 then .panic
    else readUvarintLoop (x ||| (((b.toNat &&& 0x7f) <<< s) % 2 ^ 64)) (s + 7) (i + 1) bs

/-- `ReadEx::read_uvarint`, /repo/src/binary/read_ex.rs:79-98. -/
def readUvarint : Reader Nat := readUvarintLoop 0 0 0

/-- `ReadEx::read_bytes` on an in-memory cursor, /repo/src/binary/read_ex.rs:25-42: either all `n` bytes are there, or the
cursor's `read` eventually returns 0 and the call fails with `WouldBlock`. -/
def readN (n : Nat) : Reader Bytes := fun bs =>
  if n ≤ bs.length then .ok (bs.take n) (bs.drop n) else .more

/-- `Encoder::byte_string`, /repo/src/binary/encoder.rs:29-32. -/
def putBytes (b : Bytes) : Bytes := putUvarint b.length ++ b

/-- `Encoder::string`, /repo/src/binary/encoder.rs:24-27. -/
def putString (s : String) : Bytes := putBytes (strBytes s)

/-- `isize::MAX`: the longest allocation `Vec` accepts, in bytes. -/
def isizeMax : Nat := 2 ^ 63 - 1

/-- `vec![0; n]` and `Vec::with_capacity(n)` of the readers (/repo/src/binary/read_ex.rs:55, 72,
/repo/src/types/column/list.rs:34-38, /repo/src/types/column/nullable.rs:30 and so on), where `bytes` is the size of the memory
asked for: more than `isize::MAX` bytes is the "capacity overflow" panic of the standard library. Running out of memory below
that limit is not represented. -/
def alloc (bytes : Nat) : Reader Unit := fun bs => if bytes ≤ isizeMax then .ok () bs else .panic

/-- Reading a length-prefixed byte string into a pool slot, `read_str_into_buffer`,
/repo/src/binary/read_ex.rs:100-105. The slot is part of a chunk of at least `chunk` bytes and at least the length of the string
(/repo/src/types/column/string_pool.rs:99-104; the pool itself is modelled in `Model/StringPool.lean`). -/
def readBytesLP (chunk : Nat) : Reader Bytes := do
  let n ← readUvarint
  let _ ← alloc (max chunk n)
  readN n

/-- `ReadEx::read_string`, /repo/src/binary/read_ex.rs:53-58. -/
def readString : Reader String := do
  let n ← readUvarint
  let _ ← alloc n
  let b ← readN n
  match strOfBytes? b with
  | some s => Reader.pure s
  | none => Reader.fail .utf8

/-- `ReadEx::skip_string`, /repo/src/binary/read_ex.rs:60-77. Both branches (stack buffer for at most 1024 bytes, heap
buffer otherwise) read `str_len` bytes and drop them. -/
def skipString : Reader Unit := do
  let n ← readUvarint
  if n ≤ 1024 then
    let _ ← readN n
    Reader.pure ()
  else
    let _ ← alloc n
    let _ ← readN n
    Reader.pure ()

/-- `to_le_bytes` of a `w`-byte number given by its bit pattern `v`, /repo/src/types/marshal.rs:5-31 (floats through
`to_bits`, signed numbers through their two's complement pattern). -/
def putLE : (w : Nat) → (v : Nat) → Bytes
  | 0, _ => []
  | w + 1, v => UInt8.ofNat v :: putLE w (v / 256)

/-- `from_le_bytes`, /repo/src/types/unmarshal.rs:5-35. -/
def getLE : Bytes → Nat
  | [] => 0
  | b :: bs => b.toNat + 256 * getLE bs

/-- `read_scalar::<uN/iN/fN>`, /repo/src/binary/read_ex.rs:44-51: the bit pattern of a `w`-byte number. -/
def readLE (w : Nat) : Reader Nat := do
  let b ← readN w
  Reader.pure (getLE b)

/-- `Encoder::write::<bool>`, /repo/src/types/marshal.rs:33-37. -/
def putBool (b : Bool) : Bytes := [if b then 1 else 0]

/-- `read_scalar::<bool>`, /repo/src/types/unmarshal.rs:37-41. -/
def readBool : Reader Bool := do
  let v ← readN 1
  Reader.pure (getLE v != 0)

/-- Two's complement pattern of a signed `w`-byte number, the meaning of `iN::to_le_bytes`. -/
def ofSigned (w : Nat) (v : Int) : Nat := (v % (2 ^ (8 * w) : Nat)).toNat

/-- Signed reading of a bit pattern, the meaning of `iN::from_le_bytes`. -/
def toSigned (w : Nat) (n : Nat) : Int :=
  if 2 * n < 2 ^ (8 * w) then (n : Int) else (n : Int) - (2 ^ (8 * w) : Nat)

end CH
