import Verif.Base

/-!
What it means for a function to look at the whole of a buffer and at nothing else, given its reads (offset, number of bytes).
-/

namespace CH.Spec

/-- All reads stay inside a buffer of `n` bytes. -/
def ReadsInside (n : Nat) (reads : List (Int × Nat)) : Prop := ∀ r ∈ reads, 0 ≤ r.1 ∧ r.1 + r.2 ≤ n

/-- Byte `i` is among the bytes read. -/
def ReadAt (reads : List (Int × Nat)) (i : Int) : Prop := ∃ r ∈ reads, r.1 ≤ i ∧ i < r.1 + r.2

/-!
CityHash128 (version 1.0.2) as a function of the bytes alone, without pointers: words are taken out of the list, rounds consume
the list from the front, the last rounds take 32 bytes each from the end of the whole message.
-/

namespace City

/-- The word of eight bytes at position `i`, least significant byte first. -/
def word (m : Bytes) (i : Nat) : UInt64 :=
  UInt64.ofNat (((m.drop i).take 8).foldr (fun b n => b.toNat + 256 * n) 0)

/-- Rotation to the right. -/
def rot (x : UInt64) (n : Nat) : UInt64 := UInt64.ofBitVec (x.toBitVec.rotateRight n)

/-- Folding the upper bits into the lower ones. -/
def mix (x : UInt64) : UInt64 := x ^^^ (x >>> 47)

/-- Two words to one. -/
def mix2 (u v : UInt64) : UInt64 :=
  mix ((v ^^^ mix ((u ^^^ v) * 0x9ddfea08eb382d69)) * 0x9ddfea08eb382d69) * 0x9ddfea08eb382d69

/-- At most sixteen bytes to one word. -/
def short (m : Bytes) : UInt64 :=
  if 8 < m.length then
    mix2 (word m 0) (rot (word m (m.length - 8) + UInt64.ofNat m.length) m.length) ^^^ word m (m.length - 8)
  else if 4 ≤ m.length then
    mix2 (UInt64.ofNat m.length + (word (m.take 4) 0 <<< 3)) (word m (m.length - 4))
  else match m with
    | [] => 0x9ae16a3b2f90404f
    | [a] => ofThree a a a 1
    | [a, b] => ofThree a b b 2
    | a :: b :: c :: _ => ofThree a b c 3
where
  /-- One to three bytes: the first, the middle and the last one. -/
  ofThree (a b c : UInt8) (n : Nat) : UInt64 :=
    mix (UInt64.ofNat (a.toNat + 256 * b.toNat) * 0x9ae16a3b2f90404f ^^^
      UInt64.ofNat (n + 4 * c.toNat) * 0xc949d7c7509e6557) * 0x9ae16a3b2f90404f

/-- Four words and two seeds to two words. -/
def weak (w x y z a b : UInt64) : UInt64 × UInt64 :=
  (a + w + x + y + z, rot (b + (a + w) + z) 21 + rot (a + w + x + y) 44 + (a + w))

/-- The 32 bytes at position `i`. -/
def weakAt (m : Bytes) (i : Nat) (a b : UInt64) : UInt64 × UInt64 :=
  weak (word m i) (word m (i + 8)) (word m (i + 16)) (word m (i + 24)) a b

/-- One word into two of the four words of state. -/
def absorb (a b x : UInt64) : UInt64 × UInt64 :=
  let a' := (a ^^^ mix (x * 0xb492b66fbe98f273) * 0xb492b66fbe98f273) * 0xb492b66fbe98f273
  (a', b ^^^ a')

/-- Sixteen bytes at a time, as long as more than sixteen are left. -/
def absorbAll (m : Bytes) (p q : UInt64 × UInt64) : (UInt64 × UInt64) × (UInt64 × UInt64) :=
  if 16 < m.length then absorbAll (m.drop 16) (absorb p.1 p.2 (word m 0)) (absorb q.1 q.2 (word m 8)) else (p, q)
termination_by m.length
decreasing_by simp; omega

/-- Fewer than 128 bytes. -/
def murmur (m : Bytes) (seed : UInt64 × UInt64) : UInt64 × UInt64 :=
  if m.length ≤ 16 then
    let a := mix (seed.1 * 0xb492b66fbe98f273) * 0xb492b66fbe98f273
    let c := seed.2 * 0xb492b66fbe98f273 + short m
    finish a seed.2 c (mix (a + if 8 ≤ m.length then word m 0 else c))
  else
    let c := mix2 (word m (m.length - 8) + 0xb492b66fbe98f273) seed.1
    let d := mix2 (seed.2 + UInt64.ofNat m.length) (c + word m (m.length - 16))
    let r := absorbAll m (seed.1 + d, seed.2) (c, d)
    finish r.1.1 r.1.2 r.2.1 r.2.2
where
  /-- Four words to two. -/
  finish (a b c d : UInt64) : UInt64 × UInt64 := (mix2 a c ^^^ mix2 d b, mix2 (mix2 d b) (mix2 a c))

/-- Seven words of state. -/
structure S where
  v : UInt64 × UInt64
  w : UInt64 × UInt64
  x : UInt64
  y : UInt64
  z : UInt64

/-- 64 bytes into the state. -/
def absorb64 (m : Bytes) (q : S) : S :=
  let x := rot (q.x + q.y + q.v.1 + word m 16) 37 * 0xb492b66fbe98f273 ^^^ q.w.2
  let y := rot (q.y + q.v.2 + word m 48) 42 * 0xb492b66fbe98f273 ^^^ q.v.1
  let z := rot (q.z ^^^ q.w.1) 33
  { v := weakAt m 0 (q.v.2 * 0xb492b66fbe98f273) (x + q.w.1), w := weakAt m 32 (z + q.w.2) y, x := z, y := y, z := x }

/-- All whole pieces of 128 bytes. -/
def absorb128 (m : Bytes) (q : S) : S :=
  if 128 ≤ m.length then absorb128 (m.drop 128) (absorb64 (m.drop 64) (absorb64 m q)) else q
termination_by m.length
decreasing_by simp; omega

/-- 32 bytes at position `i`, at the end. -/
def absorb32 (m : Bytes) (q : S) (i : Nat) : S :=
  let w1 := q.w.1 + word m (i + 16)
  { v := weakAt m i q.v.1 q.v.2, w := (w1 + q.v.1, q.w.2), x := rot q.x 49 * 0xc3a5c85c97cb3127 + w1,
    y := rot (q.y - q.x) 42 * 0xc3a5c85c97cb3127 + q.v.2, z := q.z }

/-- The bytes after the whole pieces of 128, in steps of 32 from the end of the message. -/
def positions (n : Nat) : List Nat := (List.range ((n % 128 + 31) / 32)).map fun j => n - 32 * (j + 1)

/-- 128 bytes or more. -/
def long (m : Bytes) (seed : UInt64 × UInt64) : UInt64 × UInt64 :=
  let z := UInt64.ofNat m.length * 0xb492b66fbe98f273
  let v1 := rot (seed.2 ^^^ 0xb492b66fbe98f273) 49 * 0xb492b66fbe98f273 + word m 0
  let q := absorb128 m {
    v := (v1, rot v1 42 * 0xb492b66fbe98f273 + word m 8)
    w := (rot (seed.2 + z) 35 * 0xb492b66fbe98f273 + seed.1, rot (seed.1 + word m 88) 53 * 0xb492b66fbe98f273)
    x := seed.1, y := seed.2, z := z }
  let q := { q with y := q.y + (rot q.w.1 37 * 0xc3a5c85c97cb3127 + q.z), x := q.x + rot (q.v.1 + q.z) 49 * 0xc3a5c85c97cb3127 }
  let q := (positions m.length).foldl (absorb32 m) q
  let x := mix2 q.x q.v.1
  let y := mix2 q.y q.w.1
  (mix2 (x + q.v.2) q.w.2 + y, mix2 (x + q.w.2) (y + q.v.2))

/-- Any number of bytes with a seed. -/
def seeded (m : Bytes) (seed : UInt64 × UInt64) : UInt64 × UInt64 := if m.length < 128 then murmur m seed else long m seed

/-- CityHash128: the first sixteen bytes are the seed for the others. -/
def hash (m : Bytes) : UInt64 × UInt64 :=
  if 16 ≤ m.length then seeded (m.drop 16) (word m 0 ^^^ 0xc949d7c7509e6557, word m 8)
  else if 8 ≤ m.length then
    seeded [] (word m 0 ^^^ (UInt64.ofNat m.length * 0xc3a5c85c97cb3127), word m (m.length - 8) ^^^ 0xb492b66fbe98f273)
  else seeded m (0xc3a5c85c97cb3127, 0xb492b66fbe98f273)

end City

end CH.Spec
