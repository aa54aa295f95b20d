import Verif.Model.Compressed

/-!
Model of the checksum of compressed blocks: `city_hash_128`, /repo/clickhouse-rs-cityhash-sys/src/lib.rs:18-21, and the part of
/repo/clickhouse-rs-cityhash-sys/src/cc/city.cc that `CityHash128` reaches (below: city.cc).

The C++ code reads memory through a pointer. Here a pointer is an offset (an `Int`) into the buffer that was handed in; a read
outside the buffer, and a shift by 64 bits or more, are undefined in C++ and are `none` here. Every read is written down
(offset and number of bytes). `size_t` has 64 bits and the machine is little-endian (`WORDS_BIGENDIAN` not set). Functions of
city.cc that `CityHash128` does not reach are left out (`CityHash64`, the CRC variants).
-/

namespace CH.City

/-- A computation that reads the buffer: the answer and all reads so far, or `none` where the C++ code has no meaning. -/
def Cpp (α : Type) : Type := Bytes → List (Int × Nat) → Option (α × List (Int × Nat))

/-- No reads. -/
def Cpp.pure (a : α) : Cpp α := fun _ t => some (a, t)

/-- One computation after the other. -/
def Cpp.bind (x : Cpp α) (f : α → Cpp β) : Cpp β := fun m t =>
  match x m t with
  | some (a, t') => f a m t'
  | none => none

instance : Monad Cpp where
  pure := Cpp.pure
  bind := Cpp.bind

/-- Undefined behaviour. -/
def Cpp.undefined : Cpp α := fun _ _ => none

/-- `n` bytes from offset `p` on, as `memcpy` into an integer takes them, city.cc:38-48. -/
def fetch (n : Nat) (p : Int) : Cpp Nat := fun m t =>
  if 0 ≤ p ∧ p + n ≤ m.length then some (getLE ((m.drop p.toNat).take n), t ++ [(p, n)]) else none

/-- `Fetch64`, city.cc:38-42, 85-87. -/
def fetch64 (p : Int) : Cpp UInt64 := do
  let n ← fetch 8 p
  Cpp.pure (UInt64.ofNat n)

/-- `Fetch32`, city.cc:44-48, 89-91, converted to `uint64` as both callers do. -/
def fetch32 (p : Int) : Cpp UInt64 := do
  let n ← fetch 4 p
  Cpp.pure (UInt64.ofNat n)

/-- city.cc:94. -/
def k0 : UInt64 := 0xc3a5c85c97cb3127

/-- city.cc:95. -/
def k1 : UInt64 := 0xb492b66fbe98f273

/-- city.cc:96. -/
def k2 : UInt64 := 0x9ae16a3b2f90404f

/-- city.cc:97. -/
def k3 : UInt64 := 0xc949d7c7509e6557

/-- `Rotate`, city.cc:101-104; every caller gives a constant between 1 and 63. -/
def rotate (val shift : UInt64) : UInt64 := if shift = 0 then val else (val >>> shift) ||| (val <<< (64 - shift))

/-- `RotateByAtLeast1`, city.cc:109-111, whose callers compute the shift. -/
def rotateByAtLeast1 (val : UInt64) (shift : Nat) : Cpp UInt64 :=
  if 0 < shift ∧ shift < 64 then
    Cpp.pure ((val >>> UInt64.ofNat shift) ||| (val <<< UInt64.ofNat (64 - shift)))
  else Cpp.undefined

/-- `ShiftMix`, city.cc:113-115. -/
def shiftMix (val : UInt64) : UInt64 := val ^^^ (val >>> 47)

/-- `kMul`, /repo/clickhouse-rs-cityhash-sys/src/cc/city.h:79. -/
def kMul : UInt64 := 0x9ddfea08eb382d69

/-- `HashLen16`, city.cc:117-119, and `Hash128to64`, /repo/clickhouse-rs-cityhash-sys/src/cc/city.h:77-86. -/
def hashLen16 (u v : UInt64) : UInt64 :=
  let a := (u ^^^ v) * kMul
  let a := a ^^^ (a >>> 47)
  let b := (v ^^^ a) * kMul
  let b := b ^^^ (b >>> 47)
  b * kMul

/-- `HashLen0to16`, city.cc:121-140. -/
def hashLen0to16 (s : Int) (len : Nat) : Cpp UInt64 :=
  if len > 8 then do
    let a ← fetch64 s
    let b ← fetch64 (s + len - 8)
    let r ← rotateByAtLeast1 (b + UInt64.ofNat len) len
    Cpp.pure (hashLen16 a r ^^^ b)
  else if len ≥ 4 then do
    let a ← fetch32 s
    let b ← fetch32 (s + len - 4)
    Cpp.pure (hashLen16 (UInt64.ofNat len + (a <<< 3)) b)
  else if len > 0 then do
    let a ← fetch 1 s
    let b ← fetch 1 (s + (len / 2 : Nat))
    let c ← fetch 1 (s + len - 1)
    let y := (a + b * 256) % 2 ^ 32
    let z := (len + c * 4) % 2 ^ 32
    Cpp.pure (shiftMix (UInt64.ofNat y * k2 ^^^ UInt64.ofNat z * k3) * k2)
  else Cpp.pure k2

/-- `WeakHashLen32WithSeeds` of four words, city.cc:155-164. -/
def weakHash (w x y z a b : UInt64) : UInt64 × UInt64 :=
  let a := a + w
  let b := rotate (b + a + z) 21
  let c := a
  let a := a + x
  let a := a + y
  let b := b + rotate a 44
  (a + z, b + c)

/-- `WeakHashLen32WithSeeds` of 32 bytes, city.cc:167-175. -/
def weakHashAt (s : Int) (a b : UInt64) : Cpp (UInt64 × UInt64) := do
  let w ← fetch64 s
  let x ← fetch64 (s + 8)
  let y ← fetch64 (s + 16)
  let z ← fetch64 (s + 24)
  Cpp.pure (weakHash w x y z a b)

/-- The loop of `CityMurmur`, city.cc:265-274, cut off (as undefined) after `fuel` rounds. -/
def murmurLoop : (fuel : Nat) → (s : Int) → (len : Nat) → (a b c d : UInt64) → Cpp (UInt64 × UInt64 × UInt64 × UInt64)
  | 0, _, _, _, _, _, _ => Cpp.undefined
  | fuel + 1, s, len, a, b, c, d => do
    let x ← fetch64 s
    let a := (a ^^^ (shiftMix (x * k1) * k1)) * k1
    let b := b ^^^ a
    let y ← fetch64 (s + 8)
    let c := (c ^^^ (shiftMix (y * k1) * k1)) * k1
    let d := d ^^^ c
    if len - 16 > 16 then murmurLoop fuel (s + 16) (len - 16) a b c d else Cpp.pure (a, b, c, d)

/-- The end of `CityMurmur`, city.cc:276-278. -/
def murmurEnd (a b c d : UInt64) : UInt64 × UInt64 :=
  let a := hashLen16 a c
  let b := hashLen16 d b
  (a ^^^ b, hashLen16 b a)

/-- `CityMurmur`, city.cc:252-279. -/
def cityMurmur (s : Int) (len : Nat) (seed : UInt64 × UInt64) : Cpp (UInt64 × UInt64) :=
  if len ≤ 16 then do
    let a := shiftMix (seed.1 * k1) * k1
    let h ← hashLen0to16 s len
    let c := seed.2 * k1 + h
    if len ≥ 8 then do
      let x ← fetch64 s
      Cpp.pure (murmurEnd a seed.2 c (shiftMix (a + x)))
    else Cpp.pure (murmurEnd a seed.2 c (shiftMix (a + c)))
  else do
    let x ← fetch64 (s + len - 8)
    let c := hashLen16 (x + k1) seed.1
    let y ← fetch64 (s + len - 16)
    let d := hashLen16 (seed.2 + UInt64.ofNat len) (c + y)
    let r ← murmurLoop len s len (seed.1 + d) seed.2 c d
    Cpp.pure (murmurEnd r.1 r.2.1 r.2.2.1 r.2.2.2)

/-- The 56 bytes of state, city.cc:288-292. -/
structure State where
  v : UInt64 × UInt64
  w : UInt64 × UInt64
  x : UInt64
  y : UInt64
  z : UInt64
deriving DecidableEq, Repr

/-- Half of a round of the main loop, city.cc:300-308 and again 309-317: 64 bytes at `s`. -/
def half (s : Int) (q : State) : Cpp State := do
  let m ← fetch64 (s + 16)
  let x := rotate (q.x + q.y + q.v.1 + m) 37 * k1
  let n ← fetch64 (s + 48)
  let y := rotate (q.y + q.v.2 + n) 42 * k1
  let x := x ^^^ q.w.2
  let y := y ^^^ q.v.1
  let z := rotate (q.z ^^^ q.w.1) 33
  let v ← weakHashAt s (q.v.2 * k1) (x + q.w.1)
  let w ← weakHashAt (s + 32) (z + q.w.2) y
  Cpp.pure ⟨v, w, z, y, x⟩

/-- The main loop, city.cc:299-319, cut off (as undefined) after `fuel` rounds: the pointer, the length and the state after it. -/
def mainLoop : (fuel : Nat) → (s : Int) → (len : Nat) → State → Cpp (Int × Nat × State)
  | 0, _, _, _ => Cpp.undefined
  | fuel + 1, s, len, q => do
    let q ← half s q
    let q ← half (s + 64) q
    if len - 128 ≥ 128 then mainLoop fuel (s + 128) (len - 128) q else Cpp.pure (s + 128, len - 128, q)

/-- The loop over the last bytes, city.cc:323-330, cut off (as undefined) after `fuel` rounds. -/
def tailLoop : (fuel : Nat) → (s : Int) → (len tailDone : Nat) → State → Cpp State
  | 0, _, _, _, _ => Cpp.undefined
  | fuel + 1, s, len, tailDone, q =>
    if tailDone < len then do
      let y := rotate (q.y - q.x) 42 * k0 + q.v.2
      let m ← fetch64 (s + len - (tailDone + 32 : Nat) + 16)
      let w1 := q.w.1 + m
      let x := rotate q.x 49 * k0 + w1
      let w1 := w1 + q.v.1
      let v ← weakHashAt (s + len - (tailDone + 32 : Nat)) q.v.1 q.v.2
      tailLoop fuel s len (tailDone + 32) ⟨v, (w1, q.w.2), x, y, q.z⟩
    else Cpp.pure q

/-- `CityHash128WithSeed`, city.cc:281-337. -/
def cityHash128WithSeed (s : Int) (len : Nat) (seed : UInt64 × UInt64) : Cpp (UInt64 × UInt64) :=
  if len < 128 then cityMurmur s len seed
  else do
    let x := seed.1
    let y := seed.2
    let z := UInt64.ofNat len * k1
    let m ← fetch64 s
    let v1 := rotate (y ^^^ k1) 49 * k1 + m
    let n ← fetch64 (s + 8)
    let v2 := rotate v1 42 * k1 + n
    let w1 := rotate (y + z) 35 * k1 + x
    let o ← fetch64 (s + 88)
    let w2 := rotate (x + o) 53 * k1
    let r ← mainLoop len s len ⟨(v1, v2), (w1, w2), x, y, z⟩
    let q := r.2.2
    let y := q.y + (rotate q.w.1 37 * k0 + q.z)
    let x := q.x + rotate (q.v.1 + q.z) 49 * k0
    let q ← tailLoop (r.2.1 + 1) r.1 r.2.1 0 { q with x := x, y := y }
    let x := hashLen16 q.x q.v.1
    let y := hashLen16 q.y q.w.1
    Cpp.pure (hashLen16 (x + q.v.2) q.w.2 + y, hashLen16 (x + q.w.2) (y + q.v.2))

/-- `CityHash128`, city.cc:339-354. `NULL` with length 0 is offset 0 here: nothing may be read through it. -/
def cityHash128 (len : Nat) : Cpp (UInt64 × UInt64) :=
  if len ≥ 16 then do
    let a ← fetch64 0
    let b ← fetch64 8
    cityHash128WithSeed 16 (len - 16) (a ^^^ k3, b)
  else if len ≥ 8 then do
    let a ← fetch64 0
    let b ← fetch64 (len - 8)
    cityHash128WithSeed 0 0 (a ^^^ (UInt64.ofNat len * k0), b ^^^ k1)
  else cityHash128WithSeed 0 len (k0, k1)

/-- `city_hash_128`, /repo/clickhouse-rs-cityhash-sys/src/lib.rs:18-21: the checksum (`lo`, `hi`) and the reads made, or
`none` where the C++ code has no meaning. -/
def hash128 (source : Bytes) : Option ((UInt64 × UInt64) × List (Int × Nat)) := cityHash128 source.length source []

end CH.City
