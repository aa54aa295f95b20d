import Verif.Spec.Answer
import Verif.Spec.City

/-! The LZ4 block format, as its description has it: a block is a list of sequences, each some literals and a match, and final literals. -/

namespace CH.Spec.Lz4

/-- A sequence: literal bytes, then a match of `len` bytes at distance `off`. -/
structure Sequence where
  lits : Bytes
  off : Nat
  len : Nat

/-- The bits of a length in the token. -/
def bits (n : Nat) : Nat := min n 15

/-- The bytes by which a length of 15 and more is continued: the excess in units of 255, then what remains. -/
def continued (n : Nat) : Bytes := if n < 15 then [] else List.replicate ((n - 15) / 255) 255 ++ [UInt8.ofNat ((n - 15) % 255)]

/-- The bytes of a sequence: token, literals, distance in two bytes, match length less four. -/
def sequenceBytes (s : Sequence) : Bytes :=
  [UInt8.ofNat (16 * bits s.lits.length + bits (s.len - 4))] ++ continued s.lits.length ++ s.lits ++
    [UInt8.ofNat (s.off % 256), UInt8.ofNat (s.off / 256)] ++ continued (s.len - 4)

/-- The bytes of the final literals; the low bits of their token mean nothing. -/
def finalBytes (last : Bytes) (low : Nat) : Bytes := [UInt8.ofNat (16 * bits last.length + low)] ++ continued last.length ++ last

/-- The bytes of a block. -/
def blockBytes (ss : List Sequence) (last : Bytes) (low : Nat) : Bytes := (ss.map sequenceBytes).flatten ++ finalBytes last low

/-- In `data`, the `len` bytes from `pos` on repeat those `off` before them. -/
def Repeats (data : Bytes) (pos off len : Nat) : Prop := ∀ i, i < len → data[pos + i]? = data[pos + i - off]?

/-- What sequences and final literals say, `before` having been said: literals are copied, a match repeats what lies `off` bytes back. -/
inductive Says : Bytes → List Sequence → Bytes → Bytes → Prop
  | last (before last : Bytes) : Says before [] last (before ++ last)
  | cons {before : Bytes} {s : Sequence} {m : Bytes} {ss : List Sequence} {last data : Bytes} (hlen : m.length = s.len) (hmin : 4 ≤ s.len)
      (hoff : 0 < s.off) (hfar : s.off ≤ before.length + s.lits.length) (hmax : s.off < 65536)
      (hrep : Repeats (before ++ s.lits ++ m) (before.length + s.lits.length) s.off s.len)
      (hrest : Says (before ++ s.lits ++ m) ss last data) : Says before (s :: ss) last data

/-- The rules for the end of a block: the last five bytes are literals and the last match starts at least twelve bytes before the end. -/
def EndRules (ss : List Sequence) (last : Bytes) : Prop :=
  ∀ s, ss.getLast? = some s → 5 ≤ last.length ∧ 12 ≤ s.len + last.length

/-- A frame as any server that keeps to the format sends it: the CityHash of what follows in two words, the method, the size of what follows
the checksum, the size of the data, and a block of the format that says the data. -/
def Frame (data f : Bytes) : Prop :=
  ∃ lo hi size orig ss last low, low ≤ 15 ∧ Says [] ss last data ∧ EndRules ss last ∧
    f = lo ++ hi ++ ([0x82] ++ size ++ orig ++ blockBytes ss last low) ∧
    Word 8 (City.hash ([0x82] ++ size ++ orig ++ blockBytes ss last low)).1.toNat lo ∧
    Word 8 (City.hash ([0x82] ++ size ++ orig ++ blockBytes ss last low)).2.toNat hi ∧
    Word 4 (1 + 4 + 4 + (blockBytes ss last low).length) size ∧ Word 4 data.length orig

/-- Data in frames: cut into pieces, none of them empty, each in a frame of at most a gigabyte. -/
def Framed (data b : Bytes) : Prop :=
  ∃ ds : List Bytes, ds.flatten = data ∧ (∀ d ∈ ds, d ≠ [] ∧ d.length < 2 ^ 31) ∧ InTurn (fun d f => Frame d f ∧ f.length ≤ 16 + 2 ^ 30) ds b

end CH.Spec.Lz4
