import Verif.Spec.Wire
import Verif.Model.Compressed

/-! What in a message of the peer may bring the reader down. -/

namespace CH.Spec

/-- A number of variable length that goes on for more than ten bytes. -/
def TooLong (bs : Bytes) : Prop := ∃ c r, bs = c ++ r ∧ c.length = 11 ∧ ∀ b ∈ c, isCont b

/-- A number of variable length that is at least `m`. -/
def Announces (m : Nat) (bs : Bytes) : Prop :=
  ∃ c l r, bs = c ++ l :: r ∧ (∀ b ∈ c, isCont b) ∧ ¬ isCont l ∧ m ≤ base128 (c ++ [l])

/-- Eight bytes that spell a number of at least `m`. -/
def BigWord (m : Nat) (bs : Bytes) : Prop := ∃ w r, bs = w ++ r ∧ w.length = 8 ∧ m ≤ base256 w

/-- Eight bytes of low-cardinality flags that are none of the four the client itself writes. -/
def OddFlags (bs : Bytes) : Prop := ∃ w r, bs = w ++ r ∧ w.length = 8 ∧ base256 w ∉ [0x600, 0x601, 0x602, 0x603]

/-- `P` somewhere in the bytes. -/
def Somewhere (P : Bytes → Prop) (bs : Bytes) : Prop := ∃ pre rest, bs = pre ++ rest ∧ P rest

/-- A type as the theorems about hostile data want it: its name parsed, fixed strings of 1 to 127 bytes. -/
def Parsed : Plan → Prop
  | .crash => False
  | .fixed n => 0 < n ∧ n < 128
  | .nullable p => Parsed p
  | .array p => Parsed p
  | .map k v => Parsed k ∧ Parsed v
  | .simpleAgg _ p => Parsed p
  | .lowCard p => Parsed p
  | _ => True

/-- No low-cardinality part that decides the number of rows of the column. -/
def OwnRows : Plan → Prop
  | .lowCard _ => False
  | .nullable p => OwnRows p
  | .simpleAgg _ p => OwnRows p
  | _ => True

/-- What may bring down the reader of the messages without a block. -/
def Wild (bs : Bytes) : Prop := TooLong bs ∨ Announces (2 ^ 63) bs

/-- What may bring down the reader of the data of a column. -/
def WildData (bs : Bytes) : Prop := TooLong bs ∨ Announces (2 ^ 56) bs ∨ BigWord (2 ^ 56) bs ∨ OddFlags bs

/-- A text, after its length, that names a type outside `Parsed` and `OwnRows`. -/
def OddType (known : Tz → Bool) (tz : Tz) (bs : Bytes) : Prop :=
  ∃ c l name r, bs = c ++ l :: (strBytes name ++ r) ∧ (∀ b ∈ c, isCont b) ∧ ¬ isCont l ∧ base128 (c ++ [l]) = (strBytes name).length ∧
    ¬ (Parsed (resolve known tz name.toList) ∧ OwnRows (resolve known tz name.toList))

/-- What may bring down the reader of a block. -/
def WildBlock (known : Tz → Bool) (tz : Tz) (bs : Bytes) : Prop := WildData bs ∨ OddType known tz bs

/-- What comes in front of a block: `bs` begins with frames that hold, one after the other, `data`. -/
inductive Inflates (z : Codec) : Bytes → Bytes → Prop
  | stop {bs : Bytes} : Inflates z bs []
  | frame {bs d rest data : Bytes} : decompressBuffer z bs = .ok d rest → Inflates z rest data → Inflates z bs (d ++ data)

/-- A frame (two checksums, method, two sizes) that claims to be shorter than its own header. -/
def ShortFrame (bs : Bytes) : Prop := ∃ sums size r, bs = sums ++ 0x82 :: size ++ r ∧ sums.length = 16 ∧ size.length = 4 ∧ base256 size < 9

end CH.Spec
