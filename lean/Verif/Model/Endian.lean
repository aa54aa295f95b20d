import Verif.Model.Column
import Verif.Model.Load

/-!
# Columns of numbers on machines with either byte order

The numbers of a column are kept in a `List<T>`, and its memory is what is sent and what is read into
(/repo/src/types/column/list.rs:75-97); single numbers go through `to_le_bytes` and `from_le_bytes`
(/repo/src/types/marshal.rs:5-31, /repo/src/types/unmarshal.rs:5-35), which are the same on all machines. The other models are of
little-endian machines.
-/

namespace CH

/-- The order of bytes in the memory of a machine. -/
inductive Order where
  | little
  | big
deriving DecidableEq, Repr

/-- The memory of a number of `w` bytes given by its bit pattern, as `List<T>` has it (/repo/src/types/column/list.rs:9-12). -/
def Order.mem : Order → Nat → Nat → Bytes
  | .little, w, v => putLE w v
  | .big, w, v => (putLE w v).reverse

/-- The number that a piece of memory is, `List::at` (/repo/src/types/column/list.rs:21-23). -/
def Order.num : Order → Bytes → Nat
  | .little, b => getLE b
  | .big, b => getLE b.reverse

/-- `AsRef<[u8]> for List<T>`, /repo/src/types/column/list.rs:75-84. -/
def listBytes (o : Order) (w : Nat) (xs : List Nat) : Bytes := xs.flatMap (o.mem w)

/-- `save_data`, /repo/src/types/column/numeric.rs:252-256, as called by `VectorColumnData::save` and `DateColumnData::save`
(date.rs:199-201). -/
def saveData (o : Order) (w : Nat) (xs : List Nat) (start stop : Nat) : Out Bytes := slice (listBytes o w xs) (start * w) (stop * w)

/-- The numbers in the memory of a `List<T>`, /repo/src/types/column/list.rs:86-97. -/
def splitMem (o : Order) (w : Nat) : Nat → Bytes → List Nat
  | 0, _ => []
  | n + 1, bs => o.num (bs.take w) :: splitMem o w n (bs.drop w)

/-- `VectorColumnData::<T>::load` (numeric.rs:163-170) and the like; the offsets of arrays (array.rs:30-32) and maps (map.rs:30-32) are
read in the same way. -/
def loadList (o : Order) (w size : Nat) : Reader (List Nat) := do
  let _ ← alloc (size * w)
  let b ← readN (size * w)
  Reader.pure (splitMem o w size b)

/-- The loop of `ArrayColumnData::save` (/repo/src/types/column/array.rs:54-57) and of `MapColumnData::save` (map.rs:59-62): each
offset through `to_le_bytes`. -/
def saveOffsets (xs : List Nat) : Bytes := xs.flatMap (putLE 8)

end CH
