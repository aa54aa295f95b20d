import Verif.Model.Load

/-!
# Lengths on machines with words of any size

Lengths and numbers of rows come as 64-bit numbers and are made `usize` with `as`, which cuts off what does not fit. The other models
are of machines where `usize` has 64 bits.
-/

namespace CH

/-- `as usize` of a `u64`, where `usize` has `bits` bits (/repo/src/binary/read_ex.rs:54, 61, 101,
/repo/src/types/block/mod.rs:179, /repo/src/types/column/array.rs:36 and so on). -/
def asUsize (bits n : Nat) : Nat := n % 2 ^ bits

/-- `alloc` with the `isize::MAX` of the machine. -/
def allocOn (bits bytes : Nat) : Reader Unit := fun bs => if bytes < 2 ^ (bits - 1) then .ok () bs else .panic

/-- `ReadEx::read_string`, /repo/src/binary/read_ex.rs:53-58, where `usize` has `bits` bits. -/
def readStringOn (bits : Nat) : Reader String := do
  let n ← readUvarint
  let _ ← allocOn bits (asUsize bits n)
  let b ← readN (asUsize bits n)
  match strOfBytes? b with
  | some s => Reader.pure s
  | none => Reader.fail .utf8

/-- `ArrayColumnData::load`, /repo/src/types/column/array.rs:24-43, where `usize` has `bits` bits; `load` reads what is in the arrays. -/
def loadArrayOn (bits : Nat) (load : Nat → Reader Col) (rows : Nat) : Reader Col := do
  let _ ← allocOn bits (rows * 8)
  let b ← readN (rows * 8)
  let c ← load (asUsize bits (lastOff (splitLE 8 rows b)))
  Reader.pure (.array (splitLE 8 rows b) c)

end CH
