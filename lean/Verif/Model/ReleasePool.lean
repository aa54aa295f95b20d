import Verif.Model.StringPool
import Verif.Model.Release

/-!
# The store of strings in builds without overflow checks

The functions of Model/StringPool that compute with `usize`, with arithmetic that wraps. Indexing and slicing are checked in these
builds too; `get_by_pointer` is not, in any build.
-/

namespace CH.StringPool

/-- `free_space`, /repo/src/types/column/string_pool.rs:72-78: `buffer.len() - self.position` wraps. -/
def freeSpaceR (p : StringPool) : Nat :=
  match p.chunks.getLast? with
  | some buffer => (usizeEnd + buffer.length - p.position) % usizeEnd
  | none => 0

/-- `reserve`, /repo/src/types/column/string_pool.rs:99-104: `self.capacity * AVG_STR_SIZE` wraps. -/
def reserveR (p : StringPool) (size : Nat) : Out StringPool :=
  if max (p.capacity * 80 % usizeEnd) size ≤ isizeMax then
    .ok { p with position := 0, chunks := p.chunks ++ [List.replicate (max (p.capacity * 80 % usizeEnd) size) 0] }
  else .panic

/-- `try_allocate`, /repo/src/types/column/string_pool.rs:80-97: both sums wrap; the slice panics if it ends before it starts or beyond
the chunk. -/
def tryAllocateR (p : StringPool) (size : Nat) : Out (Option (StringPool × StringPtr)) :=
  match p.chunks.getLast? with
  | none => .ok none
  | some buffer =>
    if p.position ≤ (p.position + size) % usizeEnd ∧ (p.position + size) % usizeEnd ≤ buffer.length then
      .ok (some ({ p with position := (p.position + size) % usizeEnd,
                          pointers := p.pointers ++ [⟨p.chunks.length - 1, p.position, size⟩] },
                 ⟨p.chunks.length - 1, p.position, size⟩))
    else .panic

/-- `allocate`, /repo/src/types/column/string_pool.rs:63-70, cut off after `fuel` calls as in `allocateFuel`. -/
def allocateFuelR : (fuel : Nat) → StringPool → (size : Nat) → Option (Out (StringPool × StringPtr))
  | 0, _, _ => none
  | fuel + 1, p, size =>
    if p.freeSpaceR < size ∨ p.chunks = [] then
      match p.reserveR size with
      | .ok p' => allocateFuelR fuel p' size
      | .err e => some (.err e)
      | .panic => some .panic
    else
      match p.tryAllocateR size with
      | .ok (some r) => some (.ok r)
      | .ok none => some .panic
      | .err e => some (.err e)
      | .panic => some .panic

/-- `allocate` with two calls, which always suffice here too (`C102_pool_ends`). -/
def allocateR (p : StringPool) (size : Nat) : Out (StringPool × StringPtr) :=
  match allocateFuelR 2 p size with
  | some r => r
  | none => .panic

/-- `push` of a string, /repo/src/types/column/string.rs:187-191, and one round of `From<Vec<T>>`,
/repo/src/types/column/string_pool.rs:45-48. -/
def pushR (p : StringPool) (s : Bytes) : Out StringPool :=
  match p.allocateR s.length with
  | .ok (p', q) => p'.fill q s
  | .err e => .err e
  | .panic => .panic

/-- Pushing one string after the other. -/
def pushAllR (p : StringPool) : List Bytes → Out StringPool
  | [] => .ok p
  | s :: ss =>
    match p.pushR s with
    | .ok p' => p'.pushAllR ss
    | .err e => .err e
    | .panic => .panic

/-- `read_str_into_buffer`, /repo/src/binary/read_ex.rs:100-105. -/
def readIntoR (p : StringPool) : Reader StringPool := fun bs =>
  match readUvarintR bs with
  | .ok n rest =>
    match p.allocateR n with
    | .ok (p', q) =>
      match readN n rest with
      | .ok s rest' =>
        match p'.fill q s with
        | .ok p'' => .ok p'' rest'
        | .err e => .err e rest'
        | .panic => .panic
      | .more => .more
      | .err e r => .err e r
      | .panic => .panic
    | .err e => .err e rest
    | .panic => .panic
  | .more => .more
  | .err e r => .err e r
  | .panic => .panic

/-- The loop of `StringColumnData::load`, /repo/src/types/column/string.rs:41-43. -/
def loadRowsR : (size : Nat) → StringPool → Reader StringPool
  | 0, p => Reader.pure p
  | n + 1, p => do
    let p' ← p.readIntoR
    loadRowsR n p'

/-- `StringColumnData::load`, /repo/src/types/column/string.rs:38-46. -/
def loadR (size : Nat) : Reader StringPool := fun bs =>
  match withCapacity size with
  | .ok p => loadRowsR size p bs
  | .err e => .err e bs
  | .panic => .panic

end CH.StringPool
