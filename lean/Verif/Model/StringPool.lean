import Verif.Model.Wire

/-!
The byte store behind string columns, /repo/src/types/column/string_pool.rs, and its users in
/repo/src/types/column/string.rs and /repo/src/binary/read_ex.rs.

`usize` arithmetic is checked against 2⁶⁴ (a debug build panics there), a `Vec` longer than `isize::MAX` bytes is the
"capacity overflow" panic of the standard library. Running out of memory below that limit is not represented. The Rust code
reads stored bytes through raw pointers; a read outside the store is `none` here (undefined behaviour there).
-/

namespace CH

/-- `usize::MAX + 1` on a 64-bit machine. -/
def usizeEnd : Nat := 2 ^ 64

/-- `StringPtr`, /repo/src/types/column/string_pool.rs:5-10. -/
structure StringPtr where
  chunk : Nat
  shift : Nat
  len : Nat
deriving DecidableEq, Repr

/-- `StringPool`, /repo/src/types/column/string_pool.rs:12-18. -/
structure StringPool where
  chunks : List Bytes
  pointers : List StringPtr
  position : Nat
  capacity : Nat
deriving DecidableEq, Repr

namespace StringPool

/-- `StringPool::with_capacity`, /repo/src/types/column/string_pool.rs:54-61 (a `StringPtr` takes 24 bytes). -/
def withCapacity (capacity : Nat) : Out StringPool :=
  if capacity * 24 ≤ isizeMax then .ok ⟨[], [], 0, capacity⟩ else .panic

/-- `free_space`, /repo/src/types/column/string_pool.rs:72-78. -/
def freeSpace (p : StringPool) : Out Nat :=
  match p.chunks.getLast? with
  | some buffer => if p.position ≤ buffer.length then .ok (buffer.length - p.position) else .panic
  | none => .ok 0

/-- `reserve`, /repo/src/types/column/string_pool.rs:99-104; `AVG_STR_SIZE` is 80 (line 3). -/
def reserve (p : StringPool) (size : Nat) : Out StringPool :=
  if p.capacity * 80 < usizeEnd then
    if max (p.capacity * 80) size ≤ isizeMax then
      .ok { p with position := 0, chunks := p.chunks ++ [List.replicate (max (p.capacity * 80) size) 0] }
    else .panic
  else .panic

/-- `try_allocate`, /repo/src/types/column/string_pool.rs:80-97. The slice handed out, `buffer[position..position + size]`, is
described by the pointer just stored; the bounds check is kept. -/
def tryAllocate (p : StringPool) (size : Nat) : Out (Option (StringPool × StringPtr)) :=
  match p.chunks.getLast? with
  | none => .ok none
  | some buffer =>
    if p.position + size < usizeEnd then
      if p.position + size ≤ buffer.length then
        .ok (some ({ p with position := p.position + size,
                            pointers := p.pointers ++ [⟨p.chunks.length - 1, p.position, size⟩] },
                   ⟨p.chunks.length - 1, p.position, size⟩))
      else .panic
    else .panic

/-- `allocate`, /repo/src/types/column/string_pool.rs:63-70, cut off after `fuel` recursive calls (`none`; in Rust the recursion
would go on). -/
def allocateFuel : (fuel : Nat) → StringPool → (size : Nat) → Option (Out (StringPool × StringPtr))
  | 0, _, _ => none
  | fuel + 1, p, size =>
    match p.freeSpace with
    | .ok free =>
      if free < size ∨ p.chunks = [] then
        match p.reserve size with
        | .ok p' => allocateFuel fuel p' size
        | .err e => some (.err e)
        | .panic => some .panic
      else
        match p.tryAllocate size with
        | .ok (some r) => some (.ok r)
        | .ok none => some .panic
        | .err e => some (.err e)
        | .panic => some .panic
    | .err e => some (.err e)
    | .panic => some .panic

/-- `allocate`: two calls always suffice (`C20_allocate_ends`). -/
def allocate (p : StringPool) (size : Nat) : Out (StringPool × StringPtr) :=
  match allocateFuel 2 p size with
  | some r => r
  | none => .panic

/-- Overwriting the bytes of `b` from position `shift` on with `s`. -/
def overwrite (b : Bytes) (shift : Nat) (s : Bytes) : Bytes := b.take shift ++ s ++ b.drop (shift + s.length)

/-- Writing into the slice handed out by `allocate`: `b.write_all(s)`, /repo/src/types/column/string_pool.rs:46-47,
/repo/src/types/column/string.rs:189-190, and `read_bytes(buffer)`, /repo/src/binary/read_ex.rs:103. Both write at the front of
the slice, never past its end; `write_all` of more bytes than the slice holds is an error, unwrapped. -/
def fill (p : StringPool) (q : StringPtr) (s : Bytes) : Out StringPool :=
  if s.length ≤ q.len then
    .ok { p with chunks := p.chunks.modify q.chunk (fun b => overwrite b q.shift s) }
  else .panic

/-- `push` of a string, /repo/src/types/column/string.rs:187-191, and one round of `From<Vec<T>>`,
/repo/src/types/column/string_pool.rs:45-48. -/
def push (p : StringPool) (s : Bytes) : Out StringPool :=
  match p.allocate s.length with
  | .ok (p', q) => p'.fill q s
  | .err e => .err e
  | .panic => .panic

/-- Pushing one string after the other. -/
def pushAll (p : StringPool) : List Bytes → Out StringPool
  | [] => .ok p
  | s :: ss =>
    match p.push s with
    | .ok p' => p'.pushAll ss
    | .err e => .err e
    | .panic => .panic

/-- `From<Vec<T>>`, /repo/src/types/column/string_pool.rs:39-51. -/
def ofList (ss : List Bytes) : Out StringPool :=
  match withCapacity ss.length with
  | .ok p => p.pushAll ss
  | .err e => .err e
  | .panic => .panic

/-- `get_by_pointer`, /repo/src/types/column/string_pool.rs:118-124: raw pointer arithmetic; `none` where it would leave the
chunk. -/
def getByPointer (p : StringPool) (q : StringPtr) : Option Bytes :=
  match p.chunks[q.chunk]? with
  | some b => if q.shift + q.len ≤ b.length then some ((b.drop q.shift).take q.len) else none
  | none => none

/-- `get`, /repo/src/types/column/string_pool.rs:106-110: the index is checked, the pointer is not. -/
def get (p : StringPool) (index : Nat) : Out (Option Bytes) :=
  match p.pointers[index]? with
  | some q => .ok (p.getByPointer q)
  | none => .panic

/-- `get_unchecked`, /repo/src/types/column/string_pool.rs:112-116. -/
def getUnchecked (p : StringPool) (index : Nat) : Option Bytes :=
  match p.pointers[index]? with
  | some q => p.getByPointer q
  | none => none

/-- `len`, /repo/src/types/column/string_pool.rs:126-129. -/
def len (p : StringPool) : Nat := p.pointers.length

/-- `StringIter::next`, /repo/src/types/column/string_pool.rs:25-37: the item, if any, and the next index. -/
def iterNext (p : StringPool) (index : Nat) : Out (Option (Option Bytes × Nat)) :=
  if index < p.len then
    match p.get index with
    | .ok r => .ok (some (r, index + 1))
    | .err e => .err e
    | .panic => .panic
  else .ok none

/-- `read_str_into_buffer`, /repo/src/binary/read_ex.rs:100-105. When the bytes are not all there the slot stays allocated (with
part of them); the caller drops the pool. -/
def readInto (p : StringPool) : Reader StringPool := fun bs =>
  match readUvarint bs with
  | .ok n rest =>
    match p.allocate n with
    | .ok (p', q) =>
      match readN n rest with
      | .ok s rest' =>
        match p'.fill q s with
        | .ok p'' => .ok p'' rest'
        | .err e => .err e rest'
        | .panic => .panic
      | .more => .more
      | .err e r => .err e r
      | .panic => .panic
    | .err e => .err e rest
    | .panic => .panic
  | .more => .more
  | .err e r => .err e r
  | .panic => .panic

/-- The loop of `StringColumnData::load`, /repo/src/types/column/string.rs:41-43. -/
def loadRows : (size : Nat) → StringPool → Reader StringPool
  | 0, p => Reader.pure p
  | n + 1, p => do
    let p' ← p.readInto
    loadRows n p'

/-- `StringColumnData::load`, /repo/src/types/column/string.rs:38-46. -/
def load (size : Nat) : Reader StringPool := fun bs =>
  match withCapacity size with
  | .ok p => loadRows size p bs
  | .err e => .err e bs
  | .panic => .panic

/-- Everything `strings()` yields, /repo/src/types/column/string_pool.rs:131-136, from `index` on; `rounds` bounds the number of
`next` calls. -/
def collect (p : StringPool) : (rounds index : Nat) → Out (List (Option Bytes))
  | 0, _ => .ok []
  | n + 1, index =>
    match p.iterNext index with
    | .ok (some (x, index')) =>
      match p.collect n index' with
      | .ok xs => .ok (x :: xs)
      | .err e => .err e
      | .panic => .panic
    | .ok none => .ok []
    | .err e => .err e
    | .panic => .panic

/-- `StringColumnData::save`, /repo/src/types/column/string.rs:176-181: `strings().skip(start).take(end - start)` takes at most `end`
items; `none` stands for a read outside the store. -/
def save (p : StringPool) (start stop : Nat) : Out (Option Bytes) :=
  if stop < start then .panic
  else match p.collect stop 0 with
    | .ok xs => .ok (((xs.drop start).take (stop - start)).foldr
        (fun x acc => match x, acc with | some b, some r => some (putBytes b ++ r) | _, _ => none) (some []))
    | .err e => .err e
    | .panic => .panic

end StringPool

end CH
