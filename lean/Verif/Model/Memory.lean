import Verif.Model.Transport
import Verif.Model.Oversize

/-!
# The places where the code handles raw memory

`read_to_end` with its guard (/repo/src/io/read_to_end.rs), the removal of a message that has been read
(/repo/src/io/transport.rs:184-194), `read_bytes` into memory that has not been written yet (/repo/src/binary/read_ex.rs:25-42, used
with `set_len` at numeric.rs:163-170, date.rs:61-72 and datetime64.rs:28-40, and with an array on the stack at read_ex.rs:60-77), and
the cache of types (/repo/src/types/mod.rs:341-371). The other models take the effect of these functions on the bytes; here is the
memory itself. `none` in place of a result is undefined behaviour (or a slice out of range).
-/

namespace CH.Mem

/-- A byte of memory: `none` until it is written. -/
abbrev Slot := Option UInt8

/-- `Vec<u8>`: the whole allocation, whose size is the capacity, and the length. -/
structure Buf where
  mem : List Slot
  len : Nat

/-- What can be seen of the vector (`Deref` to a slice). -/
def Buf.shown (v : Buf) : List Slot := v.mem.take v.len

/-- `Vec::reserve` of the standard library (called at /repo/src/io/read_to_end.rs:37): if there is not enough room, a new allocation
with at least as much as asked for; `grow` is how much more the library takes. Only the bytes up to the length are copied. -/
def Buf.reserve (grow : Nat → Nat → Nat) (v : Buf) (more : Nat) : Buf :=
  if v.mem.length - v.len < more then
    { v with mem := v.mem.take v.len ++ List.replicate (more + grow v.mem.length v.len) none }
  else v

/-- `Vec::set_len` (called at /repo/src/io/read_to_end.rs:19, 39, /repo/src/io/transport.rs:191): the length must not exceed the
capacity. -/
def Buf.setLen (v : Buf) (n : Nat) : Option Buf := if n ≤ v.mem.length then some { v with len := n } else none

/-- Somebody who was lent `&mut v[i..]` writes bytes at its start: they must fit. -/
def Buf.store (v : Buf) (i : Nat) (b : Bytes) : Option Buf :=
  if i + b.length ≤ v.len ∧ v.len ≤ v.mem.length then
    some { v with mem := v.mem.take i ++ b.map some ++ v.mem.drop (i + b.length) }
  else none

/-- What a socket answers to one call of `poll_read` (/repo/src/io/stream.rs:79-111) with a buffer of the given size. -/
abbrev Sock := Nat → ReadEv

/-- The loop of `read_to_end`, /repo/src/io/read_to_end.rs:35-54, with `g.len` and the vector `g.buf`; `start` is `start_len`. A call
without a socket left is one that is not ready. `Guard::drop` (lines 16-22) sets the length when the function is left, by the `return`
inside `ready!` (line 43) too. -/
def fill (grow : Nat → Nat → Nat) (start : Nat) : List Sock → Buf → Nat → Option (Fill × Buf × List Sock)
  | socks, v, g =>
    match (if g = v.len then (v.reserve grow 32).setLen (v.reserve grow 32).mem.length else some v) with
    | none => none
    | some v1 =>
      if v1.len < g then none
      else
        match socks with
        | [] => (v1.setLen g).map fun v => (.pending, v, [])
        | s :: rest =>
          match s (v1.len - g) with
          | .pending => (v1.setLen g).map fun v => (.pending, v, rest)
          | .fail => (v1.setLen g).map fun v => (.fail, v, rest)
          | .ready b =>
            match v1.store g b with
            | none => none
            | some v2 =>
              if b = [] then (v2.setLen g).map fun v => (.ready (g - start), v, rest)
              else fill grow start rest v2 (g + b.length)
termination_by socks => socks.length

/-- `read_to_end`, /repo/src/io/read_to_end.rs:24-58. -/
def readToEnd (grow : Nat → Nat → Nat) (socks : List Sock) (v : Buf) : Option (Fill × Buf × List Sock) :=
  fill grow v.len socks v v.len

/-- Removing the first `pos` bytes, /repo/src/io/transport.rs:184-194: `ptr::copy` moves the rest to the front. -/
def Buf.consume (v : Buf) (pos : Nat) : Option Buf :=
  if pos ≤ v.len ∧ v.len ≤ v.mem.length then
    Buf.setLen { v with mem := (v.mem.drop pos).take (v.len - pos) ++ v.mem.drop (v.len - pos) } (v.len - pos)
  else none

/-- How `read_bytes` ends. -/
inductive Got where
  | ok (mem : List Slot) (rest : Bytes)
  | wouldBlock
  | invalid

/-- The loop of `read_bytes`, /repo/src/binary/read_ex.rs:25-42, into memory of which the part `todo` is still to be filled, from
a reader with the bytes `bs` left. `pick` is how many bytes the reader's `read` gives, knowing how many it has and how many are
asked for. -/
def readBytes (pick : Nat → Nat → Nat) (written todo : List Slot) (bs : Bytes) : Got :=
  if _h : todo = [] then .ok written bs
  else if _hn : pick bs.length todo.length = 0 then .wouldBlock
  else if pick bs.length todo.length ≤ bs.length ∧ pick bs.length todo.length ≤ todo.length then
    readBytes pick (written ++ (bs.take (pick bs.length todo.length)).map some) (todo.drop (pick bs.length todo.length))
      (bs.drop (pick bs.length todo.length))
  else .invalid
termination_by todo.length
decreasing_by
  have : 0 < todo.length := List.length_pos_iff.mpr _h
  simp only [List.length_drop]
  omega

/-- `VectorColumnData::load` (/repo/src/types/column/numeric.rs:163-170) and its like: a vector of `size` elements of `width` bytes is
taken as it comes, then its memory is filled. When that fails the vector is dropped. -/
def loadVec (pick : Nat → Nat → Nat) (width size : Nat) (bs : Bytes) : Got :=
  readBytes pick [] (List.replicate (size * width) none) bs

/-! ### The buffers given to LZ4 -/

/-- `LZ4_compressBound` of lz4.h, foreign code. -/
def bound (n : Nat) : Nat := if n ≤ lz4Max then n + n / 255 + 16 else 0

/-- Foreign code that writes to memory it was lent: from the input and the number of bytes it may write to what it writes. -/
abbrev Writer := Bytes → Nat → Bytes

/-- The buffer of the compressed branch of `Block::write`, /repo/src/types/block/mod.rs:335-347, for at most `lz4Max` bytes of data:
zeros, then LZ4 is lent the memory from the ninth byte on and told that it may write as many bytes as the whole buffer has. `none` if
it writes behind the end. -/
def compressMem (lz4 : Writer) (data : Bytes) : Option Bytes :=
  let buf : Bytes := List.replicate (9 + bound data.length) 0
  let out := lz4 data buf.length
  if 9 + out.length ≤ buf.length then some (resizeB (buf.take 9 ++ out ++ buf.drop (9 + out.length)) (9 + out.length)) else none

/-- The buffer of `decompress_buffer`, /repo/src/types/block/compressed.rs:99-114: zeros of the announced size, which LZ4 is told as
`i32`; given a negative one it writes nothing and fails (lz4.h), as `lz4` does by answering `none`. -/
def decompressMem (lz4 : Bytes → Nat → Option Bytes) (body : Bytes) (original : Nat) : Option (Option Bytes) :=
  if 2 ^ 31 ≤ original then some none
  else
    match lz4 body original with
    | none => some none
    | some out => if out.length ≤ original then some (some (resizeB out original)) else none

/-! ### The cache of types -/

/-- A `&'static SqlType`: to a constant of the program, or to a box. -/
inductive TypeRef where
  | constant (t : SqlType)
  | box (i : Nat)
deriving DecidableEq

/-- `TYPES_CACHE`, /repo/src/types/mod.rs:341-343: the entries of the table with the number of their box, and the contents of the
boxes. Nothing removes an entry. -/
structure Cache where
  entries : List (SqlType × Nat)
  boxes : List SqlType

/-- The types that are constants of the program, /repo/src/types/mod.rs:348-359. -/
def isConstant : SqlType → Bool
  | .num .u8 | .num .u16 | .num .u32 | .num .u64 | .num .i8 | .num .i16 | .num .i32 | .num .i64 => true
  | .string | .num .f32 | .num .f64 | .date => true
  | _ => false

/-- `From<SqlType> for &'static SqlType`, /repo/src/types/mod.rs:345-371. The second round of the loop finds the entry that the first
one made. -/
def intern (c : Cache) (t : SqlType) : TypeRef × Cache :=
  if isConstant t then (.constant t, c)
  else
    match c.entries.lookup t with
    | some i => (.box i, c)
    | none => (.box c.boxes.length, ⟨(t, c.boxes.length) :: c.entries, c.boxes ++ [t]⟩)

/-- What a reference points at. -/
def Cache.deref (c : Cache) : TypeRef → Option SqlType
  | .constant t => some t
  | .box i => c.boxes[i]?

end CH.Mem
