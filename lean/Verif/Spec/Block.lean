import Verif.Spec.Column
import Verif.Model.Block

/-! Specifications for blocks. -/

namespace CH.Spec

/-- What is needed to write a column with `n` rows in a block and have it read back. -/
structure NColOK (known : Tz → Bool) (tz : Tz) (n : Nat) (c : NCol) : Prop where
  name : (strBytes c.name).length < 2 ^ 63
  type : (strBytes (String.ofList c.data.sqlType.name)).length < 2 ^ 63
  known : Nameable known c.data.sqlType
  len : c.data.len = .ok n
  data : Savable tz c.data 0 n
  room : InMemory c.data

/-- A block all of whose columns can be written and read back. -/
structure BlockOK (known : Tz → Bool) (tz : Tz) (n : Nat) (b : Block) : Prop where
  rows : b.rowCount = .ok n
  rows64 : n < 2 ^ 64
  cols64 : b.columns.length < 2 ^ 64
  lo : -(2 ^ 31 : Nat) ≤ b.info.bucketNum
  hi : b.info.bucketNum < (2 ^ 31 : Nat)
  cols : ∀ c ∈ b.columns, NColOK known tz n c

end CH.Spec

namespace CH.Spec

/-- The cells of row `i`, column by column. -/
def rowOf (b : Block) (i : Nat) : List (Out Value) := b.columns.map fun c => c.data.at i

/-- The rows of a block, in order. -/
def rowsOf (b : Block) : List (List (Out Value)) :=
  match b.rowCount with
  | .ok m => (List.range m).map (rowOf b)
  | _ => []

/-- Column names and types. -/
def header (b : Block) : List (String × SqlType) := b.columns.map fun c => (c.name, c.data.sqlType)

/-- Every column has `m` rows. -/
def Rect (b : Block) (m : Nat) : Prop := ∀ c ∈ b.columns, c.data.len = .ok m

/-- Running the chunk iterator to its end gives this list of blocks. -/
inductive Yields : ChunkIter → List Block → Prop
  | done {it} : it.next = .ok none → Yields it []
  | more {it it' b bs} : it.next = .ok (some (b, it')) → Yields it' bs → Yields it (b :: bs)

end CH.Spec
