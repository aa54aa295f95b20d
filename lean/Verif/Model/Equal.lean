import Verif.Model.Values
import Verif.Model.Block

/-! Model of the equality of columns and blocks. -/

namespace CH

/-- The loop of `PartialEq for Column`, /repo/src/types/column/mod.rs:96-100, over the remaining rows. -/
def Col.eqRows (a b : Col) : List Nat → Out Bool
  | [] => .ok true
  | i :: is => do
    let v ← a.at i
    let w ← b.at i
    let r ← refEq v w
    if r then Col.eqRows a b is else .ok false

/-- `PartialEq for Column`, /repo/src/types/column/mod.rs:90-104: names are not compared. -/
def Col.eq (a b : Col) : Out Bool := do
  let n ← a.len
  let m ← b.len
  if n ≠ m ∨ a.sqlType ≠ b.sqlType then .ok false else Col.eqRows a b (List.range n)

/-- The loop of `PartialEq for Block`, /repo/src/types/block/mod.rs:89-93. -/
def eqCols : List NCol → List NCol → Out Bool
  | c :: cs, d :: ds => do
    let r ← c.data.eq d.data
    if r then eqCols cs ds else .ok false
  | _, _ => .ok true

/-- `PartialEq for Block`, /repo/src/types/block/mod.rs:83-97: neither names nor block info are compared. -/
def Block.eq (a b : Block) : Out Bool :=
  if a.columns.length ≠ b.columns.length then .ok false else eqCols a.columns b.columns

end CH
