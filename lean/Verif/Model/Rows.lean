import Verif.Model.Block
import Verif.Model.Values

/-!
Rows and cells of a block: looking columns up, reading cells, iterating over rows, appending rows.
/repo/src/types/block/mod.rs:115-139 and 218-275, row.rs, builder.rs, and the `row!` macro (/repo/src/lib.rs:198-221).
-/

namespace CH

/-- `FromSqlError::OutOfRange`. -/
def outOfRange : Err := .other "OutOfRange"

/-- `ColumnIdx`, /repo/src/types/block/mod.rs:115-139: columns are addressed by position or by name (`String` goes through
`&str`). -/
inductive ColumnIdx where
  | pos (i : Nat)
  | name (s : String)

/-- `enumerate().find(|(_, column)| column.name() == *self)`, /repo/src/types/block/mod.rs:122-133, counting from `i`. -/
def findName (name : String) : (i : Nat) → List NCol → Out Nat
  | _, [] => .err outOfRange
  | i, c :: cs => if c.name = name then .ok i else findName name (i + 1) cs

/-- `ColumnIdx::get_index`, /repo/src/types/block/mod.rs:115-139. -/
def ColumnIdx.getIndex (cols : List NCol) : ColumnIdx → Out Nat
  | .pos i => .ok i
  | .name s => findName s 0 cols

/-- `Block::get_column`, /repo/src/types/block/mod.rs:267-274; `BlockRef::get_column`, row.rs:91-103. Indexing is checked. -/
def Block.getColumn (b : Block) (col : ColumnIdx) : Out NCol := do
  let i ← col.getIndex b.columns
  idx b.columns i

/-- `Block::get`, /repo/src/types/block/mod.rs:218-225, and `Row::get`, row.rs:16-23 with 81-90. -/
def Block.get (b : Block) (row : Nat) (col : ColumnIdx) (T : Target) : Out RustVal := do
  let i ← col.getIndex b.columns
  let c ← idx b.columns i
  let v ← c.data.at row
  fromSql T v

/-- `Row::name`, /repo/src/types/block/row.rs:36-38. -/
def Block.rowName (b : Block) (col : ColumnIdx) : Out String := do
  let c ← b.getColumn col
  pure c.name

/-- `Rows::next`, /repo/src/types/block/row.rs:107-122: the row number handed out, if any, and the next state. -/
def Block.rowsNext (b : Block) (row : Nat) : Out (Option (Nat × Nat)) := do
  let n ← b.rowCount
  if row ≥ n then pure none else pure (some (row, row + 1))

/-- What appending a row leaves behind: the block, also when the row is rejected. After a panic the block is not looked at. -/
inductive Applied where
  | done (b : Block)
  | failed (e : Err) (b : Block)
  | panic

/-- `block.columns[col_index].push(value)`, /repo/src/types/block/builder.rs:112, `Column::push` of an unshared column,
/repo/src/types/column/mod.rs:464-476 (sharing is in `Model/Share.lean`). -/
def Block.pushAt (b : Block) (i : Nat) (v : Value) : Applied :=
  match b.columns[i]? with
  | none => .panic
  | some c =>
    match c.data.push v with
    | .ok d => .done { b with columns := b.columns.set i ⟨c.name, d⟩ }
    | _ => .panic

/-- `extract_timezone`, /repo/src/types/block/builder.rs:117-131. -/
def Value.timezone : Value → Tz
  | .datetime _ tz => tz
  | .some v => v.timezone
  | .array _ (v :: _) => v.timezone
  | _ => defaultTz

/-- `put_param`, /repo/src/types/block/builder.rs:81-115. The recursive call after adding the column looks the key up again. -/
def Block.putParam (b : Block) (key : String) (v : Value) : Applied :=
  match findName key 0 b.columns with
  | .ok i => b.pushAt i v
  | .panic => .panic
  | .err e =>
    match b.rowCount with
    | .ok n =>
      if n ≤ 1 then
        match emptyCol v.timezone v.sqlType with
        | .ok d =>
          match findName key 0 (b.columns ++ [⟨key, d⟩]) with
          | .ok i => Block.pushAt { b with columns := b.columns ++ [⟨key, d⟩] } i v
          | .err e => .failed e { b with columns := b.columns ++ [⟨key, d⟩] }
          | .panic => .panic
        | .err e => .failed e b
        | .panic => .panic
      else .failed e b
    | .err e => .failed e b
    | .panic => .panic

/-- `RowBuilder::apply`: the loop of `Vec<(String, Value)>`, /repo/src/types/block/builder.rs:72-79. -/
def Block.applyVec (b : Block) : List (String × Value) → Applied
  | [] => .done b
  | (k, v) :: rest =>
    match b.putParam k v with
    | .done b' => b'.applyVec rest
    | .failed e b' => .failed e b'
    | .panic => .panic

/-- `RNil` and `RCons`, /repo/src/types/block/builder.rs:20-52. -/
inductive RCons where
  | nil
  | cons (key : String) (value : Value) (tail : RCons)

/-- `put`, /repo/src/types/block/builder.rs:31-52. -/
def RCons.put (r : RCons) (key : String) (value : Value) : RCons := .cons key value r

/-- `row! { k1: v1, k2: v2, … }`, /repo/src/lib.rs:198-221: the tail is built first, then the first pair is put. -/
def rowMacro : List (String × Value) → RCons
  | [] => .nil
  | [(k, v)] => RCons.nil.put k v
  | (k, v) :: rest => (rowMacro rest).put k v

/-- `RowBuilder::apply` for `RNil` and `RCons`, /repo/src/types/block/builder.rs:54-70. -/
def Block.applyRow (b : Block) : RCons → Applied
  | .nil => .done b
  | .cons k v tail =>
    match b.putParam k v with
    | .done b' => b'.applyRow tail
    | .failed e b' => .failed e b'
    | .panic => .panic

/-- `Block::push` of a `row!`, one after the other, stopping at the first row that is rejected
(/repo/src/types/block/mod.rs:262-264). -/
def Block.pushRows (b : Block) : List (List (String × Value)) → Applied
  | [] => .done b
  | r :: rs =>
    match b.applyRow (rowMacro r) with
    | .done b' => b'.pushRows rs
    | .failed e b' => .failed e b'
    | .panic => .panic

end CH
