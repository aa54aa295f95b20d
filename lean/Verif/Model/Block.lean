import Verif.Model.Load

/-!
Model of blocks: /repo/src/types/block/mod.rs, block_info.rs, chunk_iterator.rs, and of named columns
(/repo/src/types/column/mod.rs) and concatenated columns (/repo/src/types/column/concat.rs).
-/

namespace CH

/-- `BlockInfo`, /repo/src/types/block/block_info.rs:10-15. -/
structure BlockInfo where
  isOverflows : Bool
  bucketNum : Int
deriving DecidableEq, Repr

/-- `BlockInfo::default`, /repo/src/types/block/block_info.rs:17-24. -/
def BlockInfo.default : BlockInfo := ⟨false, -1⟩

/-- `BlockInfo::write`, /repo/src/types/block/block_info.rs:44-50 (field numbers 6-8). -/
def putBlockInfo (i : BlockInfo) : Bytes :=
  putUvarint 1 ++ putBool i.isOverflows ++ putUvarint 2 ++ putLE 4 (ofSigned 4 i.bucketNum) ++ putUvarint 0

/-- One round of the loop of `BlockInfo::read`, /repo/src/types/block/block_info.rs:27-42. -/
def readBlockInfoStep (i : BlockInfo) : Reader (BlockInfo ⊕ BlockInfo) := do
  let k ← readUvarint
  if k = 1 then do
    let b ← readBool
    Reader.pure (.inl { i with isOverflows := b })
  else if k = 2 then do
    let n ← readLE 4
    Reader.pure (.inl { i with bucketNum := toSigned 4 n })
  else if k = 0 then Reader.pure (.inr i)
  else Reader.fail (.unknownPacket k)

/-- `BlockInfo::read`, /repo/src/types/block/block_info.rs:27-42. -/
def readBlockInfo : Reader BlockInfo := Reader.loop readBlockInfoStep BlockInfo.default

/-- `Column<Simple>`, /repo/src/types/column/mod.rs:57-62. -/
structure NCol where
  name : String
  data : Col

/-- `Block<Simple>`, /repo/src/types/block/mod.rs:76-81 (the capacity is left out). -/
structure Block where
  info : BlockInfo
  columns : List NCol

/-- `Block::new`, /repo/src/types/block/mod.rs:141-154, and `Block::default` (75). -/
def Block.new : Block := ⟨BlockInfo.default, []⟩

/-- `Block::row_count`, /repo/src/types/block/mod.rs:189-194. -/
def Block.rowCount (b : Block) : Out Nat :=
  match b.columns with
  | [] => .ok 0
  | c :: _ => c.data.len

/-- `Block::append_column`, /repo/src/types/block/mod.rs:207-215. -/
def Block.append (b : Block) (c : NCol) : Out Block := do
  let l ← c.data.len
  if b.columns.isEmpty then pure { b with columns := b.columns ++ [c] }
  else do
    let m ← b.rowCount
    if m ≠ l then Out.panic else pure { b with columns := b.columns ++ [c] }

/-- `Column::read`, /repo/src/types/column/mod.rs:180-191. -/
def readColumn (known : Tz → Bool) (tz : Tz) (size : Nat) : Reader NCol := do
  let name ← readString
  let tn ← readString
  let d ← loadData known tz tn.toList size
  Reader.pure ⟨name, d⟩

/-- The loop of `Block::raw_load`, /repo/src/types/block/mod.rs:178-181. -/
def readColumns (known : Tz → Bool) (tz : Tz) (rows : Nat) : Nat → Block → Reader Block
  | 0, b => Reader.pure b
  | n + 1, b => do
    let c ← readColumn known tz rows
    let b ← Reader.lift (b.append c)
    readColumns known tz rows n b

/-- `Block::raw_load`, /repo/src/types/block/mod.rs:168-184. -/
def rawLoad (known : Tz → Bool) (tz : Tz) : Reader Block := do
  let info ← readBlockInfo
  let nc ← readUvarint
  let nr ← readUvarint
  readColumns known tz nr nc { Block.new with info := info }

/-- `Column::write`, /repo/src/types/column/mod.rs:208-213. -/
def NCol.write (c : NCol) : Out Bytes := do
  let l ← c.data.len
  let d ← c.data.save 0 l
  pure (putString c.name ++ putString (String.ofList c.data.sqlType.name) ++ d)

/-- `Block::write` without compression, /repo/src/types/block/mod.rs:361-368. -/
def Block.write (b : Block) : Out Bytes := do
  let n ← b.rowCount
  let cs ← mapOut NCol.write b.columns
  pure (putBlockInfo b.info ++ putUvarint b.columns.length ++ putUvarint n ++ cs.flatten)

/-! ### Chunks -/

/-- `ChunkIterator`, /repo/src/types/block/chunk_iterator.rs:5-9. -/
structure ChunkIter where
  position : Nat
  size : Nat
  block : Block

/-- `Block::chunks`, /repo/src/types/block/mod.rs:377-379, `ChunkIterator::new`, chunk_iterator.rs:40-48. -/
def Block.chunks (b : Block) (n : Nat) : ChunkIter := ⟨0, n, b⟩

/-- `Column::slice`, /repo/src/types/column/mod.rs:220-227. -/
def NCol.slice (c : NCol) (s e : Nat) : NCol := ⟨c.name, .chunk c.data s e⟩

/-- The loop adding the sliced columns, /repo/src/types/block/chunk_iterator.rs:29-33 (with `Block::column`,
/repo/src/types/block/mod.rs:236-245). -/
def appendAll : Block → List NCol → Out Block
  | b, [] => .ok b
  | b, c :: cs => do
    let b ← b.append c
    appendAll b cs

/-- `ChunkIterator::next`, /repo/src/types/block/chunk_iterator.rs:14-37. -/
def ChunkIter.next (it : ChunkIter) : Out (Option (Block × ChunkIter)) := do
  let m ← it.block.rowCount
  if m = 0 ∧ it.position = 0 then pure (some (Block.new, { it with position := 1 }))
  else if it.position ≥ m then pure none
  else do
    let size := min it.size (m - it.position)
    let b ← appendAll Block.new (it.block.columns.map fun c => c.slice it.position (it.position + size))
    pure (some (b, { it with position := it.position + size }))

/-! ### Concatenation -/

/-- `ConcatColumnData`, /repo/src/types/column/concat.rs:11-14. -/
structure ConcatCol where
  data : List Col
  index : List Nat

/-- The loop of `build_index`, /repo/src/types/column/concat.rs:88-101. -/
def buildIndexFrom (acc : Nat) : List Nat → List Nat
  | [] => [acc]
  | n :: ns => acc :: buildIndexFrom (acc + n) ns

/-- `build_index`, /repo/src/types/column/concat.rs:88-101. -/
def buildIndex (sizes : List Nat) : List Nat := buildIndexFrom 0 sizes

/-- The loop of `find_chunk`, /repo/src/types/column/concat.rs:103-125. -/
def findChunkLoop (index : List Nat) (ix lo hi : Nat) : Out Nat :=
  if lo < hi then do
    let mid := lo + (hi - lo) / 2
    let a ← idx index lo
    let b ← idx index (lo + 1)
    if a = b then findChunkLoop index ix (lo + 1) hi
    else do
      let m ← idx index mid
      if ix < m then findChunkLoop index ix lo mid
      else do
        let m1 ← idx index (mid + 1)
        if ix ≥ m1 then findChunkLoop index ix (mid + 1) hi
        else pure mid
  else .ok 0
termination_by hi - lo
decreasing_by all_goals omega

/-- `find_chunk`, /repo/src/types/column/concat.rs:103-125. -/
def findChunk (index : List Nat) (ix : Nat) : Out Nat :=
  if index = [] then .panic else findChunkLoop index ix 0 (index.length - 1)

/-- `ConcatColumnData::concat` with `check_columns`, /repo/src/types/column/concat.rs:17-39. -/
def concatCols : List Col → Out ConcatCol
  | [] => .panic
  | c :: cs =>
    if cs.all fun d => c.sqlType == d.sqlType then do
      let ls ← mapOut Col.len (c :: cs)
      pure ⟨c :: cs, buildIndex ls⟩
    else Out.panic

/-- `ConcatColumnData::sql_type`, /repo/src/types/column/concat.rs:43-45. -/
def ConcatCol.sqlType (c : ConcatCol) : Out SqlType := do
  let d ← idx c.data 0
  pure d.sqlType

/-- `ConcatColumnData::len`, /repo/src/types/column/concat.rs:51-53. -/
def ConcatCol.len (c : ConcatCol) : Out Nat :=
  match c.index.getLast? with
  | some n => .ok n
  | none => .panic

/-- `ConcatColumnData::at`, /repo/src/types/column/concat.rs:59-63. -/
def ConcatCol.at (c : ConcatCol) (i : Nat) : Out Value := do
  let k ← findChunk c.index i
  let d ← idx c.data k
  let s ← idx c.index k
  if i < s then Out.panic else d.at (i - s)

/-- `Block<Complex>` (the struct, /repo/src/types/block/mod.rs:75-81) as made by `concat`, /repo/src/types/block/mod.rs:278-303. -/
structure CBlock where
  info : BlockInfo
  columns : List (String × ConcatCol)

/-- `Block<Complex>::row_count`, /repo/src/types/block/mod.rs:189-194. -/
def CBlock.rowCount (b : CBlock) : Out Nat :=
  match b.columns with
  | [] => .ok 0
  | c :: _ => c.2.len

/-- `Column::concat` of the `i`-th columns, /repo/src/types/column/mod.rs:117-135; the name is the first block's. -/
def concatColumn (bs : List Block) (i : Nat) : Out (String × ConcatCol) := do
  let cs ← mapOut (fun (b : Block) => idx b.columns i) bs
  match cs with
  | [] => Out.panic
  | c :: _ => do
    let d ← concatCols (cs.map NCol.data)
    pure (c.name, d)

/-- `Block::concat`, /repo/src/types/block/mod.rs:278-301. -/
def concatBlocks : List Block → Out CBlock
  | [] => .panic
  | b :: bs =>
    if (b :: bs).all fun d => b.columns.length == d.columns.length then do
      let cols ← rangeOut (concatColumn (b :: bs)) 0 b.columns.length
      pure ⟨b.info, cols⟩
    else Out.panic

end CH
