import Verif.Model.Block
import Verif.Model.Rows
import Verif.Model.From
import Verif.Model.Into
import Verif.Model.Iter
import Verif.Model.Equal
import Verif.Model.Float
import Verif.Model.StringPool

/-!
The project's own unit tests, read as statements about the model: blocks, columns, iteration and typed reads. Each `example` is one
test or one assertion of it. They are tests of the model's fidelity, not claims.
-/

namespace CH.Conform
open CH

/-- Zone data for tests that do not look at zones: offset zero. -/
def utcOnly : Zones := fun _ _ => 0

/-- `Block::column` after `column_from`. -/
def withColumn (b : Block) (name : String) (c : Out Col) : Out Block := do b.append ⟨name, ← c⟩

/-- `Block::write` followed by `Block::load` of everything written, compared by `==`; nothing may be left over. -/
def roundTrips (b : Out Block) : Out Bool := do
  let b ← b
  match rawLoad (fun _ => true) defaultTz (← b.write) with
  | .ok b' [] => b.eq b'
  | _ => .ok false

/-! `test_build_index`, `test_find_chunk`, `test_find_chunk2`, `test_find_chunk5`, /repo/src/types/column/concat.rs:152-200. -/

example : buildIndex [2, 3, 4] = [0, 2, 5, 9] := by decide
example : [0, 1, 2, 3, 4, 5, 6, 7].map (findChunk [0, 2, 5, 9]) = [0, 0, 1, 1, 1, 2, 2, 2].map .ok := by decide +kernel
example : findChunk [0] 7 = .ok 0 := by decide +kernel
example : [0, 1, 2, 3, 4, 5].map (findChunk [0, 0, 5]) = [1, 1, 1, 1, 1, 0].map .ok := by decide +kernel
example : ∀ i < 69, findChunk [0, 0, 3, 6, 9, 12, 15, 18, 21, 24, 27, 30, 33, 36, 39, 42, 45, 48, 51, 54, 57, 60, 63, 66, 69] i =
    .ok (1 + i / 3) := by decide +kernel

/-! `test_concat_column`, `test_concat_num_column`, /repo/src/types/column/concat.rs:203-240. -/

/-- The bytes of the first string of `test_concat_column`. -/
def id1 : String := "13298a5f-6a10-4fbe-9644-807f7ebf82cc"
/-- The bytes of the second one. -/
def id2 : String := "df0e62bb-c0db-4728-a558-821f8e8da38c"

/-- A cell as a string of bytes. -/
def bytesAt (c : ConcatCol) (i : Nat) : Out (Option Bytes) := do
  match ← c.at i with
  | .str b => pure (some b)
  | _ => pure none

/-- A cell as a number. -/
def numAt (c : ConcatCol) (i : Nat) : Out (Option Nat) := do
  match ← c.at i with
  | .num _ n => pure (some n)
  | _ => pure none

example : (do
    let c ← concatCols [.str [strBytes id1, strBytes id2], .str [strBytes id1, strBytes id2]]
    pure (← mapOut (bytesAt c) [0, 1, 2, 3], ← c.len) : Out (List (Option Bytes) × Nat)) =
    .ok ([some (strBytes id1), some (strBytes id2), some (strBytes id1), some (strBytes id2)], 4) := by decide +kernel
example : (do
    let c ← concatCols [.num .u32 [1, 2], .num .u32 [1, 2]]
    pure (← mapOut (numAt c) [0, 1, 2, 3], ← c.len) : Out (List (Option Nat) × Nat)) =
    .ok ([some 1, some 2, some 1, some 2], 4) := by decide +kernel

/-! `test_to_datetime`, `test_from_datetime`, /repo/src/types/column/datetime64.rs:163-174; 2019-01-01 is day 17897. -/

example : toDatetime 1546300800000 3 = .ok (17897 * 86400, 0) := by decide +kernel
example : fromDatetime (17897 * 86400) 0 3 = .ok 1546300800000 := by decide +kernel

/-! `test_read_write_blockinfo`, /repo/src/types/block/block_info.rs:58-73. -/

example : readBlockInfo (putBlockInfo ⟨true, 3⟩) = .ok ⟨true, 3⟩ [] := by decide +kernel

/-! `test_write_default`, `test_read_empty_block`, `test_empty`, `test_column_and_rows`, /repo/src/types/block/mod.rs. -/

example : Block.new.write = .ok [1, 0, 2, 255, 255, 255, 255, 0, 0, 0] := by decide +kernel
example : (match rawLoad (fun _ => true) defaultTz [1, 0, 2, 255, 255, 255, 255, 0, 0, 0] with
    | .ok b [] => b.columns.isEmpty
    | _ => false) = true := by decide +kernel
example : Block.new.columns = [] := rfl
example : (do
    let b ← withColumn Block.new "hello_id" (colOf (.num .u32) [(5 : Nat), (6 : Nat)])
    let b ← withColumn b "value" (colOf .text ["lol", "zuz"])
    pure (b.columns.length, ← b.rowCount) : Out (Nat × Nat)) = .ok (2, 2) := by decide +kernel

/-! The inside of `test_compress_block`, /repo/src/types/block/mod.rs: the 23 bytes that the compressed frame carries. -/

example : (do (← withColumn Block.new "s" (colOf .text ["abc"])).write) =
    .ok [1, 0, 2, 255, 255, 255, 255, 0, 1, 1, 1, 115, 6, 83, 116, 114, 105, 110, 103, 3, 97, 98, 99] := by decide +kernel

/-! `test_concat`, /repo/src/types/block/mod.rs. -/

/-- `make_block`. -/
def idBlock : Out Block := withColumn Block.new "9b96ad8b-488a-4fef-8087-8a9ae4800f00" (colOf .text [id1, id2])

example : (do
    let c ← concatBlocks [← idBlock, ← idBlock]
    let d ← idx c.columns 0
    pure ((← c.rowCount, c.columns.length), ← mapOut (bytesAt d.2) [0, 1, 2, 3]) : Out ((Nat × Nat) × List (Option Bytes))) =
    .ok ((4, 1), [some (strBytes id1), some (strBytes id2), some (strBytes id1), some (strBytes id2)]) := by decide +kernel

/-! `test_chunks`, `test_chunks_of_empty_block`, /repo/src/types/block/mod.rs. -/

/-- The next chunk equals the block, and the iterator goes on. -/
def chunkIs (it : ChunkIter) (b : Block) : Out (Bool × ChunkIter) := do
  match ← it.next with
  | none => pure (false, it)
  | some (c, it) => pure (← c.eq b, it)

/-- A column `A` of `i32`. -/
def colA (xs : List Nat) : Out Block := withColumn Block.new "A" (.ok (.num .i32 xs))

example : (do
    let (x, it) ← chunkIs ((← colA [1, 2, 3, 4, 5]).chunks 2) (← colA [1, 2])
    let (y, it) ← chunkIs it (← colA [3, 4])
    let (z, it) ← chunkIs it (← colA [5])
    pure [x, y, z, (← it.next).isNone] : Out (List Bool)) = .ok [true, true, true, true] := by decide +kernel
example : (do
    let (x, it) ← chunkIs (Block.new.chunks 100500) Block.new
    pure [x, (← it.next).isNone] : Out (List Bool)) = .ok [true, true] := by decide +kernel

/-! `test_write_and_read`, /repo/src/types/block/mod.rs, array.rs and map.rs. -/

example : roundTrips (withColumn Block.new "y" (optOf (.num .u8) [some (1 : Nat), none])) = .ok true := by decide +kernel
example : roundTrips (withColumn Block.new "vals" (vecOf (.num .u32) [[(7 : Nat), (8 : Nat)], [(9 : Nat), (1 : Nat), (2 : Nat)],
    [(3 : Nat), (4 : Nat), (5 : Nat), (6 : Nat)]])) = .ok true := by decide +kernel
example : roundTrips (withColumn Block.new "vals" (hashOf .text (.num .u8) [[("test", (4 : Nat)), ("foo", (5 : Nat))]])) = .ok true := by
  decide +kernel

/-! `test_rows` and `test_insert_str_array`, /repo/src/types/block/mod.rs; `test_get_optional_map_cells`, map.rs. -/

mutual
/-- Two results of typed reads are the same. -/
def sameVal : RustVal → RustVal → Bool
  | .num a, .num b => a == b
  | .text a, .text b => a == b
  | .bytes a, .bytes b => a == b
  | .vec a, .vec b => sameVals a b
  | .none, .none => true
  | .some a, .some b => sameVal a b
  | .hmap a b, .hmap c d => sameVals a c && sameVals b d
  | _, _ => false
termination_by structural a => a
/-- One by one. -/
def sameVals : List RustVal → List RustVal → Bool
  | [], [] => true
  | x :: xs, y :: ys => sameVal x y && sameVals xs ys
  | _, _ => false
termination_by structural a => a
end

/-- The rows of a `Block`, each pushed with `row!`; the values come from Rust values. -/
def pushed (rows : List (List (String × Out Value))) : Out Block := do
  let rs ← mapOut (fun r => mapOut (fun (p : String × Out Value) => do pure (p.1, ← p.2)) r) rows
  match Block.new.pushRows rs with
  | .done b => pure b
  | .failed e _ => Out.err e
  | .panic => Out.panic

example : (do
    let b ← withColumn Block.new "A" (colOf (.num .u8) [(1 : Nat), (2 : Nat), (3 : Nat)])
    let vs ← mapOut (fun i => b.get i (.name "A") (.num .u8)) [0, 1, 2]
    pure (sameVals vs [.num 1, .num 2, .num 3]) : Out Bool) = .ok true := by decide +kernel
example : (do
    let b ← pushed [[("tags", toValue .vecText ["A", "B"])]]
    let v ← b.get 0 (.pos 0) .vecText
    pure (sameVal v (.vec [.text "A", .text "B"])) : Out Bool) = .ok true := by decide +kernel
example : (do
    let b ← pushed [[("vals", toValue (.opt (.hmap (.num .u32) (.num .u32))) (some [((1 : Nat), (2 : Nat))]))],
      [("vals", toValue (.opt (.hmap (.num .u32) (.num .u32))) none)]]
    let vs ← mapOut (fun i => b.get i (.pos 0) (.opt (.hmap (.num .u32) (.num .u32)))) [0, 1]
    pure (sameVals vs [.some (.hmap [.num 1] [.num 2]), .none]) : Out Bool) = .ok true := by decide +kernel

/-! Iteration: `test_complex_iter`, `test_map_iter`, /repo/src/types/column/iter/mod.rs; `test_double_iteration` to
`test_iterate_map_with_optioanl_value`, map.rs. -/

mutual
/-- Two items are the same. -/
def sameItem : Item → Item → Bool
  | .num t x, .num t' y => t == t' && x == y
  | .bytes x, .bytes y => x == y
  | .none, .none => true
  | .some x, .some y => sameItem x y
  | .hmap a b, .hmap c d => sameItems a c && sameItems b d
  | _, _ => false
termination_by structural a => a
/-- One by one. -/
def sameItems : List Item → List Item → Bool
  | [], [] => true
  | x :: xs, y :: ys => sameItem x y && sameItems xs ys
  | _, _ => false
termination_by structural a => a
end

/-- The iteration yields these items and then ends. -/
def yields (r : Out Run) (xs : List Item) : Out Bool := do
  let r ← r
  pure (sameItems r.items xs && r.stop == .done)

/-- `block.get_column("vals").iter()`. -/
def iterVals (b : Out Block) (t : ITy) : Out Run := do
  let c ← (← b).getColumn (.name "vals")
  c.data.iter utcOnly t

example : yields (do
    let lo ← withColumn Block.new "?" (colOf (.num .u32) [(1 : Nat), (2 : Nat)])
    let hi ← withColumn Block.new "?" (colOf (.num .u32) [(3 : Nat), (4 : Nat), (5 : Nat)])
    let c ← idx (← concatBlocks [lo, hi]).columns 0
    c.2.iter utcOnly (.num .u32)) [.num .u32 1, .num .u32 2, .num .u32 3, .num .u32 4, .num .u32 5] = .ok true := by
  decide +kernel
example : yields (do
    let c ← hashOf .text (.num .u8) [[("a", (5 : Nat))]]
    c.iter utcOnly (.hmap .bytes (.num .u8))) [.hmap [.bytes [97]] [.num .u8 5]] = .ok true := by decide +kernel
example : yields (iterVals (pushed [[("vals", toValue (.hmap (.num .u8) (.num .u8)) [((1 : Nat), (2 : Nat))])]])
    (.hmap (.num .u8) (.num .u8))) [.hmap [.num .u8 1] [.num .u8 2]] = .ok true := by decide +kernel
example : yields (iterVals (pushed [[("vals", toValue (.hmap .text (.num .u8)) [("A", (1 : Nat)), ("B", (2 : Nat)), ("C", (3 : Nat))])]])
    (.hmap .bytes (.num .u8))) [.hmap [.bytes [65], .bytes [66], .bytes [67]] [.num .u8 1, .num .u8 2, .num .u8 3]] =
    .ok true := by decide +kernel
example : yields (iterVals (pushed [[("vals", toValue (.hmap (.num .u16) (.hmap (.num .u16) (.num .u16)))
      [((10 : Nat), [((100 : Nat), (3000 : Nat))]), ((20 : Nat), [((800 : Nat), (5000 : Nat)), ((900 : Nat), (6000 : Nat))])])]])
    (.hmap (.num .u16) (.hmap (.num .u16) (.num .u16))))
    [.hmap [.num .u16 10, .num .u16 20] [.hmap [.num .u16 100] [.num .u16 3000],
      .hmap [.num .u16 800, .num .u16 900] [.num .u16 5000, .num .u16 6000]]] = .ok true := by decide +kernel
example : yields (iterVals (pushed [[("vals", toValue (.opt (.hmap (.num .u32) (.num .u32))) (some [((1 : Nat), (2 : Nat))]))],
      [("vals", toValue (.opt (.hmap (.num .u32) (.num .u32))) none)]])
    (.opt (.hmap (.num .u32) (.num .u32)))) [.some (.hmap [.num .u32 1] [.num .u32 2]), .none] = .ok true := by decide +kernel
example : yields (iterVals (pushed [[("vals", .ok (.map (.num .u32) (.nullable (.num .u32)) [.num .u32 1] [.some (.num .u32 2)]))]])
    (.hmap (.num .u32) (.opt (.num .u32)))) [.hmap [.num .u32 1] [.some (.num .u32 2)]] = .ok true := by decide +kernel

/-! `test_push_row`, /repo/src/types/block/builder.rs:146-226: the types of the columns a row makes. 2016-10-22 is day 17096,
2014-07-08 14:00:00 is second 1404828000. The bit patterns of the floats are not looked at. -/

example : (do
    let d ← Decimal.ofFlt 53 (.fin 2 0) 4
    let b ← pushed [[
      ("i8_field", toValue (.num .i8) (1 : Nat)), ("i16_field", toValue (.num .i16) (1 : Nat)),
      ("i32_field", toValue (.num .i32) (1 : Nat)), ("i64_field", toValue (.num .i64) (1 : Nat)),
      ("u8_field", toValue (.num .u8) (1 : Nat)), ("u16_field", toValue (.num .u16) (1 : Nat)),
      ("u32_field", toValue (.num .u32) (1 : Nat)), ("u64_field", toValue (.num .u64) (1 : Nat)),
      ("f32_field", toValue (.num .f32) (0x40951eb8 : Nat)), ("f64_field", toValue (.num .f64) (0x4005ae147ae147ae : Nat)),
      ("str_field", toValue .text "text"), ("opt_filed", toValue (.opt .text) (some "text")), ("nil_filed", toValue (.opt .text) none),
      ("date_field", toValue .date (17096 : Int)), ("date_time_field", toValue .time ((1404828000 : Int), (0 : Nat), "UTC".toList)),
      ("decimal_field", toValue .decimal d)]]
    pure (← b.rowCount, b.columns.map fun c => c.data.sqlType) : Out (Nat × List SqlType)) =
    .ok (1, [.num .i8, .num .i16, .num .i32, .num .i64, .num .u8, .num .u16, .num .u32, .num .u64, .num .f32, .num .f64, .string,
      .nullable .string, .nullable .string, .date, .chrono, .decimal 18 4]) := by decide +kernel

/-! `test_value_array_from`, /repo/src/types/value.rs. -/

example : (do
    let b ← pushed [[.u16, .u32, .u64, .i8, .i16, .i32, .i64, .f32, .f64].map fun t =>
      (String.ofList (SqlType.name (.num t)), toValue (.vecNum t) [(1 : Nat), (2 : Nat), (3 : Nat)])]
    pure (← b.rowCount, b.columns.length) : Out (Nat × Nat)) = .ok (1, 9) := by decide +kernel

/-! `test_create_date`, /repo/src/types/column/date.rs: the type and the stored day. -/

example : (do
    let c ← colOf .date [(17096 : Int)]
    match ← c.at 0 with
    | .date d => pure (c.sqlType, d)
    | _ => Out.panic : Out (SqlType × Nat)) = .ok (.date, 17096) := by decide +kernel

/-! `test_u8`, `test_bad_convert`, `null_to_datetime`, /repo/src/types/from_sql.rs:363-391. -/

example : (do pure (sameVal (← fromSql (.num .u8) (.num .u8 42)) (.num 42)) : Out Bool) = .ok true := by decide +kernel
example : ∃ e, fromSql (.num .u32) (.num .u16 42) = .err e := ⟨_, rfl⟩
example : (do pure (sameVal (← fromSql (.opt .time) (.null .datetime)) .none) : Out Bool) = .ok true := by decide +kernel

/-! `test_allocate`, `test_get`, /repo/src/types/column/string_pool.rs, with fewer strings (the theorems of C20 are about any number). -/

example : (do
    let p ← StringPool.withCapacity 10
    let p ← p.pushAll ((List.range 40).map fun i => strBytes "text-" ++ strBytes (toString i))
    mapOut p.get (List.range 40) : Out (List (Option Bytes))) =
    .ok ((List.range 40).map fun i => some (strBytes "text-" ++ strBytes (toString i))) := by decide +kernel

end CH.Conform
