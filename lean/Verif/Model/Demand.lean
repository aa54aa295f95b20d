import Verif.Model.Block
import Verif.Model.StringPool

/-!
# The memory that reading a column asks for

The readers of `Model/Load` once more, with the number of bytes that they ask the allocator for on the way, in whatever way they end.
Only memory that grows with what the server announces is counted, not the columns' own fields, and what is given back is not
subtracted.
-/

namespace CH

/-- A reader together with the memory it asks for. -/
abbrev Metered (α : Type) := Bytes → Res α × Nat

/-- One reader after the other. -/
def Metered.bind (m : Metered α) (f : α → Metered β) : Metered β := fun bs =>
  match m bs with
  | (.ok a rest, k) => ((f a rest).1, k + (f a rest).2)
  | (.more, k) => (.more, k)
  | (.err e rest, k) => (.err e rest, k)
  | (.panic, k) => (.panic, k)

/-- A reader that asks for no memory. -/
def Metered.free (r : Reader α) : Metered α := fun bs => (r bs, 0)

/-- `vec![0; n]` and the like: `alloc` (Model/Wire). The "capacity overflow" panic comes before anything is asked for. -/
def Metered.take (n : Nat) : Metered Unit := fun bs => (alloc n bs, if n ≤ isizeMax then n else 0)

/-- `ReadEx::read_string`, /repo/src/binary/read_ex.rs:53-58. -/
def readStringM : Metered String :=
  Metered.bind (.free readUvarint) fun n => .bind (.take n) fun _ => .bind (.free (readN n)) fun b =>
    match strOfBytes? b with
    | some s => .free (Reader.pure s)
    | none => .free (Reader.fail .utf8)

/-- `VectorColumnData::<T>::load`, /repo/src/types/column/numeric.rs:163-170, and the like. -/
def loadNumsM (w size : Nat) : Metered (List Nat) :=
  Metered.bind (.take (size * w)) fun _ => .free (readN (size * w) >>= fun b => Reader.pure (splitLE w size b))

/-- The memory of the chunks of a pool, /repo/src/types/column/string_pool.rs:12-18. -/
def StringPool.room (p : StringPool) : Nat := (p.chunks.map List.length).sum

/-- `read_str_into_buffer`, /repo/src/binary/read_ex.rs:100-105: what the pool grows by. -/
def StringPool.readIntoM (p : StringPool) : Metered StringPool := fun bs =>
  (p.readInto bs,
    match readUvarint bs with
    | .ok n _ =>
      match p.allocate n with
      | .ok (p', _) => p'.room - p.room
      | _ => 0
    | _ => 0)

/-- The loop of `StringColumnData::load`, /repo/src/types/column/string.rs:41-43. -/
def StringPool.loadRowsM : (size : Nat) → StringPool → Metered StringPool
  | 0, p => .free (Reader.pure p)
  | n + 1, p => .bind p.readIntoM fun p' => loadRowsM n p'

/-- `load_data` after name analysis, as `Plan.load` (Model/Load), without the column that is made. -/
def Plan.demand : Plan → Nat → Metered Unit
  | .num t, size => .bind (loadNumsM t.width size) fun _ => .free (Reader.pure ())
  | .string, size => .bind (.take (size * 24)) fun _ => .bind (StringPool.loadRowsM size ⟨[], [], 0, size⟩) fun _ => .free (Reader.pure ())
  | .fixed n, size => .bind (.take (size * n)) fun _ => .bind (.free (readMany (readN n) size)) fun _ => .free (Reader.pure ())
  | .date _, size => .bind (loadNumsM 2 size) fun _ => .free (Reader.pure ())
  | .datetime _, size => .bind (loadNumsM 4 size) fun _ => .free (Reader.pure ())
  | .dt64 _ _, size => .bind (loadNumsM 8 size) fun _ => .free (Reader.pure ())
  | .ip k, size => .bind (.take (size * k.size)) fun _ => .bind (.free (readN (size * k.size))) fun _ => .free (Reader.pure ())
  | .nullable p, size => .bind (.take size) fun _ => .bind (.free (readN size)) fun _ => p.demand size
  | .array p, size => .bind (loadNumsM 8 size) fun offs => p.demand (lastOff offs)
  | .map k v, size => .bind (loadNumsM 8 size) fun offs => .bind (k.demand (lastOff offs)) fun _ => v.demand (lastOff offs)
  | .decimal _ _ nb, size => .bind (loadNumsM nb.width size) fun _ => .free (Reader.pure ())
  | .enum w _, size => .bind (loadNumsM w.width size) fun _ => .free (Reader.pure ())
  | .simpleAgg _ p, size => p.demand size
  | .lowCard p, size =>
    if size = 0 then .bind (p.demand 0) fun _ => .bind (loadNumsM 1 0) fun _ => .free (Reader.pure ())
    else .bind (.free (readLE 8)) fun version =>
      if version ≠ 1 then .free (Reader.fail (.other "Invalid low cardinality version"))
      else .bind (.free (readLE 8)) fun flags =>
        match IdxTy.fromFlags flags with
        | none => .free (Reader.fail (.other "Invalid index serialization version value"))
        | some ity =>
          if flags / 2 ^ 8 % 2 ≠ 0 then .free (Reader.fail (.other "Global dictionary is not supported."))
          else if flags / 2 ^ 9 % 2 = 0 then .free (Reader.fail (.other "HasAdditionalKeysBit is missing."))
          else .bind (.free (readLE 8)) fun n => .bind (p.demand n) fun _ => .bind (.free (readLE 8)) fun rows =>
            .bind (loadNumsM ity.width rows) fun _ => if flags = lcFlags ity then .free (Reader.pure ()) else .free Reader.panic
  | .bad e, _ => .free (Reader.fail e)
  | .crash, _ => .free Reader.panic

/-- `Column::read`, /repo/src/types/column/mod.rs:180-191. -/
def readColumnM (known : Tz → Bool) (tz : Tz) (size : Nat) : Metered Unit :=
  Metered.bind readStringM fun _ => .bind readStringM fun tn => (resolve known tz tn.toList).demand size

/-- The loop of `Block::raw_load`, /repo/src/types/block/mod.rs:178-181, without the block that is made: a column of another length than
the first, which is a panic there, is let pass. -/
def readColumnsM (known : Tz → Bool) (tz : Tz) (rows : Nat) : Nat → Metered Unit
  | 0 => .free (Reader.pure ())
  | n + 1 => .bind (readColumnM known tz rows) fun _ => readColumnsM known tz rows n

/-- `Block::raw_load`, /repo/src/types/block/mod.rs:168-184. -/
def rawLoadM (known : Tz → Bool) (tz : Tz) : Metered Unit :=
  Metered.bind (.free readBlockInfo) fun _ => .bind (.free readUvarint) fun nc => .bind (.free readUvarint) fun nr =>
    readColumnsM known tz nr nc

end CH
