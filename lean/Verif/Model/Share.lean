import Verif.Model.Column

/-!
Sharing of column data through `Arc`, and appending to columns that are, or were, shared:
/repo/src/types/column/mod.rs:58-62 (`Column { data: Arc<dyn ColumnData> }`), 106-114 (`Clone for Column`), 464-476
(`Column::push`), the `clone_instance` and `push` methods of the column kinds. `Block::clone` (block/mod.rs:99-107) clones
its columns one by one; it adds nothing here.

The memory is a list of allocations. An allocation is never reused; a freed one becomes `none`. Columns with an inner
`Arc` (nullable, array, map, aggregate function, low cardinality) refer to other allocations. The strong count of an
allocation is the number of references to it, from the columns the program holds and from other allocations. Weak
references do not occur in this code. Chunks, concatenations and the adapters of `cast_to` are leaves here: their `push` is
`unimplemented!()`, so the `Arc`s inside them are never written through (and the `Arc`s they hold are not counted).
-/

namespace CH

/-- One `Arc` allocation of column data. `leaf` is any column without an inner `Arc` (num, str, fixed, date, datetime,
dt64, chrono, ip, decimal, enum) and the adapters. Fields: nullable.rs:18-21, array.rs:18-21, map.rs:15-20,
simple_agg_func.rs:17-20, low_cardinality.rs:183-187. -/
inductive Node where
  | leaf (c : Col)
  | nullable (nulls : Bytes) (inner : Nat)
  | array (offsets : List Nat) (inner : Nat)
  | map (offsets : List Nat) (keys values : Nat)
  | simpleAgg (f : AggFunc) (inner : Nat)
  | lowCard (ity : IdxTy) (index : List Nat) (dict : Nat) (vmap : Option (List (Value × Nat)))

/-- The `Arc` fields of an allocation (the `inner`, `keys`, `values` fields cited at `Node`): nullable.rs:18-21,
array.rs:18-21, map.rs:15-20, simple_agg_func.rs:17-20, low_cardinality.rs:183-187. -/
def Node.children : Node → List Nat
  | .leaf _ => []
  | .nullable _ i => [i]
  | .array _ i => [i]
  | .map _ k v => [k, v]
  | .simpleAgg _ i => [i]
  | .lowCard _ _ i _ => [i]

/-- The memory: allocations, and the columns (`Column.data`, column/mod.rs:58-62) the program holds. A column that was dropped is `none`. -/
structure Mem where
  nodes : List (Option Node)
  holders : List (Option Nat)

/-- References held by one allocation; a freed one holds none. Helper for `strong_count` (column/mod.rs:466). -/
def kids (n : Option Node) : List Nat :=
  match n.map Node.children with
  | some l => l
  | none => []

/-- All strong references. Helper for `strong_count` (column/mod.rs:466). -/
def Mem.refs (m : Mem) : List Nat := (m.holders.map Option.toList ++ m.nodes.map kids).flatten

/-- `Arc::get_mut` succeeds: the strong count is 1. Used at column/mod.rs:466, nullable.rs:56, array.rs:75, map.rs:81-82,
simple_agg_func.rs:50, low_cardinality.rs:321. -/
def Mem.sole (m : Mem) (i : Nat) : Prop := m.refs.count i = 1

instance (m : Mem) (i : Nat) : Decidable (m.sole i) := inferInstanceAs (Decidable (_ = _))

/-- Writing through `&mut` (the mutations made by the `push` methods cited at `Node.pushWith`). -/
def Mem.put (m : Mem) (i : Nat) (n : Node) : Mem := { m with nodes := m.nodes.set i (some n) }

/-- The column an allocation stands for, given what its inner references stand for; the contents seen through
`Deref for Arc` by every reading method. -/
def Node.toCol (f : Nat → Option Col) : Node → Option Col
  | .leaf c => some c
  | .nullable nulls i => (f i).map (.nullable nulls)
  | .array offs i => (f i).map (.array offs)
  | .map offs k v => (f k).bind fun a => (f v).map (.map offs a)
  | .simpleAgg g i => (f i).map (.simpleAgg g)
  | .lowCard ity index i vmap => (f i).map fun d => .lowCard ity index d vmap

/-- The column an allocation stands for (reading through `Arc`). Inner allocations are older than the ones referring to
them: an `Arc` is created after what it contains (column/mod.rs:464-476 and `load_data::<ArcColumnWrapper, _>`, array.rs:39, map.rs:39-40, low_cardinality.rs:228). -/
def Mem.view (m : Mem) (i : Nat) : Option Col :=
  match m.nodes[i]? with
  | some (some n) => n.toCol fun j => if h : j < i then m.view j else none
  | _ => none
termination_by i

/-- The loops `for v in vs.iter() { inner_column.push(v.clone()) }`, array.rs:78-80, map.rs:86-89. -/
def pushEach (push : Mem → Value → Out Mem) : Mem → List Value → Out Mem
  | m, [] => .ok m
  | m, v :: vs => do
    let m ← push m v
    pushEach push m vs

/-- The lookup table of a low-cardinality column, computed when there is none yet (the loop of low_cardinality.rs:311-316). -/
def lcTable (vmap : Option (List (Value × Nat))) (index : List Nat) (d : Col) : Out (List (Value × Nat)) :=
  match vmap with
  | some vm => .ok vm
  | none => lcValueMap index d

/-- `ColumnData::push` on the allocation `id` (already known to be unshared): nullable.rs:55-74, array.rs:66-83,
map.rs:72-92, simple_agg_func.rs:49-52, low_cardinality.rs:310-329; `Arc::get_mut(..).unwrap()` or `.expect(..)` panics when
the inner column is shared. As in `pushT`, all keys of a map are pushed before its values (the code alternates; the
final state is the same). -/
def Node.pushWith (m : Mem) (id : Nat) (inner : Nat → Mem → Value → Out Mem) : Node → Value → Out Mem
  | .leaf c, v => do
    let c ← c.push v
    pure (m.put id (.leaf c))
  | .nullable nulls i, v =>
    if m.sole i then
      match v with
      | .null t => do
        let m ← inner i m (Value.default t)
        pure (m.put id (.nullable (nulls ++ [1]) i))
      | .some x => do
        let m ← inner i m x
        pure (m.put id (.nullable (nulls ++ [0]) i))
      | x => do
        let m ← inner i m x
        pure (m.put id (.nullable (nulls ++ [0]) i))
    else .panic
  | .array offs i, .array _ vs =>
    if m.sole i then do
      let m ← pushEach (inner i) m vs
      pure (m.put id (.array (offs ++ [lastOff offs + vs.length]) i))
    else .panic
  | .map offs k v, .map _ _ ks vs =>
    if m.sole k ∧ m.sole v then do
      let m ← pushEach (inner k) m ks
      let m ← pushEach (inner v) m vs
      pure (m.put id (.map (offs ++ [lastOff offs + ks.length]) k v))
    else .panic
  | .simpleAgg f i, v =>
    if m.sole i then do
      let m ← inner i m v
      pure (m.put id (.simpleAgg f i))
    else .panic
  | .lowCard ity index i vmap, v =>
    match m.view i with
    | none => .panic
    | some d => do
      let vm ← lcTable vmap index d
      let o ← vmapGet vm v
      match o with
      | some j => do
        let (ity, index) ← lcIndexPush ity index j
        pure (m.put id (.lowCard ity index i (some vm)))
      | none => do
        let j ← d.len
        if m.sole i then do
          let m ← inner i m v
          let (ity, index) ← lcIndexPush ity index j
          pure (m.put id (.lowCard ity index i (some ((v, j) :: vm))))
        else Out.panic
  | _, _ => .panic

/-- `ColumnData::push` on the allocation `id`, with the inner columns pushed to the same way (see `Node.pushWith` for
the lines). -/
def Mem.pushNode (id : Nat) (m : Mem) (v : Value) : Out Mem :=
  match m.nodes[id]? with
  | some (some n) => n.pushWith m id (fun i m v => if h : i < id then Mem.pushNode i m v else .panic) v
  | _ => .panic
termination_by id

/-- `clone_instance`: a deep copy for columns without an inner `Arc` (numeric.rs:229-233, string.rs:198-202, fixed_string.rs:91-96,
date.rs:215-220, datetime64.rs:79-84, chrono_datetime.rs:108-113, ip.rs:310-315, decimal.rs:184-191, enums.rs:79-84, 321-326);
nullable.rs:86-91, array.rs:102-107, map.rs:113-120, simple_agg_func.rs:58-63 and low_cardinality.rs:336-342 copy the reference to
the inner column, the last one forgets its lookup table. The `unimplemented!()` of the adapters, of chunks and of concatenations
(chrono_datetime.rs:209-211, chunk.rs:54-56, concat.rs:65-67, decimal.rs:253-255, 307-309, enums.rs:134-136, 187-189, 376-378,
430-432, fixed_string.rs:161-163, 202-204, string.rs:249-251) is not represented: their `push` panics anyway. -/
def Node.cloneInstance : Node → Node
  | .lowCard ity index i _ => .lowCard ity index i none
  | n => n

/-- `Column::push`, column/mod.rs:464-476, on the `h`-th column held: if the data is shared it is replaced by
`clone_instance()` (the count of the old allocation stays positive, it is not freed), and the loop pushes to the copy. -/
def Mem.pushColumn (m : Mem) (h : Nat) (v : Value) : Out Mem :=
  match m.holders[h]? with
  | some (some id) =>
    if m.sole id then m.pushNode id v
    else
      match m.nodes[id]? with
      | some (some n) =>
        Mem.pushNode m.nodes.length
          { nodes := m.nodes ++ [some n.cloneInstance], holders := m.holders.set h (some m.nodes.length) } v
      | _ => .panic
  | _ => .panic

/-- `Clone for Column`, column/mod.rs:106-114: `Arc::clone`. The new column is the last one held. -/
def Mem.cloneColumn (m : Mem) (h : Nat) : Mem :=
  match m.holders[h]? with
  | some (some id) => { m with holders := m.holders ++ [some id] }
  | _ => m

/-- Freeing what is no longer referenced, from the youngest allocation to the oldest (`Drop for Arc`: an allocation is
freed when its count reaches zero, and its own references go with it; inner allocations are older). Called by dropping a
`Column` (column/mod.rs:58-62). -/
def Mem.sweep : Nat → Mem → Mem
  | 0, m => m
  | n + 1, m => Mem.sweep n (if n ∈ m.refs then m else { m with nodes := m.nodes.set n none })

/-- Dropping a column (`Drop for Arc` of its `data`, column/mod.rs:58-62). -/
def Mem.dropColumn (m : Mem) (h : Nat) : Mem :=
  Mem.sweep m.nodes.length { m with holders := m.holders.set h none }

/-- Allocating a column bottom-up, as `Arc::from`/`Arc::new` do (`ArcColumnWrapper` through `load_data`, factory.rs:58, array.rs:39, map.rs:39-40, low_cardinality.rs:228, column/mod.rs:184). -/
def Mem.alloc (m : Mem) : Col → Mem
  | .nullable nulls c =>
    let m := m.alloc c
    { m with nodes := m.nodes ++ [some (.nullable nulls (m.nodes.length - 1))] }
  | .array offs c =>
    let m := m.alloc c
    { m with nodes := m.nodes ++ [some (.array offs (m.nodes.length - 1))] }
  | .map offs a b =>
    let m₁ := m.alloc a
    let m₂ := m₁.alloc b
    { m₂ with nodes := m₂.nodes ++ [some (.map offs (m₁.nodes.length - 1) (m₂.nodes.length - 1))] }
  | .simpleAgg f c =>
    let m := m.alloc c
    { m with nodes := m.nodes ++ [some (.simpleAgg f (m.nodes.length - 1))] }
  | .lowCard ity index c vmap =>
    let m := m.alloc c
    { m with nodes := m.nodes ++ [some (.lowCard ity index (m.nodes.length - 1) vmap)] }
  | c => { m with nodes := m.nodes ++ [some (.leaf c)] }

/-- A new column (`Column::read`, column/mod.rs:180-191, `new_column`, column/mod.rs:498-507): the last one held. -/
def Mem.newColumn (m : Mem) (c : Col) : Mem :=
  let m := m.alloc c
  { m with holders := m.holders ++ [some (m.nodes.length - 1)] }

/-- A row or value pushed, a copy made, a column dropped or created, in any order: the operations on columns considered
here (column/mod.rs:106-114, 180-191, 464-476). -/
inductive Mem.Reach : Mem → Prop where
  | empty : Mem.Reach ⟨[], []⟩
  | new {m : Mem} (c : Col) : m.Reach → (m.newColumn c).Reach
  | clone {m : Mem} (h : Nat) : m.Reach → (m.cloneColumn h).Reach
  | drop {m : Mem} (h : Nat) : m.Reach → (m.dropColumn h).Reach
  | push {m m' : Mem} (h : Nat) (v : Value) : m.Reach → m.pushColumn h v = .ok m' → m'.Reach

/-- The column the `h`-th holder sees (`Deref` of `Column.data`, column/mod.rs:58-62). -/
def Mem.column (m : Mem) (h : Nat) : Option Col :=
  match m.holders[h]? with
  | some (some id) => m.view id
  | _ => none

end CH
