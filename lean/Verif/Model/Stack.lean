import Verif.Model.Load

/-!
# How deep reading a column recurs
-/

namespace CH

/-- The largest number of activations of `load_data` (/repo/src/types/column/factory.rs:58-116) at a time while a column is read to its
end. It calls itself for what is inside of nullables (nullable.rs:32-33), arrays (array.rs:38-39), maps (map.rs:39-40), simple
aggregate functions (simple_agg_func.rs:29-30) and low cardinality (low_cardinality.rs:227-228, 250), and for the numbers of decimals
(decimal.rs:56-57) and enums (enums.rs:46-47, 288-289). There is no limit in the code; the memory that an activation takes is not
modelled. -/
def Plan.calls : Plan → Nat
  | .nullable p | .array p | .simpleAgg _ p | .lowCard p => p.calls + 1
  | .map k v => max k.calls v.calls + 1
  | .decimal .. | .enum .. => 2
  | _ => 1

end CH
