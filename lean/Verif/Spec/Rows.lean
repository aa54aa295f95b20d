import Verif.Model.Rows
import Verif.Spec.Block
import Verif.Spec.Column

/-! Blocks as tables: what looking up and appending has to do, said with lists. -/

namespace CH.Spec

/-- `i` is the position of the first column of that name. -/
def FirstNamed (b : Block) (name : String) (i : Nat) : Prop :=
  (∃ c, b.columns[i]? = some c ∧ c.name = name) ∧ ∀ j c, j < i → b.columns[j]? = some c → c.name ≠ name

/-- The names of the columns, in order. -/
def names (b : Block) : List String := b.columns.map fun c => c.name

/-- The type of the column made for a value: that of the value, but times with a zone go into a `chrono` column. -/
def columnType : Value → SqlType
  | .datetime _ _ => .chrono
  | v => v.sqlType

/-- The value can start a column of its own. -/
def Starts (v : Value) : Prop := PlainType (columnType v) ∧ Fits (columnType v) v

/-- A row supplies exactly the given names, each once. -/
def Supplies (r : List (String × Value)) (ns : List String) : Prop :=
  (r.map Prod.fst).Nodup ∧ ∀ n, n ∈ r.map Prod.fst ↔ n ∈ ns

/-- Cell of a block by column name and row. -/
def CellIs (b : Block) (name : String) (row : Nat) (v : Value) : Prop :=
  ∃ c ∈ b.columns, c.name = name ∧ c.data.at row = .ok v

end CH.Spec
