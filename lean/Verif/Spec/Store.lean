import Verif.Spec.Answer
import Verif.Spec.Cast

/-! What a table holds after an INSERT, and what a server says when it is asked for it (C78). -/

namespace CH.Spec

/-- The table's columns hold the block's rows: field `i` has the name of the block's column and the type of the table's, and its cell `j`
is the counterpart, in the table's type, of the block's cell. -/
def TableHolds (parse : IpKind → String → Option Bytes) (tz : Tz) (b table : Block) (n : Nat) (fs : List Field) : Prop :=
  fs.length = b.columns.length ∧ ∀ (i : Nat) c t f, b.columns[i]? = some c → table.columns[i]? = some t → fs[i]? = some f →
    f.name = c.name ∧ f.type = t.data.sqlType ∧ f.cells.length = n ∧
    ∀ j, j < n → ∃ v w, cell c.data j = some v ∧ convert parse tz t.data.sqlType v = some w ∧ f.cells[j]? = some w

/-- The compressor is lossless on these bytes, and they fit into one frame. -/
def Packs (z : Codec) (raw : Bytes) : Prop :=
  z.decompress (z.compress raw) raw.length = some raw ∧ raw.length < 2 ^ 32 ∧ 9 + (z.compress raw).length ≤ 2 ^ 30

/-- However a server cuts the rows into blocks: its blocks have the table's columns (or no columns at all, as the
last one of an answer may), and their rows, one block after the other, are the rows of the table. -/
def Says (fs : List Field) (n : Nat) (said : List Said) : Prop :=
  (∀ i r cols, .block i r cols ∈ said → cols ≠ [] → cols.map (fun f => (f.name, f.type)) = fs.map fun f => (f.name, f.type)) ∧
  (∃ i r cols, .block i r cols ∈ said ∧ cols ≠ []) ∧
  said.flatMap saidRows = saidRows (.block BlockInfo.default n fs)

/-- The block's bytes hold this piece of the block: the fields have the block's names and types, and there are `rows` rows. -/
def PieceLaid (tz : Tz) (b : Block) (rows : Nat) (fs : List Field) (raw : Bytes) : Prop :=
  fs.map (fun f => (f.name, f.type)) = b.columns.map (fun c => (c.name, c.data.sqlType)) ∧ BlockLaid tz BlockInfo.default rows fs raw

end CH.Spec
