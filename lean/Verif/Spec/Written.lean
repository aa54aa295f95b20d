import Verif.Spec.Store
import Verif.Spec.Cancel
import Verif.Spec.Outage
import Verif.Props.Cast
import Verif.Props.Cmd

/-!
What an INSERT has to put on the wire, for C91.
-/

namespace CH.Spec
open CH

/-- The block can go into the table whose header is `table`: as many columns, and each can be converted. -/
structure GoesInto (parse : IpKind → String → Option Bytes) (known : Tz → Bool) (tz : Tz) (n : Nat) (b table : Block) : Prop where
  width : b.columns.length = table.columns.length
  columns : ∀ (i : Nat) c t, b.columns[i]? = some c → table.columns[i]? = some t →
    Props.Convertible parse known tz n c.data t.data.sqlType ∧ Flat t.data.sqlType ∧ KeysHash t.data.sqlType ∧ Flagged c.data

/-- A packet of rows and one without, which ends the data: each is the number 2, an empty name and the block, compressed or not. -/
def RowsPackets (z : Codec) (compress : Bool) (raw empty bytes : Bytes) : Prop :=
  ∃ x y, Carried z compress raw x ∧ Carried z compress empty y ∧ bytes = [2, 0] ++ x ++ ([2, 0] ++ y)

/-- The answers to an INSERT: what is left over of an earlier answer, and then the header of the table, before anything else but the
descriptions of columns. -/
def Heads (inconsistent : Bool) (table : Block) (ps : List Packet) : Prop :=
  ∃ ls cs rest, Cleared inconsistent ls ∧ (∀ p ∈ cs, InsertSkips p) ∧ ps = ls ++ (cs ++ .block table :: rest)

/-- Whatever comes after these bytes, a server reads them as the statement with its settings and the end of its external tables. -/
def Stated (env : Env) (kind : String → SettingKind) (tz : Tz) (q : Query) (ctx : Context) (bytes : Bytes) : Prop :=
  ∀ rest, ∃ r e, readMsg env kind (min ctx.revision 54429) tz ctx.options.compression (bytes ++ rest) = .ok (.query (Props.seenQuery q ctx)) r ∧
    readMsg env kind (min ctx.revision 54429) tz ctx.options.compression r = .ok (.data "" e) rest ∧ e.columns = []

end CH.Spec
