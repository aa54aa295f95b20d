import Verif.Spec.Native
import Verif.Spec.Protocol
import Verif.Model.Compressed

/-!
The server's answer to a query as bytes, stated from scratch on top of the native format (`Spec/Native`): blocks, plain or in
compressed frames, with messages about progress between them, and the message that ends the answer.
-/

namespace CH.Spec

/-- A compressed frame that holds `data`: two checksum words of what follows them, the method, the size of what follows the
checksums, the size of the data, the compressed data. -/
def FrameLaid (z : Codec) (data f : Bytes) : Prop :=
  ∃ lo hi size orig body, f = lo ++ hi ++ ([0x82] ++ size ++ orig ++ body) ∧
    Word 8 (z.hash ([0x82] ++ size ++ orig ++ body)).1.toNat lo ∧ Word 8 (z.hash ([0x82] ++ size ++ orig ++ body)).2.toNat hi ∧
    Word 4 (1 + 4 + 4 + body.length) size ∧ Word 4 data.length orig ∧ z.decompress body data.length = some data

/-- How the bytes of a block travel: as they are, or cut into frames, none of them empty and none above a gigabyte. -/
def Carried (z : Codec) (compress : Bool) (raw b : Bytes) : Prop :=
  if compress then ∃ ds : List Bytes, ds.flatten = raw ∧ (∀ d ∈ ds, d ≠ []) ∧
    InTurn (fun d f => FrameLaid z d f ∧ f.length ≤ 16 + 2 ^ 30) ds b
  else b = raw

/-- What a server says in an answer. -/
inductive Said where
  | block (info : BlockInfo) (rows : Nat) (cols : List Field)
  | progress (p : Progress)
  | profile (p : ProfileInfo)

/-- The bytes of what the server says. A block is a message 1, or 7 (totals) or 8 (extremes): the name of a temporary table, then the
block; a block without columns has no rows. -/
def SaidLaid (z : Codec) (tz : Tz) (revision : Nat) (compress : Bool) : Said → Bytes → Prop
  | .block info rows cols, b => ∃ (code : UInt8) (table : String) (t raw body : Bytes), (code = 1 ∨ code = 7 ∨ code = 8) ∧ Lettered table t ∧
      BlockLaid tz info rows cols raw ∧ (cols = [] → rows = 0) ∧ Carried z compress raw body ∧ raw.length < 2 ^ 56 ∧ t.length < 2 ^ 56 ∧
      b = [code] ++ t ++ body
  | .progress p, b => ProgressOK revision p ∧ b = encProgress revision p
  | .profile p, b => ProfileOK p ∧ b = encProfileInfo p

/-- A complete answer: what the server says, then message 5. -/
def AnswerLaid (z : Codec) (tz : Tz) (revision : Nat) (compress : Bool) (said : List Said) (b : Bytes) : Prop :=
  ∃ x, InTurn (SaidLaid z tz revision compress) said x ∧ b = x ++ [5]

/-- Row by row what was said: row `j` of a block has cell `j` of every column. -/
def saidRows : Said → List (List Value)
  | .block _ rows cols => (List.range rows).map fun j => cols.filterMap fun f => f.cells[j]?
  | _ => []

/-- The columns of what was said have types that the client reads. -/
def Readable (known : Tz → Bool) : Said → Prop
  | .block _ rows cols => rows < 2 ^ 64 ∧ ∀ f ∈ cols, Flat f.type ∧ KeysHash f.type ∧ Nameable known f.type
  | _ => True

/-- The packet means what was said. -/
def Means : Said → Packet → Prop
  | .block info rows cols, p => ∃ cs : List NCol, p = .block ⟨info, cs⟩ ∧ cs.length = cols.length ∧ (∀ c ∈ cs, c.data.len = .ok rows) ∧
      ∀ (i : Nat) c f, cs[i]? = some c → cols[i]? = some f → HoldsField c f
  | .progress q, p => p = .progress q
  | .profile q, p => p = .profileInfo q

/-- The same was said, but for the order in which the entries of maps come. -/
def ReorderedSaid : Said → Said → Prop
  | .block info rows cols, .block info' rows' cols' => info' = info ∧ rows' = rows ∧ cols'.length = cols.length ∧
      ∀ (i : Nat) f f', cols[i]? = some f → cols'[i]? = some f' → f'.name = f.name ∧ f'.type = f.type ∧ ReorderedCells f.cells f'.cells
  | .progress p, .progress p' => p' = p
  | .profile p, .profile p' => p' = p
  | _, _ => False

/-- No maps in what was said. -/
def Mapless : Said → Prop
  | .block _ _ cols => ∀ f ∈ cols, MapFree f.type
  | _ => True

/-- The same was said message by message, and word for word where there are no maps. -/
def ReorderedAnswer (said said' : List Said) : Prop :=
  said'.length = said.length ∧ (∀ (i : Nat) m m', said[i]? = some m → said'[i]? = some m' → ReorderedSaid m m') ∧
  ((∀ m ∈ said, Mapless m) → said' = said)

/-- Blocks with columns have the same columns. -/
def SameColumns (said : List Said) : Prop :=
  ∀ i r c i' r' c', .block i r c ∈ said → .block i' r' c' ∈ said → c ≠ [] → c' ≠ [] → c.map (·.type) = c'.map (·.type)

end CH.Spec
