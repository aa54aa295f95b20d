import Verif.Spec.Written

/-!
How a server reads what a client sends for an INSERT, for C92: not as the model of the client wrote it, but in any way that the protocol
and the native format allow.
-/

namespace CH.Spec
open CH

/-- The bytes, read by a server whose table has columns of these types: rounds of the statement, a block of rows and a block without columns,
which ends the data. `pieces` are the blocks of rows: number of rows and fields. -/
inductive Understood (env : Env) (kind : String → SettingKind) (tz tz' : Tz) (q : Query) (ctx : Context) (types : List SqlType) :
    Bytes → List (Nat × List Field) → Prop
  | nil : Understood env kind tz tz' q ctx types [] []
  | cons {stmt raw empty x y bytes : Bytes} {info info' : BlockInfo} {r : Nat} {fs : List Field} {pieces : List (Nat × List Field)} :
      Stated env kind tz' q ctx stmt → fs.map (·.type) = types → BlockLaid tz info r fs raw → raw.length < 2 ^ 56 → r < 2 ^ 64 →
      Carried env.codec ctx.options.compression raw x → BlockLaid tz info' 0 [] empty → empty.length < 2 ^ 56 →
      Carried env.codec ctx.options.compression empty y → Understood env kind tz tz' q ctx types bytes pieces →
      Understood env kind tz tz' q ctx types (stmt ++ ([2, 0] ++ x ++ ([2, 0] ++ y)) ++ bytes) ((r, fs) :: pieces)

/-- The rows of the pieces, one piece after the other. -/
def pieceRows (pieces : List (Nat × List Field)) : List (List Value) := pieces.flatMap fun p => saidRows (.block BlockInfo.default p.1 p.2)

/-- As many rows, cell by cell the same but for the order in which the entries of maps come. -/
def AlikeRows (xs ys : List (List Value)) : Prop :=
  xs.length = ys.length ∧ ∀ (i : Nat) x y, xs[i]? = some x → ys[i]? = some y → ReorderedCells x y

/-- What is written for the block, as converted for the table, fits into memory and, if it is to be compressed, into frames, and the compressor
is lossless on it. -/
def FitsFrames (parse : IpKind → String → Option Bytes) (z : Codec) (compress : Bool) (b table : Block) : Prop :=
  (∀ b' chs ch raw, b.castTo parse table = .ok b' → insertChunks b' = .ok chs → ch ∈ chs → ch.write = .ok raw →
    raw.length < 2 ^ 56 ∧ (compress = true → Packs z raw)) ∧
  ∀ raw, Block.new.write = .ok raw → compress = true → Packs z raw

end CH.Spec
