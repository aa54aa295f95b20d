import Verif.Model.Fetch
import Verif.Spec.Client
import Verif.Spec.Block

/-! What the rows of a query's answer are. -/

namespace CH.Spec

/-- The rows of an answer with the given blocks, one after the other. -/
def answerRows (bs : List Block) : List (List (Out Value)) := bs.flatMap rowsOf

/-- The rows of a concatenated block. -/
def cblockRows (b : CBlock) : List (List (Out Value)) :=
  match b.rowCount with
  | .ok m => (List.range m).map fun i => b.columns.map fun c => c.2.at i
  | _ => []

/-- Blocks as one query's answer has them: in each all columns have as many rows, and all have the same column types. -/
def Uniform (bs : List Block) : Prop :=
  (∀ b ∈ bs, ∃ m, Rect b m) ∧ ∀ b ∈ bs, ∀ c ∈ bs, b.columns.map (·.data.sqlType) = c.columns.map (·.data.sqlType)

/-- Awaiting `n` rows: what the user got. -/
def runRows : Nat → RStream → Handle → List RItem × RStream × Handle
  | 0, s, h => ([], s, h)
  | n + 1, s, h =>
    let (i, s, h) := s.next h
    let (is, s, h) := runRows n s h
    (i :: is, s, h)

/-- The cells of the rows among the items. -/
def rowsGot (l : List RItem) : List (List (Out Value)) := l.filterMap fun i => match i with | .row b i => some (rowOf b i) | _ => none

end CH.Spec
