import Verif.Model.StringPool

/-! What a store of byte strings has to do, said with lists only. -/

namespace CH.Spec

/-- The pool holds exactly the strings `xs`, row by row: every row reads as its string, through the checked and through the
unchecked accessor, and there is nothing behind the last row. -/
def Stores (p : StringPool) (xs : List Bytes) : Prop :=
  p.len = xs.length ∧
  (∀ i x, xs[i]? = some x → p.get i = .ok (some x) ∧ p.getUnchecked i = some x) ∧
  ∀ i, xs.length ≤ i → p.get i = .panic

/-- The bytes of no two rows overlap, and every row lies inside its chunk. -/
def Apart (p : StringPool) : Prop :=
  (∀ q ∈ p.pointers, ∃ b, p.chunks[q.chunk]? = some b ∧ q.shift + q.len ≤ b.length) ∧
  ∀ (i j : Nat) (a b : StringPtr), i ≠ j → p.pointers[i]? = some a → p.pointers[j]? = some b →
    a.chunk ≠ b.chunk ∨ a.shift + a.len ≤ b.shift ∨ b.shift + b.len ≤ a.shift

/-- Sizes the standard library can allocate: the chunk reserved for `capacity` rows and every string fit a `Vec`. -/
def Allocatable (capacity : Nat) (xs : List Bytes) : Prop :=
  capacity * 80 ≤ 2 ^ 63 - 1 ∧ ∀ x ∈ xs, x.length ≤ 2 ^ 63 - 1

end CH.Spec
