import Verif.Spec.Pool

/-!
# What is expected of the report of a pool

How a person reads it: the numbers, in the order in which they are written, and the words around them.
-/

namespace CH.Spec

open CH.Pool

/-- The decimal numbers in a text, from the left; `cur` is the number that is being read. -/
def numbersFrom : Option Nat → List Char → List Nat
  | cur, [] => cur.toList
  | cur, c :: r =>
    if '0'.toNat ≤ c.toNat ∧ c.toNat ≤ '9'.toNat then
      numbersFrom (some ((match cur with | some n => 10 * n | none => 0) + (c.toNat - '0'.toNat))) r
    else cur.toList ++ numbersFrom none r

/-- The text without its digits. -/
def words (t : List Char) : List Char := t.filter fun c => !decide ('0'.toNat ≤ c.toNat ∧ c.toNat ≤ '9'.toNat)

/-- The pool is looked at four times while other threads use it. -/
structure Looks (cfg : Cfg) (s1 s2 s3 s4 : St) : Prop where
  first : Reach cfg s1
  second : Steps cfg s1 s2
  third : Steps cfg s2 s3
  fourth : Steps cfg s3 s4

end CH.Spec
