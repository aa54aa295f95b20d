import Verif.Model.Cursor
import Verif.Spec.Iter

/-! Iterators as their users know them: a list of items from which one is taken at a time. -/

namespace CH.Spec
open CH

/-- A call on an iterator: the next item, the item after `n` others, or how many are left. -/
inductive Ask where
  | next
  | nth (n : Nat)
  | len

/-- Its answer; `broken` is a panic or undefined behaviour. -/
inductive Answer where
  | item (x : Option Item)
  | size (n : Nat)
  | broken

/-- The answers of an iterator that has the given items left. -/
def answersOf : List Item → List Ask → List Answer
  | _, [] => []
  | xs, .next :: asks => .item xs[0]? :: answersOf (xs.drop 1) asks
  | xs, .nth n :: asks => .item xs[n]? :: answersOf (xs.drop (n + 1)) asks
  | xs, .len :: asks => .size xs.length :: answersOf xs asks

/-- The answers of an iterator given by its three functions. After a panic there are no more. -/
def answersBy (next : σ → Step σ) (nth : Nat → σ → Step σ) (len : σ → Out Nat) : σ → List Ask → List Answer
  | _, [] => []
  | s, .next :: asks =>
    match next s with
    | .item x s' => .item (some x) :: answersBy next nth len s' asks
    | .finished s' => .item none :: answersBy next nth len s' asks
    | .stop _ => [.broken]
  | s, .nth n :: asks =>
    match nth n s with
    | .item x s' => .item (some x) :: answersBy next nth len s' asks
    | .finished s' => .item none :: answersBy next nth len s' asks
    | .stop _ => [.broken]
  | s, .len :: asks =>
    match len s with
    | .ok n => .size n :: answersBy next nth len s asks
    | _ => [.broken]

/-- The answers to `n` calls of `next`, up to a panic or worse: the items in turn, then `None` for ever. -/
def firstOf : Nat → List Item → Stop → List (Except Stop (Option Item))
  | 0, _, _ => []
  | n + 1, x :: xs, e => .ok (some x) :: firstOf n xs e
  | n + 1, [], .done => .ok none :: firstOf n [] .done
  | _ + 1, [], e => [.error e]

/-- The answers to `n` calls of `next` given as a function. -/
def firstBy (next : σ → Step σ) : Nat → σ → List (Except Stop (Option Item))
  | 0, _ => []
  | n + 1, s =>
    match next s with
    | .item x s' => .ok (some x) :: firstBy next n s'
    | .finished s' => .ok none :: firstBy next n s'
    | .stop e => [.error e]

end CH.Spec
