import Verif.Spec.Defaults

/-! C75: the default values. -/

namespace CH.Props
open CH CH.Spec

/-- C75: the default value of a type is its zero, and there is no other. -/
theorem C75_default (t : SqlType) (v : Value) : ZeroOf t v ↔ v = Value.default t := by
  constructor
  · intro h
    induction h with
    | fixed n b hn hb => rw [List.eq_replicate_iff.mpr ⟨hn, hb⟩]; rfl
    | address k b hn hb => rw [List.eq_replicate_iff.mpr ⟨hn, hb⟩]; rfl
    | lowCard t v _ ih => exact ih
    | aggregate f t v _ ih => exact ih
    | _ => rfl
  · rintro rfl
    induction t with
    | fixedString n => exact .fixed n _ (by simp) (fun x hx => (List.mem_replicate.mp hx).2)
    | ip k => exact .address k _ (by simp) (fun x hx => (List.mem_replicate.mp hx).2)
    | lowCard t ih => exact .lowCard t _ ih
    | simpleAgg f t ih => exact .aggregate f t _ ih
    | _ => constructor

example : ZeroOf (.lowCard (.fixedString 3)) (.str [0, 0, 0]) ∧ ¬ ZeroOf (.fixedString 3) (.str []) :=
  ⟨(C75_default _ _).mpr rfl, fun h => by cases (C75_default _ _).mp h⟩

end CH.Props
