import Verif.Model.Stack
import Verif.Spec.Names
import Verif.Spec.Levels
import Verif.Lemmas.Names3
import Verif.Lemmas.Types
import Verif.Lemmas.Block

/-!
# C104: the stack that reading a column takes
-/

namespace CH.Props

open CH CH.Spec

theorem resolve_nil (known : Tz → Bool) (tz : Tz) : resolve known tz [] = .bad (.other "Unsupported column type") := by
  rw [resolve_of (h := .unsupported) (by decide +kernel)]
  rfl

theorem calls_le (known : Tz → Bool) (tz : Tz) : ∀ (n : Nat) (s : Str), s.length = n → (resolve known tz s).calls ≤ n + 1 := by
  intro n
  induction n using Nat.strongRecOn with
  | ind n ih =>
    intro s hn
    by_cases h0 : s = []
    · subst h0
      rw [resolve_nil]
      simp [Plan.calls]
    have hpos : 0 < s.length := List.length_pos_iff.mpr h0
    cases hd : dispatch s with
    | panic =>
      have : resolve known tz s = .crash := by rw [resolve]; split <;> simp_all
      rw [this]; simp [Plan.calls]
    | err e =>
      have : resolve known tz s = .bad e := by rw [resolve]; split <;> simp_all
      rw [this]; simp [Plan.calls]
    | ok h =>
      have hi := dispatch_inners hd
      rw [resolve_of hd]
      have one : ∀ i ∈ h.inners, (resolve known tz i).calls + 1 ≤ n + 1 := fun i hm => by
        have h1 := hi i hm
        have := ih i.length (by omega) i rfl
        omega
      cases h with
      | nullable i => exact one i (by simp [Head.inners])
      | array i => exact one i (by simp [Head.inners])
      | simpleAgg f i => exact one i (by simp [Head.inners])
      | lowCard i => exact one i (by simp [Head.inners])
      | map k v =>
        have h1 := one k (by simp [Head.inners])
        have h2 := one v (by simp [Head.inners])
        show max _ _ + 1 ≤ _
        omega
      | datetime z => cases z <;> simp only [headPlan] <;> (try split) <;> simp [Plan.calls]
      | dt64 p z => cases z <;> simp only [headPlan] <;> (try split) <;> simp [Plan.calls]
      | _ => simp [headPlan, Plan.calls] <;> omega

theorem padded_length {a b : Str} (h : Padded a b) : a.length ≤ b.length := by
  obtain ⟨x, y, _, _, rfl, _⟩ := h
  simp
  omega

theorem spells_calls {known : Tz → Bool} {tz : Tz} {s : Str} {p : Plan} (h : Spells known tz s p) : 6 * p.calls ≤ s.length + 6 := by
  induction h with
  | plain h hs =>
    rename_i n s p
    have : p.calls = 1 := by
      have key : ∀ q ∈ plainNames tz, q.2.calls = 1 := by simp [plainNames, Plan.calls]
      exact key _ h
    omega
  | nullable _ _ _ _ ih => simp only [Plan.calls, List.length_append, List.length_cons, List.length_nil]; have : "Nullable".toList.length = 8 := rfl; omega
  | array _ _ _ ih => simp only [Plan.calls, List.length_append, List.length_cons, List.length_nil]; have : "Array".toList.length = 5 := rfl; omega
  | map _ _ _ _ hab _ hk hv _ _ ih1 ih2 =>
    have e := congrArg List.length hab
    simp only [List.length_append, List.length_cons] at e
    have := padded_length hk
    have := padded_length hv
    have : "Map".toList.length = 3 := rfl
    simp only [Plan.calls, List.length_append, List.length_cons, List.length_nil]
    omega
  | decimal => simp only [Plan.calls, List.length_append, List.length_cons]; have : "Decimal(".toList.length = 8 := rfl; omega
  | decimal32 => simp only [Plan.calls, List.length_append, List.length_cons]; have : "Decimal32(".toList.length = 10 := rfl; omega
  | decimal64 => simp only [Plan.calls, List.length_append, List.length_cons]; have : "Decimal64(".toList.length = 10 := rfl; omega
  | enum8 => simp only [Plan.calls, List.length_append, List.length_cons]; have : "Enum8".toList.length = 5 := rfl; omega
  | enum16 => simp only [Plan.calls, List.length_append, List.length_cons]; have : "Enum16".toList.length = 6 := rfl; omega
  | simpleAgg _ _ _ ht _ _ _ _ _ ih =>
    have := padded_length ht
    have : "SimpleAggregateFunction(".toList.length = 24 := rfl
    simp only [Plan.calls, List.length_append, List.length_cons, List.length_nil]
    omega
  | lowCard _ _ ht _ ih =>
    have := padded_length ht
    have : "LowCardinality".toList.length = 14 := rfl
    simp only [Plan.calls, List.length_append, List.length_cons]
    omega
  | _ => simp only [Plan.calls]; omega

/-- C104, what holds: the recursion is no deeper than the name of the type is long, whatever the name; and for names that can be read
to the end, one activation and one more for each six characters. -/
theorem C104_bounded_partial (known : Tz → Bool) (tz : Tz) (s : Str) : (resolve known tz s).calls ≤ s.length + 1 ∧
    (Complete (resolve known tz s) → (resolve known tz s).calls ≤ s.length / 6 + 1) := by
  refine ⟨calls_le known tz _ s rfl, fun h => ?_⟩
  have := spells_calls (resolve_spells known tz _ s rfl h)
  omega

/-- A map with an array in it: three activations for 22 characters. -/
example (known : Tz → Bool) (tz : Tz) : (resolve known tz "Map(UInt8, Array(Date))".toList) = .map (.num .u8) (.array (.date tz)) ∧
    Complete (.map (.num .u8) (.array (.date tz))) ∧ (Plan.map (.num .u8) (.array (.date tz))).calls = 3 :=
  ⟨resolve_name (t := .map (.num .u8) (.array .date)) tz ⟨trivial, by simp [KeyLike], trivial⟩, ⟨trivial, trivial⟩, rfl⟩

theorem planOf_calls (tz : Tz) (t : SqlType) : depth t + 1 ≤ (planOf tz t).calls ∧ (planOf tz t).calls ≤ depth t + 2 := by
  induction t with
  | map k v ih1 ih2 => simp only [depth, planOf, Plan.calls]; omega
  | nullable t ih => simp only [depth, planOf, Plan.calls]; omega
  | array t ih => simp only [depth, planOf, Plan.calls]; omega
  | lowCard t ih => simp only [depth, planOf, Plan.calls]; omega
  | simpleAgg f t ih => simp only [depth, planOf, Plan.calls]; omega
  | _ => simp [depth, planOf, Plan.calls]

/-- C104: for every type that servers announce, the recursion is as deep as types are around each other, and one more for the type
itself; the numbers of decimals and enums may take another one. -/
theorem C104_depth (known : Tz → Bool) (tz : Tz) (t : SqlType) (h : Nameable known t) :
    depth t + 1 ≤ (resolve known tz t.name).calls ∧ (resolve known tz t.name).calls ≤ depth t + 2 := by
  rw [resolve_name tz h]
  exact planOf_calls tz t

example : Nameable (fun _ => true) (.array (.nullable (.decimal 9 2))) ∧ depth (.array (.nullable (.decimal 9 2))) = 2 ∧
    (planOf "UTC".toList (.array (.nullable (.decimal 9 2)))).calls = 4 := ⟨⟨by simp [Nameable], by simp⟩, rfl, rfl⟩

/-- Arrays in arrays, `d` of them. -/
def arrays : Nat → SqlType
  | 0 => .num .u8
  | d + 1 => .array (arrays d)

/-- The column that results from reading no rows of these. -/
def noArrays : Nat → Col
  | 0 => .num .u8 []
  | d + 1 => .array [] (noArrays d)

theorem arrays_length : ∀ d, (arrays d).name.length = 7 * d + 5
  | 0 => rfl
  | d + 1 => by
    have : "Array(".toList.length = 6 := rfl
    rw [arrays, name_array]
    simp only [List.length_append, arrays_length d, List.length_cons, List.length_nil]
    omega

theorem arrays_nameable (known : Tz → Bool) : ∀ d, Nameable known (arrays d)
  | 0 => trivial
  | d + 1 => arrays_nameable known d

theorem arrays_calls (tz : Tz) : ∀ d, (planOf tz (arrays d)).calls = d + 1
  | 0 => rfl
  | d + 1 => congrArg (· + 1) (arrays_calls tz d)

theorem arrays_load (tz : Tz) (rest : Bytes) : ∀ d, (planOf tz (arrays d)).load 0 rest = .ok (noArrays d) rest
  | 0 => rfl
  | d + 1 => by
    show (do let offs ← loadNums 8 0; let c ← (planOf tz (arrays d)).load (lastOff offs); Reader.pure (Col.array offs c) : Reader Col) rest = _
    rw [bind_ok (show loadNums 8 0 rest = .ok [] rest from rfl),
      bind_ok (show (planOf tz (arrays d)).load (lastOff []) rest = .ok (noArrays d) rest from arrays_load tz rest d)]
    rfl

/-- C104 fails: there is no limit. For every number there is a name of a type, seven characters longer than the one before, that is
read without an error, with not a single row, and takes that many activations. -/
theorem C104_unbounded_violated (known : Tz → Bool) (tz : Tz) (d : Nat) : ∃ s : Str, s.length = 7 * d + 5 ∧
    (resolve known tz s).calls = d + 1 ∧ ∀ rest, loadData known tz s 0 rest = .ok (noArrays d) rest := by
  have h := resolve_name (known := known) tz (arrays_nameable known d)
  refine ⟨(arrays d).name, arrays_length d, by rw [h, arrays_calls], fun rest => ?_⟩
  rw [loadData, h]
  exact arrays_load tz rest d

example : (arrays 2).name = "Array(Array(UInt8))".toList ∧ noArrays 2 = .array [] (.array [] (.num .u8 [])) := ⟨by decide +kernel, rfl⟩

end CH.Props
