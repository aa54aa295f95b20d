import Verif.Model.Levels
import Verif.Spec.Levels
import Verif.Props.Iter

/-! C23: types whose layers are too many to be counted in a byte. -/

namespace CH.Props
open CH CH.Spec

theorem level_depth (t : SqlType) : t.level ≤ depth t := by
  induction t <;> simp only [SqlType.level, depth] <;> omega

theorem levelU8_ok (t : SqlType) (h : t.level ≤ 255) : t.levelU8 = .ok t.level := by
  induction t with
  | nullable t ih => simp only [SqlType.level] at h; simp only [SqlType.levelU8, ih (by omega), Out.bind, succU8, SqlType.level]; rw [if_pos (by omega)]
  | array t ih => simp only [SqlType.level] at h; simp only [SqlType.levelU8, ih (by omega), Out.bind, succU8, SqlType.level]; rw [if_pos (by omega)]
  | map k v _ ih => simp only [SqlType.level] at h; simp only [SqlType.levelU8, ih (by omega), Out.bind, succU8, SqlType.level]; rw [if_pos (by omega)]
  | _ => rfl

theorem levelU8_panic (t : SqlType) (h : 255 < t.level) : t.levelU8 = .panic := by
  have key : ∀ t : SqlType, (255 < t.level → t.levelU8 = .panic) → 255 < 1 + t.level → t.levelU8.bind succU8 = .panic := by
    intro t ih h
    by_cases ht : 255 < t.level
    · rw [ih ht]; rfl
    · rw [levelU8_ok t (by omega)]
      simp only [Out.bind, succU8]
      rw [if_neg (by omega)]
  induction t with
  | nullable t ih => exact key t ih h
  | array t ih => exact key t ih h
  | map k v _ ih => exact key v ih h
  | lowCard t _ => simp only [SqlType.level] at h; omega
  | _ => simp only [SqlType.level] at h; omega

theorem mapLevelU8_ok (t : SqlType) (h : depth t ≤ 255) : t.mapLevelU8 = .ok t.mapLevel := by
  have h' := level_depth t
  cases t with
  | nullable t => simp only [depth] at h; exact levelU8_ok t (by have := level_depth t; omega)
  | array t => simp only [depth] at h; exact levelU8_ok t (by have := level_depth t; omega)
  | map k v => exact levelU8_ok (.map k v) (by omega)
  | _ => rfl

theorem getInternalU8_eq (c : Col) (h : depth c.sqlType ≤ 255) (slots level props : Nat) :
    c.getInternalU8 slots level props = c.getInternal slots level props := by
  induction c generalizing slots level props with
  | nullable nulls c ih =>
    have hl := levelU8_ok (.nullable c.sqlType) (Nat.le_trans (level_depth _) h)
    simp only [Col.sqlType, depth] at h
    simp only [Col.getInternalU8, Col.getInternal, hl, ih (by omega)]
    rfl
  | array offs c ih =>
    have hl := levelU8_ok (.array c.sqlType) (Nat.le_trans (level_depth _) h)
    simp only [Col.sqlType, depth] at h
    simp only [Col.getInternalU8, Col.getInternal, hl, ih (by omega)]
    rfl
  | map offs k v ihk ihv =>
    have hl := levelU8_ok (.map k.sqlType v.sqlType) (Nat.le_trans (level_depth _) h)
    simp only [Col.sqlType, depth] at h
    simp only [Col.getInternalU8, Col.getInternal, hl, ihk (by omega), ihv (by omega)]
    rfl
  | simpleAgg f c ih =>
    simp only [Col.sqlType, depth] at h
    simp only [Col.getInternalU8, Col.getInternal, ih (by omega)]
  | _ => rfl

theorem iterWithU8_eq (zones : Zones) (c : Col) (h : depth c.sqlType ≤ 255) (T : ITy) (ty : SqlType) (ht : depth ty ≤ 255) (props : Nat) :
    iterWithU8 zones c T ty props = iterWith zones c T ty props := by
  have hg := fun slots level props => getInternalU8_eq c h slots level props
  induction T generalizing ty props with
  | num t => simp only [iterWithU8, iterWith, hg]
  | ip k => simp only [iterWithU8, iterWith, hg]
  | bytes =>
    cases ty with
    | lowCard t => cases t <;> simp only [iterWithU8, iterWith]
    | _ => simp only [iterWithU8, iterWith, hg]
  | decimal => cases ty <;> simp only [iterWithU8, iterWith, hg]
  | time => rfl
  | naive => rfl
  | date => rfl
  | opt t ih =>
    cases ty with
    | nullable ty =>
      have hl := levelU8_ok (.nullable ty) (Nat.le_trans (level_depth _) ht)
      simp only [depth] at ht
      simp only [iterWithU8, iterWith, hg, hl, ih ty (by omega)]
      rfl
    | _ => simp only [iterWithU8, iterWith]
  | vec t ih =>
    cases ty with
    | array ty =>
      have hl := levelU8_ok (.array ty) (Nat.le_trans (level_depth _) ht)
      simp only [depth] at ht
      simp only [iterWithU8, iterWith, hg, hl, ih ty (by omega)]
      rfl
    | _ => simp only [iterWithU8, iterWith]
  | hmap k v ihk ihv =>
    cases ty with
    | map kt vt =>
      have hl := levelU8_ok (.map kt vt) (Nat.le_trans (level_depth _) ht)
      have hm := mapLevelU8_ok (.map kt vt) ht
      simp only [depth] at ht
      simp only [iterWithU8, iterWith, hg, hl, hm, mapLevelU8_ok _ h, ihk kt (by omega), ihv vt (by omega)]
      rfl
    | _ => simp only [iterWithU8, iterWith]

/-- C23, C24. On a column whose type is at most 255 deep the iterators, with their levels counted in `u8`, are those of
`Model/Iter`; what is proved of these holds. -/
theorem C23_levels (zones : Zones) (c : Col) (T : ITy) (h : depth c.sqlType ≤ 255) : c.iterU8 zones T = c.iter zones T :=
  iterWithU8_eq zones c h T c.sqlType h 0

-- a column to which it applies: maps in arrays
example : depth exArrayMap.sqlType ≤ 255 := by decide

/-- C23 beyond that: no column with more than 255 layers (counted along the values of maps) can be iterated, as whatever type. -/
theorem C23_deep_violated (zones : Zones) (c : Col) (T : ITy) (r : Run) (h : 255 < c.sqlType.level) : c.iterU8 zones T ≠ .ok r := by
  intro he
  have hp := levelU8_panic _ h
  rw [Col.iterU8] at he
  generalize ht : c.sqlType = ty at h he hp
  cases T with
  | num t =>
    cases ty with
    | nullable ty => cases he
    | array ty => cases he
    | map k v => cases he
    | _ => simp only [SqlType.level] at h; omega
  | ip k =>
    rw [iterWithU8] at he
    obtain ⟨s, hs, -⟩ := obind_eq_ok he
    cases c with
    | nullable nulls c =>
      have hq : (SqlType.nullable c.sqlType).levelU8 = .panic := by rw [← hp, ← ht]; rfl
      rw [Col.getInternalU8, hq] at hs
      cases hs
    | array nulls c =>
      have hq : (SqlType.array c.sqlType).levelU8 = .panic := by rw [← hp, ← ht]; rfl
      rw [Col.getInternalU8, hq] at hs
      cases hs
    | map nulls k v =>
      have hq : (SqlType.map k.sqlType v.sqlType).levelU8 = .panic := by rw [← hp, ← ht]; rfl
      rw [Col.getInternalU8, if_neg (by decide), hq] at hs
      cases hs
    | _ => first | (cases hs; done) | (subst ht; simp only [Col.sqlType, SqlType.level] at h; omega)
  | opt t =>
    cases ty with
    | nullable ty =>
      rw [iterWithU8, hp] at he
      obtain ⟨s, hs, he⟩ := obind_eq_ok he
      cases he
    | _ => simp only [iterWithU8] at he; cases he
  | vec t =>
    cases ty with
    | array ty =>
      rw [iterWithU8, hp] at he
      obtain ⟨s, hs, he⟩ := obind_eq_ok he
      cases he
    | _ => simp only [iterWithU8] at he; cases he
  | hmap k v =>
    cases ty with
    | map kt vt =>
      rw [iterWithU8] at he
      obtain ⟨s, hs, he⟩ := obind_eq_ok he
      have hq : (SqlType.map kt vt).mapLevelU8 = .panic := hp
      rw [hq] at he
      cases he
    | _ => simp only [iterWithU8] at he; cases he
  | bytes =>
    cases ty with
    | lowCard t => simp only [SqlType.level] at h; omega
    | nullable ty => cases he
    | array ty => cases he
    | map k v => cases he
    | _ => simp only [SqlType.level] at h; omega
  | decimal =>
    cases ty with
    | nullable ty => cases he
    | array ty => cases he
    | map k v => cases he
    | _ => simp only [SqlType.level] at h; omega
  | time =>
    cases ty with
    | nullable ty => cases he
    | array ty => cases he
    | map k v => cases he
    | _ => simp only [SqlType.level] at h; omega
  | naive =>
    cases ty with
    | nullable ty => cases he
    | array ty => cases he
    | map k v => cases he
    | _ => simp only [SqlType.level] at h; omega
  | date =>
    cases ty with
    | nullable ty => cases he
    | array ty => cases he
    | map k v => cases he
    | _ => simp only [SqlType.level] at h; omega

/-- One row: the number 7 in `n` arrays. -/
def deepCol : Nat → Col
  | 0 => .num .u8 [7]
  | n + 1 => .array [1] (deepCol n)

/-- `Vec<Vec<…<u8>>>`. -/
def deepTy : Nat → ITy
  | 0 => .num .u8
  | n + 1 => .vec (deepTy n)

/-- Such columns: the row is there and can be read by index, the type of the items suits the column, and counting the levels
with unlimited numbers would iterate over it. -/
theorem C23_depth_violated (zones : Zones) (n : Nat) (hn : 255 < n) :
    (∃ v, (deepCol n).at 0 = .ok v) ∧ Native (deepCol n) ∧ Walks .top (deepTy n) (deepCol n).sqlType ∧
    (∃ items, (deepCol n).iter zones (deepTy n) = .ok ⟨items, .done⟩ ∧ Lists (deepTy n) (deepCol n).at 1 items) ∧
    ∀ r, (deepCol n).iterU8 zones (deepTy n) ≠ .ok r := by
  have h1 : ∀ n, ∃ v, (deepCol n).at 0 = .ok v := by
    intro n
    induction n with
    | zero => exact ⟨_, rfl⟩
    | succ n ih =>
      obtain ⟨v, hv⟩ := ih
      refine ⟨.array (deepCol n).sqlType [v], ?_⟩
      show (do
        let vs ← rangeOut (fun j => (deepCol n).at j) 0 1
        Out.ok (Value.array (deepCol n).sqlType vs)) = _
      simp [rangeOut, mapOut, hv]
  have h2 : ∀ n, Native (deepCol n) := by
    intro n
    induction n with
    | zero => trivial
    | succ n ih => exact ih
  have h3 : ∀ n pl, Walks pl (deepTy n) (deepCol n).sqlType := by
    intro n
    induction n with
    | zero => intro pl; cases pl <;> simp [Walks, deepTy, deepCol, Col.sqlType, ScalarIn, KeyIn, bare]
    | succ n ih => intro pl; exact ih _
  have h4 : ∀ n, (deepCol n).sqlType.level = n := by
    intro n
    induction n with
    | zero => rfl
    | succ n ih => simp only [deepCol, Col.sqlType, SqlType.level, ih]; omega
  have h5 : ∀ n, (deepCol n).len = .ok 1 := by
    intro n; cases n <;> rfl
  refine ⟨h1 n, h2 n, h3 n _, ?_, fun r => C23_deep_violated zones _ _ r (by rw [h4]; exact hn)⟩
  refine C23_partial (h2 n) (h3 n _) ?_ (h5 n) (fun i hi => ?_)
  · refine ⟨fun e => ?_, fun e => ?_⟩
    · cases n <;> cases e
    · cases n <;> rcases e with e | e <;> cases e
  · obtain rfl : i = 0 := by omega
    exact h1 n

-- a column of `C23_deep_violated` and a depth of `C23_depth_violated`
example : 255 < (deepCol 256).sqlType.level ∧ 255 < 256 := by decide +kernel

end CH.Props
