import Verif.Lemmas.Values
import Verif.Lemmas.Wire

/-!
C57 (typed reads are exact or fail).
-/

namespace CH.Props
open Spec

theorem strOf_none {b : Bytes} (h : strOfBytes? b = none) : ¬ ∃ s : String, strBytes s = b := by
  rintro ⟨s, rfl⟩
  rw [strOfBytes_strBytes] at h; cases h

theorem readAll_get {f : Value → Out RustVal} {vs : List Value} : ∀ {rs : List RustVal}, readAll f vs = .ok rs →
    vs.length = rs.length ∧ ∀ (i : Nat) v r, vs[i]? = some v → rs[i]? = some r → f v = .ok r := by
  induction vs with
  | nil => intro rs h; cases h; simp
  | cons v vs ih =>
    intro rs h
    simp only [readAll] at h
    obtain ⟨r, hr, h⟩ := out_bind_ok.mp h
    obtain ⟨rs', hrs, h⟩ := out_bind_ok.mp h
    cases h
    obtain ⟨hl, hg⟩ := ih hrs
    refine ⟨by simp [hl], fun i w r' hw hr' => ?_⟩
    cases i with
    | zero => simp at hw hr'; subst hw; subst hr'; exact hr
    | succ i => exact hg i w r' (by simpa using hw) (by simpa using hr')

theorem readAll_ok {f : Value → Out RustVal} {vs : List Value} (h : ∀ v ∈ vs, ∃ r, f v = .ok r) : ∃ rs, readAll f vs = .ok rs := by
  induction vs with
  | nil => exact ⟨_, rfl⟩
  | cons v vs ih =>
    obtain ⟨r, hr⟩ := h v (by simp)
    obtain ⟨rs, hrs⟩ := ih fun w hw => h w (by simp [hw])
    exact ⟨_, by simp only [readAll, hr, hrs, obind_ok]; rfl⟩

theorem readAll_panic {f : Value → Out RustVal} {vs : List Value} (h : ∀ v ∈ vs, f v ≠ .panic) : readAll f vs ≠ .panic := by
  induction vs with
  | nil => intro h; cases h
  | cons v vs ih =>
    have h1 := h v (by simp)
    have h2 := ih fun w hw => h w (by simp [hw])
    simp only [readAll]
    cases hv : f v with
    | panic => exact absurd hv h1
    | err e => intro h; cases h
    | ok r =>
      cases hs : readAll f vs with
      | panic => exact absurd hs h2
      | err e => intro h; cases h
      | ok rs => intro h; cases h

theorem readPairs_get {f g : Value → Out RustVal} {ks : List Value} : ∀ {vs : List Value} {as bs : List RustVal},
    ks.length = vs.length → readPairs f g ks vs = .ok (as, bs) →
    ks.length = as.length ∧ vs.length = bs.length ∧
    (∀ (i : Nat) x a, ks[i]? = some x → as[i]? = some a → f x = .ok a) ∧
    (∀ (i : Nat) x b, vs[i]? = some x → bs[i]? = some b → g x = .ok b) := by
  induction ks with
  | nil =>
    intro vs as bs hl h
    cases vs with
    | nil => cases h; simp
    | cons => simp at hl
  | cons k ks ih =>
    intro vs as bs hl h
    cases vs with
    | nil => simp at hl
    | cons v vs =>
      simp only [readPairs] at h
      obtain ⟨a, ha, h⟩ := out_bind_ok.mp h
      obtain ⟨b, hb, h⟩ := out_bind_ok.mp h
      obtain ⟨⟨as', bs'⟩, hr, h⟩ := out_bind_ok.mp h
      cases h
      obtain ⟨l1, l2, g1, g2⟩ := ih (by simpa using hl) hr
      refine ⟨by simp [l1], by simp [l2], fun i x a' hx ha' => ?_, fun i x b' hx hb' => ?_⟩
      · cases i with
        | zero => simp at hx ha'; subst hx; subst ha'; exact ha
        | succ i => exact g1 i x a' (by simpa using hx) (by simpa using ha')
      · cases i with
        | zero => simp at hx hb'; subst hx; subst hb'; exact hb
        | succ i => exact g2 i x b' (by simpa using hx) (by simpa using hb')

theorem readPairs_ok {f g : Value → Out RustVal} {ks : List Value} : ∀ {vs : List Value}, (∀ k ∈ ks, ∃ r, f k = .ok r) →
    (∀ v ∈ vs, ∃ r, g v = .ok r) → ∃ p, readPairs f g ks vs = .ok p := by
  induction ks with
  | nil => intro vs _ _; exact ⟨([], []), by cases vs <;> rfl⟩
  | cons k ks ih =>
    intro vs h1 h2
    cases vs with
    | nil => exact ⟨([], []), rfl⟩
    | cons v vs =>
      obtain ⟨a, ha⟩ := h1 k (by simp)
      obtain ⟨b, hb⟩ := h2 v (by simp)
      obtain ⟨⟨as, bs⟩, hr⟩ := ih (vs := vs) (fun k hk => h1 k (by simp [hk])) (fun v hv => h2 v (by simp [hv]))
      exact ⟨_, by simp only [readPairs, ha, hb, hr, obind_ok]; rfl⟩

theorem readPairs_panic {f g : Value → Out RustVal} {ks : List Value} : ∀ {vs : List Value}, (∀ k ∈ ks, f k ≠ .panic) →
    (∀ v ∈ vs, g v ≠ .panic) → readPairs f g ks vs ≠ .panic := by
  induction ks with
  | nil => intro vs _ _; cases vs <;> (intro h; cases h)
  | cons k ks ih =>
    intro vs h1 h2
    cases vs with
    | nil => intro h; cases h
    | cons v vs =>
      have e1 := h1 k (by simp)
      have e2 := h2 v (by simp)
      have e3 := ih (vs := vs) (fun k hk => h1 k (by simp [hk])) (fun v hv => h2 v (by simp [hv]))
      simp only [readPairs]
      cases hf : f k with
      | panic => exact absurd hf e1
      | err e => intro h; cases h
      | ok a =>
        cases hg : g v with
        | panic => exact absurd hg e2
        | err e => intro h; cases h
        | ok b =>
          cases hs : readPairs f g ks vs with
          | panic => exact absurd hs e3
          | err e => intro h; cases h
          | ok p => intro h; cases h

/-! Reading one element (`into` and `as_…`) agrees with reading it as a cell of the scalar type. -/

theorem asStr_reads {v : Value} {r : RustVal} (h : v.asStr = .ok r) : ReadExactly .text v r := by
  cases v <;> simp only [Value.asStr] at h
  case str b =>
    split at h
    · rename_i s hs
      cases h
      rw [← strOfBytes_some hs]; exact .text
    · cases h
  all_goals cases h

theorem asBytes_reads {v : Value} {r : RustVal} (h : v.asBytes = .ok r) : ReadExactly .bytes v r := by
  cases v <;> simp only [Value.asBytes] at h
  case str b => cases h; exact .bytes
  all_goals cases h

theorem intoNum_reads {t : NumTy} {v : Value} {r : RustVal} (h : v.intoNum t = .ok r) : ReadExactly (.num t) v r := by
  cases v <;> simp only [Value.intoNum] at h
  case num t' x =>
    split at h
    · rename_i e; subst e; cases h; exact .num
    · cases h
  all_goals cases h

theorem intoEnum_reads {w : EnumW} {v : Value} {r : RustVal} (h : v.intoEnum w = .ok r) : ReadExactly (.enum w) v r := by
  cases v <;> simp only [Value.intoEnum] at h
  case enum w' items x =>
    split at h
    · rename_i e; subst e; cases h; exact .enum
    · cases h
  all_goals cases h

theorem intoDate_reads {v : Value} {r : RustVal} (h : v.intoDate = .ok r) : ReadExactly .date v r := by
  cases v <;> simp only [Value.intoDate] at h
  case date d => cases h; exact .date
  all_goals cases h

/-- Precisions of sub-second times the target asks for exist. -/
def Precisions : Target → Value → Prop
  | .time, .dt64 _ p _ => p ≤ 9
  | .vecTime, .array _ vs => ∀ v ∈ vs, ∀ x p z, v = .dt64 x p z → p ≤ 9
  | .opt t, .some v => Precisions t v
  | .hmap k v, .map _ _ ks vs => (∀ x ∈ ks, Precisions k x) ∧ (∀ x ∈ vs, Precisions v x)
  | _, _ => True

theorem intoTime_reads {v : Value} {r : RustVal} (hp : ∀ x p z, v = .dt64 x p z → p ≤ 9) (h : v.intoTime = .ok r) :
    ReadExactly .time v r := by
  cases v <;> simp only [Value.intoTime] at h
  case datetime s z => cases h; exact .time
  case dt64 x p z =>
    obtain ⟨⟨s, n⟩, h1, h⟩ := out_bind_ok.mp h
    cases h
    have hp := hp x p z rfl
    obtain ⟨e1, e2⟩ := toDatetime_exact hp h1
    exact .time64 hp e1 e2
  all_goals cases h

theorem readVec_reads {T E : Target} {pat : SqlType → Bool} {f : Value → Out RustVal} {v : Value} {r : RustVal}
    (hE : Target.elem T = some E) (hf : ∀ t vs, v = .array t vs → ∀ w ∈ vs, ∀ r, f w = .ok r → ReadExactly E w r)
    (h : readVec pat f v = .ok r) : ReadExactly T v r := by
  cases v <;> simp only [readVec] at h
  case array t vs =>
    split at h
    · obtain ⟨rs, hrs, h⟩ := out_bind_ok.mp h
      cases h
      obtain ⟨hl, hg⟩ := readAll_get hrs
      exact .vec hE hl fun i w r hw hr => hf t vs rfl w (List.mem_of_getElem? hw) r (hg i w r hw hr)
    · cases h
  all_goals cases h

theorem list4 {b : Bytes} (h : b.length = 4) : ∃ w x y z, b = [w, x, y, z] := by
  match b, h with
  | [w, x, y, z], _ => exact ⟨w, x, y, z, rfl⟩

theorem ip_reads {k : IpKind} {b : Bytes} (h : b.length = k.size) : ReadExactly (.ip k) (.ip k b) (.ip (ipOctets k b)) := by
  cases k with
  | v4 => obtain ⟨w, x, y, z, rfl⟩ := list4 h; exact .ip4
  | v6 => exact .ip6
  | uuid =>
    have h : b.length = 16 := h
    have := @ReadExactly.uuid (b.take 8).reverse (b.drop 8).reverse (by simp; omega) (by simp; omega)
    simpa [ipOctets] using this

/-- **C57**, exactness: whenever a typed read succeeds, the result is exactly the stored value as that Rust type expresses it (for
sub-second times of precisions that exist). -/
theorem C57_exact_partial (T : Target) (v : Value) (r : RustVal) (hg : Genuine v) (hp : Precisions T v)
    (h : fromSql T v = .ok r) : ReadExactly T v r := by
  induction T generalizing v r with
  | num t =>
    cases v <;> simp only [fromSql] at h
    case num t' x =>
      split at h
      · rename_i e; subst e; cases h; exact .num
      · cases h
    all_goals cases h
  | decimal =>
    cases v <;> simp only [fromSql] at h
    case decimal d => cases h; exact .decimal
    all_goals cases h
  | enum w =>
    cases v <;> simp only [fromSql] at h
    case enum w' items x =>
      split at h
      · rename_i e; subst e; cases h; exact .enum
      · cases h
    all_goals cases h
  | text => exact asStr_reads (by simpa only [fromSql] using h)
  | bytes => exact asBytes_reads (by simpa only [fromSql] using h)
  | ip k =>
    cases v <;> simp only [fromSql] at h
    case ip k' b =>
      split at h
      · rename_i e; subst e; cases h; exact ip_reads hg
      · cases h
    all_goals cases h
  | date =>
    cases v <;> simp only [fromSql] at h
    case date d => cases h; exact .date
    all_goals cases h
  | time =>
    cases v <;> simp only [fromSql] at h
    case datetime s z => cases h; exact .time
    case dt64 x p z =>
      exact intoTime_reads (fun x' p' z' e => by cases e; exact hp) h
    all_goals cases h
  | vecNum t => exact readVec_reads rfl (fun _ _ _ _ _ r hr => intoNum_reads hr) (by simpa only [fromSql] using h)
  | vecU8 =>
    cases v <;> simp only [fromSql] at h
    case array t vs =>
      split at h
      · obtain ⟨rs, hrs, h⟩ := out_bind_ok.mp h
        cases h
        obtain ⟨hl, hget⟩ := readAll_get hrs
        exact .vec rfl hl fun i w r hw hr => intoNum_reads (hget i w r hw hr)
      · cases h
    case str b => cases h; exact .byteVec
    all_goals cases h
  | vecText => exact readVec_reads rfl (fun _ _ _ _ _ r hr => asStr_reads hr) (by simpa only [fromSql] using h)
  | vecBytes => exact readVec_reads rfl (fun _ _ _ _ _ r hr => asBytes_reads hr) (by simpa only [fromSql] using h)
  | vecDate => exact readVec_reads rfl (fun _ _ _ _ _ r hr => intoDate_reads hr) (by simpa only [fromSql] using h)
  | vecTime =>
    refine readVec_reads rfl (fun t vs e w hw r hr => intoTime_reads ?_ hr) (by simpa only [fromSql] using h)
    subst e; exact hp w hw
  | vecEnum w => exact readVec_reads rfl (fun _ _ _ _ _ r hr => intoEnum_reads hr) (by simpa only [fromSql] using h)
  | opt T ih =>
    cases v <;> simp only [fromSql] at h
    case null t => cases h; exact .none
    case some v =>
      obtain ⟨r', hr, h⟩ := out_bind_ok.mp h
      cases h
      exact .some (ih v r' hg hp hr)
    all_goals cases h
  | hmap K V ihk ihv =>
    cases v <;> simp only [fromSql] at h
    case map k v ks vs =>
      obtain ⟨⟨as, bs⟩, hr, h⟩ := out_bind_ok.mp h
      cases h
      obtain ⟨hl, g1, g2⟩ := hg
      rw [genuineAll_iff] at g1 g2
      obtain ⟨l1, l2, h1, h2⟩ := readPairs_get hl hr
      exact .hmap hl l1 l2
        (fun i x a hx ha => ihk x a (g1 x (List.mem_of_getElem? hx)) (hp.1 x (List.mem_of_getElem? hx)) (h1 i x a hx ha))
        (fun i x b hx hb => ihv x b (g2 x (List.mem_of_getElem? hx)) (hp.2 x (List.mem_of_getElem? hx)) (h2 i x b hx hb))
    all_goals cases h

example : fromSql (.opt (.ip .v4)) (.some (.ip .v4 [1, 0, 168, 192])) = .ok (.some (.ip [192, 168, 0, 1])) := rfl
example : fromSql .time (.dt64 1500 3 defaultTz) = .ok (.time 1 500000000 defaultTz) := rfl

/-- **C57** is wrong for precisions from 19 on: whatever is stored reads as 1970-01-01 00:00:00. -/
theorem C57_precision_violated (v : Int) (p : Nat) (h : 19 ≤ p) (z : Tz) : fromSql .time (.dt64 v p z) = .ok (.time 0 0 z) := by
  have : toDatetime v p = .ok (0, 0) := by
    unfold toDatetime; rw [if_neg (by omega)]; rfl
  simp only [fromSql, this, obind_ok]; rfl

example : (19 : Nat) ≤ 20 := by decide

/-! ### Acceptance and rejection -/

theorem cell_cellType {t : SqlType} {v : Value} (h : Cell t v) : Cell (cellType t) v := by
  induction t with
  | lowCard t ih => exact ih h
  | simpleAgg f t ih => exact ih h
  | fixedString n => cases v <;> simp_all [Cell, cellType]
  | chrono => cases v <;> simp_all [Cell, cellType]
  | _ => exact h

theorem direct_cellType {t : SqlType} (h : Direct t) : Direct (cellType t) := by
  induction t with
  | lowCard t ih => exact ih h
  | simpleAgg f t ih => exact ih h
  | fixedString n => trivial
  | chrono => trivial
  | _ => exact h

/-- Types `cellType` can return. -/
def Stripped : SqlType → Prop
  | .lowCard _ | .simpleAgg _ _ | .fixedString _ | .chrono => False
  | _ => True

theorem stripped_cellType (t : SqlType) : Stripped (cellType t) := by
  induction t with
  | lowCard t ih => exact ih
  | simpleAgg f t ih => exact ih
  | _ => trivial

theorem scalarAs_strip (T : Target) (t : SqlType) : scalarAs T t = scalarAs T (cellType t) := by
  have : cellType (cellType t) = cellType t := by
    have := stripped_cellType t
    generalize cellType t = s at this
    cases s <;> simp_all [Stripped, cellType]
  unfold scalarAs; rw [this]

theorem asStr_ok {v : Value} {t : SqlType} (hc : Cell t v) (ht : cellType t = .string) (hu : Utf8Cell v) : ∃ r, v.asStr = .ok r := by
  replace hc := cell_cellType hc
  rw [ht] at hc
  cases v <;> simp only [Cell] at hc
  case str b =>
    cases hs : strOfBytes? b with
    | none => exact absurd hu (strOf_none hs)
    | some s => exact ⟨_, by simp only [Value.asStr, hs]; rfl⟩

theorem asBytes_ok {v : Value} {t : SqlType} (hc : Cell t v) (ht : cellType t = .string) : ∃ r, v.asBytes = .ok r := by
  replace hc := cell_cellType hc
  rw [ht] at hc
  cases v <;> simp only [Cell] at hc
  case str b => exact ⟨_, rfl⟩

theorem intoTime_ok {v : Value} {t : SqlType} (hc : Cell t v) (ht : cellType t = .datetime ∨ ∃ p z, cellType t = .dt64 p z)
    (hu : TimelyCell v) : ∃ r, v.intoTime = .ok r := by
  replace hc := cell_cellType hc
  rcases ht with ht | ⟨p, z, ht⟩
  · rw [ht] at hc
    cases v <;> simp only [Cell] at hc
    case datetime s z => exact ⟨_, rfl⟩
  · rw [ht] at hc
    cases v <;> simp only [Cell] at hc
    case dt64 x p z =>
      obtain ⟨h1, h2, h3, h4⟩ := hu
      obtain ⟨s, n, h, _⟩ := toDatetime_ok h1 h2 h3 h4
      exact ⟨_, by simp only [Value.intoTime, h, obind_ok]; rfl⟩

theorem scalarAs_inv {T : Target} {t : SqlType} (h : scalarAs T t = true) :
    (∃ n, T = .num n ∧ cellType t = .num n) ∨ (T = .decimal ∧ ∃ p s, cellType t = .decimal p s) ∨
    (∃ w i, T = .enum w ∧ cellType t = .enum w i) ∨ (T = .text ∧ cellType t = .string) ∨ (T = .bytes ∧ cellType t = .string) ∨
    (∃ k, T = .ip k ∧ cellType t = .ip k) ∨ (T = .date ∧ cellType t = .date) ∨
    (T = .time ∧ (cellType t = .datetime ∨ ∃ p z, cellType t = .dt64 p z)) ∨ (T = .vecU8 ∧ cellType t = .string) := by
  unfold scalarAs at h
  split at h <;> simp_all

/-- A value that is a cell of a type a scalar target corresponds to is read. -/
theorem scalar_ok {T : Target} {t : SqlType} {v : Value} (hc : Cell t v) (hs : scalarAs T t = true) (ht : Timely T v)
    (hu : Utf8 T v) : ∃ r, fromSql T v = .ok r := by
  have hc' := cell_cellType hc
  rcases scalarAs_inv hs with ⟨n, rfl, e⟩ | ⟨rfl, p, s, e⟩ | ⟨w, i, rfl, e⟩ | ⟨rfl, e⟩ | ⟨rfl, e⟩ | ⟨k, rfl, e⟩ | ⟨rfl, e⟩ |
    ⟨rfl, e⟩ | ⟨rfl, e⟩
  · rw [e] at hc'
    cases v <;> simp only [Cell] at hc'
    subst hc'; exact ⟨_, by simp only [fromSql, if_true]; rfl⟩
  · rw [e] at hc'
    cases v <;> simp only [Cell] at hc'
    exact ⟨_, rfl⟩
  · rw [e] at hc'
    cases v <;> simp only [Cell] at hc'
    obtain ⟨rfl, rfl⟩ := hc'
    exact ⟨_, by simp only [fromSql, if_true]; rfl⟩
  · simp only [fromSql]; exact asStr_ok hc e (by simpa [Utf8] using hu)
  · simp only [fromSql]; exact asBytes_ok hc e
  · rw [e] at hc'
    cases v <;> simp only [Cell] at hc'
    obtain ⟨rfl, _⟩ := hc'
    exact ⟨_, by simp only [fromSql, if_true]; rfl⟩
  · rw [e] at hc'
    cases v <;> simp only [Cell] at hc'
    exact ⟨_, rfl⟩
  · obtain ⟨r, hr⟩ := intoTime_ok hc e (by simpa [Timely] using ht)
    cases v <;> simp only [Value.intoTime] at hr
    case datetime => exact ⟨_, rfl⟩
    case dt64 => exact ⟨r, hr⟩
    all_goals cases hr
  · rw [e] at hc'
    cases v <;> simp only [Cell] at hc'
    exact ⟨_, rfl⟩

/-- Element types that are read element by element: the declared type is the cell type itself. -/
theorem elem_exact {e : SqlType} (h : cellType e = e ∨ e = .chrono) {s : SqlType} (hs : cellType e = s) :
    e = s ∨ (e = .chrono ∧ s = .datetime) := by
  rcases h with h | h
  · exact Or.inl (h.symm.trans hs)
  · subst h; exact Or.inr ⟨rfl, hs.symm⟩

theorem readVec_ok {pat : SqlType → Bool} {f : Value → Out RustVal} {t : SqlType} {vs : List Value} (hp : pat t = true)
    (h : ∀ v ∈ vs, ∃ r, f v = .ok r) : ∃ r, readVec pat f (.array t vs) = .ok r := by
  obtain ⟨rs, hrs⟩ := readAll_ok h
  exact ⟨_, by simp only [readVec, hp, if_true, hrs, obind_ok]; rfl⟩

theorem vec_ok {T E : Target} {e : SqlType} {vs : List Value} (hE : Target.elem T = some E) (hs : scalarAs E e = true)
    (hd : cellType e = e ∨ e = .chrono) (hc : ∀ v ∈ vs, Cell e v) (ht : Timely T (.array e vs)) (hu : Utf8 T (.array e vs)) :
    ∃ r, fromSql T (.array e vs) = .ok r := by
  cases T <;> simp only [Target.elem, Option.some.injEq, reduceCtorEq] at hE <;> subst hE <;> simp only [fromSql]
  case vecNum t =>
    have e1 : cellType e = .num t := by simpa using scalarAs_inv hs
    rcases elem_exact hd e1 with rfl | ⟨_, h⟩
    · refine readVec_ok (by simp) fun v hv => ?_
      have := hc v hv
      cases v <;> simp only [Cell] at this
      subst this; exact ⟨_, by simp only [Value.intoNum, if_true]; rfl⟩
    · cases h
  case vecU8 =>
    have e1 : cellType e = .num .u8 := by simpa using scalarAs_inv hs
    rcases elem_exact hd e1 with rfl | ⟨_, h⟩
    · obtain ⟨rs, hrs⟩ := readAll_ok (f := Value.intoNum .u8) (vs := vs) fun v hv => by
        have := hc v hv
        cases v <;> simp only [Cell] at this
        subst this; exact ⟨_, by simp only [Value.intoNum, if_true]; rfl⟩
      exact ⟨_, by simp only [if_true, hrs, obind_ok]; rfl⟩
    · cases h
  case vecText =>
    have e1 : cellType e = .string := by simpa using scalarAs_inv hs
    rcases elem_exact hd e1 with rfl | ⟨_, h⟩
    · exact readVec_ok (by simp) fun v hv => asStr_ok (hc v hv) e1 (by simpa only [Utf8] using hu v hv)
    · cases h
  case vecBytes =>
    have e1 : cellType e = .string := by simpa using scalarAs_inv hs
    rcases elem_exact hd e1 with rfl | ⟨_, h⟩
    · exact readVec_ok (by simp) fun v hv => asBytes_ok (hc v hv) e1
    · cases h
  case vecDate =>
    have e1 : cellType e = .date := by simpa using scalarAs_inv hs
    rcases elem_exact hd e1 with rfl | ⟨_, h⟩
    · refine readVec_ok (by simp) fun v hv => ?_
      have := hc v hv
      cases v <;> simp only [Cell] at this
      exact ⟨_, rfl⟩
    · cases h
  case vecTime =>
    have e1 : cellType e = .datetime ∨ ∃ p z, cellType e = .dt64 p z := by simpa using scalarAs_inv hs
    refine readVec_ok ?_ fun v hv => intoTime_ok (hc v hv) e1 (by simpa only [Timely] using ht v hv)
    rcases hd with hd | rfl
    · rw [hd] at e1
      rcases e1 with rfl | ⟨p, z, rfl⟩ <;> rfl
    · rfl
  case vecEnum w =>
    have e1 : ∃ i, cellType e = .enum w i := by simpa using scalarAs_inv hs
    obtain ⟨i, e1⟩ := e1
    rcases elem_exact hd e1 with rfl | ⟨_, h⟩
    · refine readVec_ok (by simp) fun v hv => ?_
      have := hc v hv
      cases v <;> simp only [Cell] at this
      obtain ⟨rfl, rfl⟩ := this
      exact ⟨_, by simp only [Value.intoEnum, if_true]; rfl⟩
    · cases h

theorem scalarAs_array {T : Target} {t e : SqlType} (h : cellType t = .array e) : scalarAs T t = false := by
  cases hs : scalarAs T t with
  | false => rfl
  | true => rcases scalarAs_inv hs with ⟨_, _, h'⟩ | ⟨_, _, _, h'⟩ | ⟨_, _, _, h'⟩ | ⟨_, h'⟩ | ⟨_, h'⟩ | ⟨_, _, h'⟩ | ⟨_, h'⟩ |
              ⟨_, h' | ⟨_, _, h'⟩⟩ | ⟨_, h'⟩ <;> rw [h] at h' <;> cases h'

/-- Reading as a type that is neither an option nor a map. -/
theorem simple_inv {T : Target} {t : SqlType} (hT : ∀ U, T ≠ .opt U) (hM : ∀ K V, T ≠ .hmap K V) (h : readsAs T t = true) :
    scalarAs T t = true ∨ ∃ E e, Target.elem T = some E ∧ cellType t = .array e ∧ scalarAs E e = true := by
  have : (scalarAs T t || (match Target.elem T, cellType t with | Option.some E, .array e => scalarAs E e | _, _ => false)) = true := by
    cases T <;> first | exact h | exact absurd rfl (hT _) | exact absurd rfl (hM _ _)
  rcases Bool.or_eq_true_iff.mp this with h | h
  · exact Or.inl h
  · right
    split at h
    · rename_i E e h1 h2; exact ⟨E, e, h1, h2, h⟩
    · cases h

/-- **C57**, acceptance: a cell of a column type that corresponds to the Rust type is read, provided its strings are UTF-8 where
text is asked for, its times are in range, and array element types are not wrapped in low cardinality and the like. -/
theorem C57_accepts_partial (T : Target) (t : SqlType) (v : Value) (hc : Cell t v) (hr : readsAs T t = true) (hd : Direct t)
    (ht : Timely T v) (hu : Utf8 T v) : ∃ r, fromSql T v = .ok r := by
  induction T generalizing t v with
  | opt T ih =>
    replace hc := cell_cellType hc
    replace hd := direct_cellType hd
    simp only [readsAs] at hr
    cases hs : cellType t <;> rw [hs] at hr hc hd <;> simp only [Bool.false_eq_true] at hr
    case nullable e =>
      cases v <;> simp only [Cell] at hc
      case null => exact ⟨_, rfl⟩
      case some v =>
        obtain ⟨r, h⟩ := ih e v hc hr hd ht hu
        exact ⟨_, by simp only [fromSql, h, obind_ok]; rfl⟩
  | hmap K V ihk ihv =>
    replace hc := cell_cellType hc
    replace hd := direct_cellType hd
    simp only [readsAs] at hr
    cases hs : cellType t <;> rw [hs] at hr hc hd <;> simp only [Bool.false_eq_true] at hr
    case map a b =>
      have hr := Bool.and_eq_true_iff.mp hr
      cases v <;> simp only [Cell] at hc
      case map k v ks vs =>
        obtain ⟨rfl, rfl, hl, hk, hv⟩ := hc
        obtain ⟨p, h⟩ := readPairs_ok (f := fromSql K) (g := fromSql V) (ks := ks) (vs := vs)
          (fun x hx => ihk _ x (hk x hx) hr.1 hd.1 (ht.1 x hx) (hu.1 x hx))
          (fun x hx => ihv _ x (hv x hx) hr.2 hd.2 (ht.2 x hx) (hu.2 x hx))
        exact ⟨_, by simp only [fromSql, h, obind_ok]; rfl⟩
  | _ =>
    rcases simple_inv (by simp) (by simp) hr with h | ⟨E, e, hE, he, hs⟩
    · exact scalar_ok hc h ht hu
    · have hc := cell_cellType hc
      replace hd := direct_cellType hd
      rw [he] at hc hd
      cases v <;> simp only [Cell] at hc
      obtain ⟨rfl, hc⟩ := hc
      exact vec_ok hE hs hd hc ht hu

example : Cell (.nullable (.lowCard .string)) (.some (.str (strBytes "ab"))) ∧ readsAs (.opt .text) (.nullable (.lowCard .string)) = true ∧
    Utf8 (.opt .text) (.some (.str (strBytes "ab"))) := ⟨trivial, rfl, ⟨"ab", rfl⟩⟩

/-- **C57** fails: an array of low-cardinality strings, or of fixed strings, cannot be read as a vector of strings, although a single
such string can be read as a string. -/
theorem C57_wrapped_elements_violated :
    readsAs .vecText (.array (.lowCard .string)) = true ∧
    fromSql .vecText (.array (.lowCard .string) [.str [97]]) = .err typeError ∧
    readsAs .vecText (.array (.fixedString 1)) = true ∧
    fromSql .vecText (.array (.fixedString 1) [.str [97]]) = .err typeError ∧
    (∃ r, fromSql .text (.str (strBytes "a")) = .ok r) := by
  refine ⟨rfl, rfl, rfl, rfl, ?_⟩
  exact scalar_ok (t := .string) trivial rfl (by simp [Timely, TimelyCell]) (by simp [Utf8, Utf8Cell])

/-- **C57** fails: a time half a second before 1970 panics instead of being read. -/
theorem C57_time_violated : fromSql .time (.dt64 (-5) 1 defaultTz) = .panic ∧ readsAs .time (.dt64 1 defaultTz) = true := ⟨rfl, rfl⟩

theorem cell_num {s : SqlType} {t : NumTy} {x : Nat} (hs : Stripped s) (h : Cell s (.num t x)) : s = .num t := by
  cases s <;> simp_all [Cell, Stripped]

theorem cell_str {s : SqlType} {b : Bytes} (hs : Stripped s) (h : Cell s (.str b)) : s = .string := by
  cases s <;> simp_all [Cell, Stripped]

theorem cell_decimal {s : SqlType} {d : Decimal} (hs : Stripped s) (h : Cell s (.decimal d)) : ∃ p k, s = .decimal p k := by
  cases s <;> simp_all [Cell, Stripped]

theorem cell_enum {s : SqlType} {w : EnumW} {i : List (Str × Int)} {x : Int} (hs : Stripped s) (h : Cell s (.enum w i x)) :
    s = .enum w i := by
  cases s <;> simp_all [Cell, Stripped]

theorem cell_ip {s : SqlType} {k : IpKind} {b : Bytes} (hs : Stripped s) (h : Cell s (.ip k b)) : s = .ip k := by
  cases s <;> simp_all [Cell, Stripped]

theorem cell_date {s : SqlType} {d : Nat} (hs : Stripped s) (h : Cell s (.date d)) : s = .date := by
  cases s <;> simp_all [Cell, Stripped]

theorem cell_datetime {s : SqlType} {d : Nat} {z : Tz} (hs : Stripped s) (h : Cell s (.datetime d z)) : s = .datetime := by
  cases s <;> simp_all [Cell, Stripped]

theorem cell_dt64 {s : SqlType} {v : Int} {p : Nat} {z : Tz} (hs : Stripped s) (h : Cell s (.dt64 v p z)) : s = .dt64 p z := by
  cases s <;> simp_all [Cell, Stripped]

theorem cell_array {s t : SqlType} {vs : List Value} (hs : Stripped s) (h : Cell s (.array t vs)) :
    s = .array t ∧ ∀ v ∈ vs, Cell t v := by
  cases s <;> simp_all [Cell, Stripped]

theorem cell_some {s : SqlType} {v : Value} (hs : Stripped s) (h : Cell s (.some v)) : ∃ e, s = .nullable e ∧ Cell e v := by
  cases s <;> simp_all [Cell, Stripped]

theorem cell_map {s k v : SqlType} {ks vs : List Value} (hs : Stripped s) (h : Cell s (.map k v ks vs)) :
    s = .map k v ∧ ks.length = vs.length ∧ (∀ x ∈ ks, Cell k x) ∧ ∀ x ∈ vs, Cell v x := by
  cases s <;> simp_all [Cell, Stripped]

theorem readVec_array {pat : SqlType → Bool} {f : Value → Out RustVal} {v : Value} {r : RustVal} (h : readVec pat f v = .ok r) :
    ∃ t vs, v = .array t vs ∧ pat t = true := by
  cases v <;> simp only [readVec] at h
  case array t vs =>
    split at h
    · rename_i hp; exact ⟨t, vs, rfl, hp⟩
    · cases h
  all_goals cases h

theorem readsAs_vec {T E : Target} {t e : SqlType} (hE : Target.elem T = some E) (ht : cellType t = .array e)
    (hs : scalarAs E e = true) : readsAs T t = true := by
  have : (scalarAs T t || (match Target.elem T, cellType t with | Option.some E, .array e => scalarAs E e | _, _ => false)) = true := by
    rw [hE, ht]; simp [hs]
  cases T <;> first | exact this | cases hE

theorem readsAs_scalar {T : Target} {t : SqlType} (hs : scalarAs T t = true) : readsAs T t = true := by
  have : (scalarAs T t || (match Target.elem T, cellType t with | Option.some E, .array e => scalarAs E e | _, _ => false)) = true := by
    rw [hs]; rfl
  rcases scalarAs_inv hs with ⟨n, rfl, e⟩ | ⟨rfl, p, s, e⟩ | ⟨w, i, rfl, e⟩ | ⟨rfl, e⟩ | ⟨rfl, e⟩ | ⟨k, rfl, e⟩ | ⟨rfl, e⟩ |
    ⟨rfl, e⟩ | ⟨rfl, e⟩ <;> exact this

/-- **C57**, rejection: a cell that can be read as a Rust type is a cell of a column type corresponding to it – unless it is a NULL or
an empty map, which say nothing about the type (`C57_untyped_violated`). -/
theorem C57_rejects_partial (T : Target) (t : SqlType) (v : Value) (hc : Cell t v) (hn : readsAs T t = false) (hw : Telling T v) :
    ∀ r, fromSql T v ≠ .ok r := by
  suffices h : ∀ r, fromSql T v = .ok r → readsAs T t = true by
    intro r hr; rw [h r hr] at hn; cases hn
  clear hn
  intro r h
  induction T generalizing t v r with
  | num n =>
    replace hc := cell_cellType hc
    have hs := stripped_cellType t
    cases v <;> simp only [fromSql] at h
    case num t' x =>
      split at h
      · rename_i e; subst e
        exact readsAs_scalar (by unfold scalarAs; rw [cell_num hs hc]; simp)
      · cases h
    all_goals cases h
  | decimal =>
    replace hc := cell_cellType hc
    have hs := stripped_cellType t
    cases v <;> simp only [fromSql] at h
    case decimal d =>
      obtain ⟨p, k, e⟩ := cell_decimal hs hc
      exact readsAs_scalar (by unfold scalarAs; rw [e])
    all_goals cases h
  | enum w =>
    replace hc := cell_cellType hc
    have hs := stripped_cellType t
    cases v <;> simp only [fromSql] at h
    case enum w' i x =>
      split at h
      · rename_i e; subst e
        exact readsAs_scalar (by unfold scalarAs; rw [cell_enum hs hc]; simp)
      · cases h
    all_goals cases h
  | text =>
    replace hc := cell_cellType hc
    have hs := stripped_cellType t
    cases v <;> simp only [fromSql, Value.asStr] at h
    case str b => exact readsAs_scalar (by unfold scalarAs; rw [cell_str hs hc])
    all_goals cases h
  | bytes =>
    replace hc := cell_cellType hc
    have hs := stripped_cellType t
    cases v <;> simp only [fromSql, Value.asBytes] at h
    case str b => exact readsAs_scalar (by unfold scalarAs; rw [cell_str hs hc])
    all_goals cases h
  | ip k =>
    replace hc := cell_cellType hc
    have hs := stripped_cellType t
    cases v <;> simp only [fromSql] at h
    case ip k' b =>
      split at h
      · rename_i e; subst e
        exact readsAs_scalar (by unfold scalarAs; rw [cell_ip hs hc]; simp)
      · cases h
    all_goals cases h
  | date =>
    replace hc := cell_cellType hc
    have hs := stripped_cellType t
    cases v <;> simp only [fromSql] at h
    case date d => exact readsAs_scalar (by unfold scalarAs; rw [cell_date hs hc])
    all_goals cases h
  | time =>
    replace hc := cell_cellType hc
    have hs := stripped_cellType t
    cases v <;> simp only [fromSql] at h
    case datetime d z => exact readsAs_scalar (by unfold scalarAs; rw [cell_datetime hs hc])
    case dt64 x p z => exact readsAs_scalar (by unfold scalarAs; rw [cell_dt64 hs hc])
    all_goals cases h
  | vecU8 =>
    replace hc := cell_cellType hc
    have hs := stripped_cellType t
    cases v <;> simp only [fromSql, Value.asBytes] at h
    case str b => exact readsAs_scalar (by unfold scalarAs; rw [cell_str hs hc])
    case array e vs =>
      split at h
      · rename_i he
        subst he
        exact readsAs_vec rfl (cell_array hs hc).1 rfl
      · cases h
    all_goals cases h
  | opt T ih =>
    replace hc := cell_cellType hc
    have hs := stripped_cellType t
    cases v <;> simp only [fromSql] at h
    case null => exact absurd hw (by simp [Telling])
    case some v =>
      obtain ⟨r', hr, h⟩ := out_bind_ok.mp h
      obtain ⟨e, he, hce⟩ := cell_some hs hc
      simp only [readsAs, he]
      exact ih e v hce hw r' hr
    all_goals cases h
  | hmap K V ihk ihv =>
    replace hc := cell_cellType hc
    have hs := stripped_cellType t
    cases v <;> simp only [fromSql] at h
    case map k v ks vs =>
      obtain ⟨⟨as, bs⟩, hr, h⟩ := out_bind_ok.mp h
      obtain ⟨he, hl, hk, hv⟩ := cell_map hs hc
      obtain ⟨hne, w1, w2⟩ := hw
      obtain ⟨l1, l2, h1, h2⟩ := readPairs_get hl hr
      have hpos : 0 < ks.length := List.length_pos_iff.mpr hne
      simp only [readsAs, he, Bool.and_eq_true]
      have m1 : ks[0] ∈ ks := List.getElem_mem hpos
      have m2 : vs[0]'(by omega) ∈ vs := List.getElem_mem (by omega)
      exact ⟨ihk k _ (hk _ m1) (w1 _ m1) _ (h1 0 _ (as[0]'(by omega)) (List.getElem?_eq_getElem hpos) (List.getElem?_eq_getElem (by omega))),
        ihv v _ (hv _ m2) (w2 _ m2) _ (h2 0 _ (bs[0]'(by omega)) (List.getElem?_eq_getElem (by omega)) (List.getElem?_eq_getElem (by omega)))⟩
    all_goals cases h
  | _ =>
    replace hc := cell_cellType hc
    have hs := stripped_cellType t
    simp only [fromSql] at h
    obtain ⟨e, vs, rfl, hp⟩ := readVec_array h
    refine readsAs_vec rfl (cell_array hs hc).1 ?_
    first
    | (have hp : e = _ := by simpa using hp
       subst hp; simp [scalarAs, cellType])
    | (revert hp; cases e <;> simp [scalarAs, cellType])

example : Cell (.num .u16) (.num .u16 5) ∧ readsAs (.num .u32) (.num .u16) = false ∧ Telling (.num .u32) (.num .u16 5) ∧
    fromSql (.num .u32) (.num .u16 5) = .err typeError := ⟨rfl, rfl, trivial, rfl⟩

/-- **C57** fails: NULL of any type can be read as an option of any other, and the empty map as a map of any other types. -/
theorem C57_untyped_violated :
    Cell (.nullable .string) (.null .string) ∧ readsAs (.opt (.num .u32)) (.nullable .string) = false ∧
    fromSql (.opt (.num .u32)) (.null .string) = .ok .none ∧
    readsAs (.hmap .text .date) (.map (.num .u8) .string) = false ∧
    fromSql (.hmap .text .date) (.map (.num .u8) .string [] []) = .ok (.hmap [] []) := ⟨rfl, rfl, rfl, rfl, rfl⟩

theorem asStr_np (v : Value) : v.asStr ≠ .panic := by
  cases v <;> simp only [Value.asStr] <;> try (intro h; cases h)
  split <;> (intro h; cases h)

theorem asBytes_np (v : Value) : v.asBytes ≠ .panic := by
  cases v <;> (intro h; cases h)

theorem readVec_np {pat : SqlType → Bool} {f : Value → Out RustVal} {v : Value}
    (h : ∀ t vs, v = .array t vs → pat t = true → ∀ w ∈ vs, f w ≠ .panic) : readVec pat f v ≠ .panic := by
  cases v <;> simp only [readVec] <;> try (intro h; cases h)
  case array t vs =>
    split
    · rename_i hp
      have := readAll_panic (h t vs rfl hp)
      cases hr : readAll f vs with
      | panic => exact absurd hr this
      | err e => intro h; cases h
      | ok rs => intro h; cases h
    · intro h; cases h

/-- **C57**, a typed read of a cell never panics when the times it asks for are in range. -/
theorem C57_no_panic_partial (T : Target) (t : SqlType) (v : Value) (hc : Cell t v) (ht : Timely T v) : fromSql T v ≠ .panic := by
  induction T generalizing t v with
  | num n =>
    cases v <;> simp only [fromSql] <;> try (intro h; cases h)
    split <;> (intro h; cases h)
  | decimal => cases v <;> simp only [fromSql] <;> (intro h; cases h)
  | enum w =>
    cases v <;> simp only [fromSql] <;> try (intro h; cases h)
    split <;> (intro h; cases h)
  | text => simp only [fromSql]; exact asStr_np v
  | bytes => simp only [fromSql]; exact asBytes_np v
  | ip k =>
    cases v <;> simp only [fromSql] <;> try (intro h; cases h)
    split <;> (intro h; cases h)
  | date => cases v <;> simp only [fromSql] <;> (intro h; cases h)
  | time =>
    cases v <;> simp only [fromSql] <;> try (intro h; cases h)
    case dt64 x p z =>
      simp only [Timely, TimelyCell] at ht
      obtain ⟨h1, h2, h3, h4⟩ := ht
      obtain ⟨s, n, h, _⟩ := toDatetime_ok h1 h2 h3 h4
      simp only [h, obind_ok]; intro h; cases h
  | vecNum n =>
    replace hc := cell_cellType hc
    have hs := stripped_cellType t
    simp only [fromSql]
    refine readVec_np fun e vs hv hp w hw => ?_
    subst hv
    have hcw := (cell_array hs hc).2 w hw
    have hp : e = .num n := by simpa using hp
    subst hp
    cases w <;> simp only [Cell] at hcw
    subst hcw; simp [Value.intoNum]
  | vecU8 =>
    replace hc := cell_cellType hc
    have hs := stripped_cellType t
    cases v <;> simp only [fromSql] <;> try exact asBytes_np _
    case array e vs =>
      split
      · rename_i he; subst he
        have := readAll_panic (f := Value.intoNum .u8) (vs := vs) fun w hw => by
          have hcw := (cell_array hs hc).2 w hw
          cases w <;> simp only [Cell] at hcw
          subst hcw; simp [Value.intoNum]
        cases hr : readAll (Value.intoNum .u8) vs with
        | panic => exact absurd hr this
        | err e => intro h; cases h
        | ok rs => intro h; cases h
      · intro h; cases h
  | vecText => simp only [fromSql]; exact readVec_np fun _ _ _ _ w _ => asStr_np w
  | vecBytes => simp only [fromSql]; exact readVec_np fun _ _ _ _ w _ => asBytes_np w
  | vecDate =>
    replace hc := cell_cellType hc
    have hs := stripped_cellType t
    simp only [fromSql]
    refine readVec_np fun e vs hv hp w hw => ?_
    subst hv
    have hcw := (cell_array hs hc).2 w hw
    have hp : e = .date := by simpa using hp
    subst hp
    cases w <;> simp only [Cell] at hcw
    intro h; cases h
  | vecTime =>
    replace hc := cell_cellType hc
    have hs := stripped_cellType t
    simp only [fromSql]
    refine readVec_np fun e vs hv hp w hw => ?_
    subst hv
    have hcw := (cell_array hs hc).2 w hw
    have hcell : cellType e = .datetime ∨ ∃ p z, cellType e = .dt64 p z := by
      revert hp; cases e <;> simp [cellType]
    obtain ⟨r, hr⟩ := intoTime_ok hcw hcell (ht w hw)
    rw [hr]; intro h; cases h
  | vecEnum w =>
    replace hc := cell_cellType hc
    have hs := stripped_cellType t
    simp only [fromSql]
    refine readVec_np fun e vs hv hp x hx => ?_
    subst hv
    have hcw := (cell_array hs hc).2 x hx
    cases e <;> simp at hp
    subst hp
    cases x <;> simp only [Cell] at hcw
    obtain ⟨rfl, rfl⟩ := hcw
    simp [Value.intoEnum]
  | opt T ih =>
    replace hc := cell_cellType hc
    have hs := stripped_cellType t
    cases v <;> simp only [fromSql] <;> try (intro h; cases h)
    case some v =>
      obtain ⟨e, he, hce⟩ := cell_some hs hc
      have := ih e v hce ht
      cases hr : fromSql T v with
      | panic => exact absurd hr this
      | err e => intro h; cases h
      | ok rs => intro h; cases h
  | hmap K V ihk ihv =>
    replace hc := cell_cellType hc
    have hs := stripped_cellType t
    cases v <;> simp only [fromSql] <;> try (intro h; cases h)
    case map k v ks vs =>
      obtain ⟨he, hl, hk, hv⟩ := cell_map hs hc
      have := readPairs_panic (f := fromSql K) (g := fromSql V) (ks := ks) (vs := vs)
        (fun x hx => ihk k x (hk x hx) (ht.1 x hx)) (fun x hx => ihv v x (hv x hx) (ht.2 x hx))
      cases hr : readPairs (fromSql K) (fromSql V) ks vs with
      | panic => exact absurd hr this
      | err e => intro h; cases h
      | ok rs => intro h; cases h

example : Timely .vecTime (.array (.dt64 3 defaultTz) [.dt64 1500 3 defaultTz]) := by
  intro v hv
  simp at hv; subst hv
  simp [TimelyCell]

/-- Different keys of a map give different Rust keys, so no entry is lost when the Rust map is filled. -/
theorem fromSql_key_injective (K : Target) (a b : Value) (r : RustVal) (ha : a.refHashable = true) (hb : b.refHashable = true)
    (h1 : fromSql K a = .ok r) (h2 : fromSql K b = .ok r) : Value.keyEq a b = true := by
  have g : ∀ {v : Value}, v.refHashable = true → (∃ t x, v = .num t x) ∨ ∃ b, v = .str b := by
    intro v hv; cases v <;> simp_all [Value.refHashable]
  have keyEq_refl : ∀ {v : Value}, v.refHashable = true → Value.keyEq v v = true := keyEq_self
  have text : ∀ {x y : Bytes}, Value.asStr (.str x) = .ok r → Value.asStr (.str y) = .ok r → x = y := by
    intro x y hx hy
    simp only [Value.asStr] at hx hy
    cases ex : strOfBytes? x with
    | none => rw [ex] at hx; cases hx
    | some s =>
      cases ey : strOfBytes? y with
      | none => rw [ey] at hy; cases hy
      | some s' =>
        rw [ex] at hx; rw [ey] at hy
        cases hx; cases hy
        rw [← strOfBytes_some ex, strOfBytes_some ey]
  suffices a = b by subst this; exact keyEq_refl ha
  rcases g ha with ⟨t, x, rfl⟩ | ⟨x, rfl⟩ <;> rcases g hb with ⟨t', y, rfl⟩ | ⟨y, rfl⟩ <;> cases K <;>
    simp only [fromSql, readVec, Value.asBytes] at h1 h2 <;> try cases h1
  all_goals try cases h2
  all_goals try rfl
  all_goals try (split at h1 <;> cases h1)
  all_goals try (split at h2 <;> cases h2)
  all_goals try (first | (subst_vars; rfl) | cases h1 | cases h2)
  all_goals try (rw [text h1 h2])
  all_goals (simp [Value.asStr] at h1 h2)

example : fromSql .text (.str (strBytes "k")) ≠ .panic := asStr_np _

end CH.Props
