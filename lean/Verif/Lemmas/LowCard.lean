import Verif.Lemmas.Fits

/-! Building low-cardinality columns. -/

namespace CH
open Spec

theorem fits_hashable {t : SqlType} {v : Value} (ht : HashType t) (hf : Fits t v) : v.valHashable = true := by
  cases t <;> simp [HashType] at ht <;> cases v <;> simp [Fits] at hf <;> simp [Value.valHashable]
  obtain ⟨rfl, _⟩ := hf
  exact ht

theorem hashType_plain {t : SqlType} (ht : HashType t) : PlainType t := by
  cases t <;> simp [HashType] at ht <;> simp [PlainType, ht]

theorem dict_at {d : Col} {m i : Nat} (ht : HashType d.sqlType) (hs : Sound d m) (hi : i < m) :
    ∃ w, d.at i = .ok w ∧ w.valHashable = true := by
  cases d <;> try exact False.elim hs
  case num t xs => exact ⟨.num t _, by rw [Col.at, idx_ok (by rw [hs.1]; exact hi)]; rfl, by simpa [Value.valHashable, HashType, Col.sqlType] using ht⟩
  case str xs =>
    have hs' : xs.length = m := hs
    exact ⟨.str xs[i], by rw [Col.at, idx_ok (by omega)]; rfl, rfl⟩
  case fixed k buf =>
    have : (i + 1) * k ≤ m * k := Nat.mul_le_mul_right k hi
    rw [Nat.succ_mul] at this
    exact ⟨_, by rw [Col.at, slice_ok (by omega) (by rw [hs.2]; exact this)]; rfl, rfl⟩
  case date z xs => exact ⟨.date _, by rw [Col.at, idx_ok (by rw [hs.1]; exact hi)]; rfl, rfl⟩
  all_goals exact absurd ht (by simp [HashType, Col.sqlType])

theorem mapOut_exists {f : α → Out β} {l : List α} (P : β → Prop) (h : ∀ a ∈ l, ∃ b, f a = .ok b ∧ P b) :
    ∃ bs, mapOut f l = .ok bs ∧ ∀ b ∈ bs, P b := by
  induction l with
  | nil => exact ⟨[], rfl, by simp⟩
  | cons a l ih =>
    obtain ⟨b, h1, h2⟩ := h a (by simp)
    obtain ⟨bs, h3, h4⟩ := ih (fun a ha => h a (by simp [ha]))
    refine ⟨b :: bs, by rw [mapOut, h1, obind_ok, h3]; rfl, ?_⟩
    intro x hx
    rcases List.mem_cons.mp hx with rfl | hx
    · exact h2
    · exact h4 x hx

theorem vmapCollect_ok {ps : List (Value × Nat)} (h : ∀ p ∈ ps, p.1.valHashable = true) :
    ∀ m, ∃ m', vmapCollect m ps = .ok m' := by
  induction ps with
  | nil => exact fun m => ⟨m, rfl⟩
  | cons p ps ih =>
    intro m
    obtain ⟨v, i⟩ := p
    rw [vmapCollect, if_pos (h (v, i) (by simp))]
    exact ih (fun p hp => h p (by simp [hp])) _

theorem lcIndexPush_ok (ity : IdxTy) (index : List Nat) (v : Nat) (h : index.length + 1 < 2 ^ 64) :
    ∃ q, lcIndexPush ity index v = .ok q := by
  unfold lcIndexPush
  split
  · cases ity with
    | u64 => rename_i h1; simp [IdxTy.maxLen, IdxTy.width] at h1; omega
    | _ => exact ⟨_, rfl⟩
  · exact ⟨_, rfl⟩

theorem lcPush_ok {ity : IdxTy} {index : List Nat} {d : Col} {vmap : Option (List (Value × Nat))} {v : Value} {n : Nat}
    (hs : Sound (.lowCard ity index d vmap) n) (hn : n + 1 < 2 ^ 64) (ht : HashType d.sqlType) (hf : Fits d.sqlType v) :
    ∃ c', (Col.lowCard ity index d vmap).push v = .ok c' := by
  obtain ⟨h1, h2, hd, m, h3, h4, h5, h6⟩ := hs
  have finish : ∀ mp : List (Value × Nat), ∃ c',
        (vmapGet mp v >>= fun o => match o with
          | some j => lcIndexPush ity index j >>= fun q => pure (Col.lowCard q.1 q.2 d (some mp))
          | none => d.len >>= fun j => pushT d.sqlType d v >>= fun d' =>
            lcIndexPush ity index j >>= fun q => pure (Col.lowCard q.1 q.2 d' (some ((v, j) :: mp)))) = .ok c' := by
    intro mp
    unfold vmapGet
    rw [if_pos (fits_hashable ht hf), obind_ok]
    cases (Option.map (fun x => x.2) (List.find? (fun p => p.1.valKeyEq v) mp)) with
    | some j =>
      obtain ⟨q, hq⟩ := lcIndexPush_ok ity index j (by omega)
      exact ⟨_, by simp only; rw [hq]; rfl⟩
    | none =>
      obtain ⟨q, hq⟩ := lcIndexPush_ok ity index m (by omega)
      obtain ⟨d', hd'⟩ := push_ok (hashType_plain ht) rfl h3 (.inl hf)
      exact ⟨_, by simp only; rw [h3.len, obind_ok, hd', obind_ok, hq]; rfl⟩
  rw [Col.push, Col.sqlType]
  simp only [pushT]
  cases vmap with
  | some mp => exact finish mp
  | none =>
    have : ∃ mp, lcValueMap index d = .ok mp := by
      obtain ⟨ps, hp1, hp2⟩ := mapOut_exists (f := fun i => do let v ← d.at i; pure (v, i)) (l := index)
        (fun p : Value × Nat => p.1.valHashable = true) (fun i hi => by
          obtain ⟨w, hw, hh⟩ := dict_at ht h3 (h5 i hi)
          exact ⟨(w, i), by rw [hw]; rfl, hh⟩)
      obtain ⟨mp, hmp⟩ := vmapCollect_ok hp2 []
      exact ⟨mp, by rw [lcValueMap, hp1, obind_ok, hmp]⟩
    obtain ⟨mp, hmp⟩ := this
    obtain ⟨c', hc⟩ := finish mp
    exact ⟨c', by rw [hmp, obind_ok]; exact hc⟩

theorem sound_lowCard_shape {c : Col} {n : Nat} {t : SqlType} (hs : Sound c n) (ht : c.sqlType = .lowCard t) :
    ∃ ity index d vmap, c = .lowCard ity index d vmap ∧ d.sqlType = t := by
  cases c <;> simp [Col.sqlType] at ht <;> try exact False.elim hs
  exact ⟨_, _, _, _, rfl, ht⟩

theorem lcPushList_ok {t : SqlType} (ht : HashType t) {vs : List Value} : ∀ {c : Col} {n : Nat}, c.sqlType = .lowCard t →
    Sound c n → n + vs.length < 2 ^ 64 → (∀ v ∈ vs, Fits t v) → ∃ c', pushList c vs = .ok c' := by
  induction vs with
  | nil => intro c n _ _ _ _; exact ⟨c, rfl⟩
  | cons v vs ih =>
    intro c n hc hs hn hf
    obtain ⟨ity, index, d, vmap, rfl, rfl⟩ := sound_lowCard_shape hs hc
    rw [List.length_cons] at hn
    obtain ⟨c1, h1⟩ := lcPush_ok hs (by omega) ht (hf v (by simp))
    have p := push_spec hs (fits_genuine (hf v (by simp))) h1
    obtain ⟨c2, h2⟩ := ih (p.type.trans hc) p.sound (by omega) (fun v hv => hf v (by simp [hv]))
    exact ⟨c2, by rw [pushList, pushAllWith, h1]; exact h2⟩

theorem emptyCol_dict (tz : Tz) {t : SqlType} (ht : HashType t) : ∃ d, emptyCol tz t = .ok d ∧ d.sqlType = t ∧ Sound d 0 ∧ DictCol d := by
  obtain ⟨d, h1, h2, h3⟩ := emptyCol_plain tz (hashType_plain ht)
  refine ⟨d, h1, h2, h3, ?_⟩
  subst h2
  cases d <;> simp [HashType, Col.sqlType] at ht <;> first | trivial | exact False.elim h3

/-- Pushing canonical values onto a sound low-cardinality column (local or received). -/
theorem lc_extend {t : SqlType} (ht : HashType t) {c : Col} {n : Nat} (hc : c.sqlType = .lowCard t) (hs : Sound c n)
    {vs : List Value} (hn : n + vs.length < 2 ^ 64) (hf : ∀ v ∈ vs, Fits t v) :
    ∃ c', pushList c vs = .ok c' ∧ c'.sqlType = .lowCard t ∧ c'.len = .ok (n + vs.length) ∧
      (∀ i, i < n → c'.at i = c.at i) ∧ ∀ i (h : i < vs.length), c'.at (n + i) = .ok vs[i] := by
  obtain ⟨c', h⟩ := lcPushList_ok ht hc hs hn hf
  have p := pushList_spec hs (fun v hv => fits_genuine (hf v hv)) h
  exact ⟨c', h, p.type.trans hc, p.sound.len, p.old, fun i hi => by
    rw [p.new i hi, readBack_fits (t := .lowCard t) hc hs (hf _ (List.getElem_mem hi))]⟩

/-! ### No duplicates in the dictionary -/

/-- Types stored without loss, so that distinct values stay distinct. -/
def Spec.ExactType : SqlType → Prop
  | .num t => t ≠ .bool ∧ t ≠ .f32 ∧ t ≠ .f64
  | .string => True
  | .date => True
  | _ => False

/-- The map lists every dictionary entry and the entries are pairwise distinct. -/
def LcFull : Col → Prop
  | .lowCard _ _ d vmap => ∃ m, d.len = .ok m ∧ (∀ i j, i < m → j < m → d.at i = d.at j → i = j) ∧
      match vmap with
      | none => m = 0
      | some mp => ∀ i, i < m → ∃ p ∈ mp, p.2 = i
  | _ => False

theorem exact_hash {t : SqlType} (h : ExactType t) : HashType t := by
  cases t <;> simp [ExactType] at h <;> simp [HashType, h]

theorem readBack_exact {d : Col} {n : Nat} {a b w : Value} (hs : Sound d n) (ht : ExactType d.sqlType)
    (ha : readBack d a = .ok w) (hb : readBack d b = .ok w) : Value.valKeyEq a b = true := by
  cases d <;> simp [ExactType, Col.sqlType] at ht <;> try exact False.elim hs
  · obtain ⟨x, hx, h1⟩ := obind_eq_ok ha
    obtain ⟨y, hy, h2⟩ := obind_eq_ok hb
    rw [toNum_ok hx, toNum_ok hy]
    simp at h1 h2
    rw [← h1] at h2
    simp at h2
    simp [Value.valKeyEq, h2]
  · obtain ⟨x, hx, h1⟩ := obind_eq_ok ha
    obtain ⟨y, hy, h2⟩ := obind_eq_ok hb
    rw [toBytes_ok hx, toBytes_ok hy]
    simp at h1 h2
    rw [← h1] at h2
    simp at h2
    simp [Value.valKeyEq, h2]
  · cases a <;> simp [readBack] at ha
    cases b <;> simp [readBack] at hb
    rw [← ha] at hb
    simp at hb
    simp [Value.valKeyEq, hb]

theorem lcFull_push {t : SqlType} (ht : ExactType t) {c c' : Col} {v : Value} {n : Nat} (hc : c.sqlType = .lowCard t)
    (hs : Sound c n) (hg : Genuine v) (hf : LcFull c) (h : c.push v = .ok c') : LcFull c' := by
  obtain ⟨ity, index, d, vmap, rfl, rfl⟩ := sound_lowCard_shape hs hc
  obtain ⟨h1, h2, hd, m, h3, h4, h5, h6⟩ := hs
  obtain ⟨m', hm', hinj, hfull⟩ := hf
  rw [h3.len] at hm'
  injection hm' with hm'
  subst hm'
  have finish : ∀ mp : List (Value × Nat), (∀ p ∈ mp, p.1.valHashable ∧ p.2 < m ∧ d.at p.2 = readBack d p.1) →
      (∀ i, i < m → ∃ p ∈ mp, p.2 = i) →
      (vmapGet mp v >>= fun o => match o with
          | some j => lcIndexPush ity index j >>= fun q => pure (Col.lowCard q.1 q.2 d (some mp))
          | none => d.len >>= fun j => pushT d.sqlType d v >>= fun d' =>
            lcIndexPush ity index j >>= fun q => pure (Col.lowCard q.1 q.2 d' (some ((v, j) :: mp)))) = .ok c' →
        LcFull c' := by
    intro mp hmp hall h
    obtain ⟨o, ho, h⟩ := obind_eq_ok h
    unfold vmapGet at ho
    split at ho
    case isFalse => simp at ho
    injection ho with ho
    cases o with
    | some j =>
      obtain ⟨q, hq, h⟩ := obind_eq_ok h
      simp only [opure] at h
      injection h with h
      subst h
      exact ⟨m, h3.len, hinj, hall⟩
    | none =>
      simp only at h
      rw [h3.len, obind_ok] at h
      obtain ⟨d', hd', h⟩ := obind_eq_ok h
      obtain ⟨q, hq, h⟩ := obind_eq_ok h
      simp only [opure] at h
      injection h with h
      subst h
      have p := push_spec h3 hg hd'
      have hnew : ∀ i, i < m → d'.at i ≠ d'.at m := by
        intro i hi he
        obtain ⟨q, hq, rfl⟩ := hall i hi
        have hnone : List.find? (fun p => p.1.valKeyEq v) mp = none := by simpa using ho
        have := List.find?_eq_none.mp hnone q hq
        apply this
        have hq3 := (hmp q hq).2.2
        rw [p.old _ hi, p.new, hq3] at he
        obtain ⟨w, hw, _⟩ := dict_at (exact_hash ht) h3 hi
        rw [hq3] at hw
        exact readBack_exact h3 ht hw (he ▸ hw)
      refine ⟨m + 1, p.sound.len, ?_, ?_⟩
      · intro i j hi hj he
        rcases Nat.lt_or_ge i m with hi' | hi' <;> rcases Nat.lt_or_ge j m with hj' | hj'
        · rw [p.old i hi', p.old j hj'] at he
          exact hinj i j hi' hj' he
        · have : j = m := by omega
          subst this; exact absurd he (hnew i hi')
        · have : i = m := by omega
          subst this; exact absurd he.symm (hnew j hj')
        · omega
      · intro i hi
        rcases Nat.lt_or_ge i m with hi' | hi'
        · obtain ⟨q, hq, h⟩ := hall i hi'; exact ⟨q, by simp [hq], h⟩
        · exact ⟨(v, m), by simp, by simp; omega⟩
  rw [Col.push, Col.sqlType] at h
  simp only [pushT] at h
  cases vmap with
  | some mp => exact finish mp h6 hfull h
  | none =>
    obtain ⟨mp, hmp, h⟩ := obind_eq_ok h
    exact finish mp (lcValueMap_spec hd h3 hmp) (fun i hi => by simp at hfull; omega) h

theorem lcFull_pushList {t : SqlType} (ht : ExactType t) {vs : List Value} : ∀ {c c' : Col} {n : Nat},
    c.sqlType = .lowCard t → Sound c n → (∀ v ∈ vs, Genuine v) → LcFull c → pushList c vs = .ok c' → LcFull c' := by
  induction vs with
  | nil => intro c c' n _ _ _ hf h; simp [pushList, pushAllWith] at h; rwa [← h]
  | cons v vs ih =>
    intro c c' n hc hs hg hf h
    obtain ⟨c1, h1, h2⟩ := obind_eq_ok h
    have p := push_spec hs (hg v (by simp)) h1
    exact ih (p.type.trans hc) p.sound (fun v hv => hg v (by simp [hv])) (lcFull_push ht hc hs (hg v (by simp)) hf h1) h2

end CH
