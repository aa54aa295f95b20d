import Verif.Lemmas.Push

/-! Canonical values are stored and read back unchanged. -/

namespace CH
open Spec

theorem fits_genuine {t : SqlType} : ∀ {v : Value}, Fits t v → Genuine v := by
  induction t with
  | num t => intro v h; cases v <;> simp_all [Fits, Genuine]
  | ip k => intro v h; cases v <;> simp_all [Fits, Genuine]
  | nullable t ih => intro v h; cases v <;> simp_all [Fits, Genuine]
  | array t ih =>
    intro v h
    cases v <;> simp_all [Fits, Genuine]
    exact genuineAll_iff.mpr fun v hv => ih (h.2 v hv)
  | map k v ihk ihv =>
    intro v h
    cases v <;> simp_all [Fits, Genuine]
    exact ⟨genuineAll_iff.mpr fun v hv => ihk (h.2.2.2.1 v hv), genuineAll_iff.mpr fun v hv => ihv (h.2.2.2.2.1 v hv)⟩
  | simpleAgg f t ih => exact fun h => ih h
  | lowCard t ih => exact fun h => ih h
  | _ => intro v h; cases v <;> simp_all [Fits, Genuine]

theorem keyIndex_none {k : Value} {xs : List Value} (h : ∀ x ∈ xs, Value.keyEq x k = false) : keyIndex k xs = none := by
  induction xs with
  | nil => rfl
  | cons x xs ih => simp [keyIndex, h x (by simp), ih (fun x hx => h x (by simp [hx]))]

theorem mapBuild_distinct {ks : List Value} : ∀ {vs a b : List Value}, ks.length = vs.length →
    (∀ k ∈ ks, k.refHashable = true) → (a ++ ks).Pairwise (fun a b => Value.keyEq a b = false) →
    mapBuild (a, b) ks vs = .ok (a ++ ks, b ++ vs) := by
  induction ks with
  | nil => intro vs a b hl _ _; cases vs with
    | nil => simp [mapBuild]
    | cons => simp at hl
  | cons k ks ih =>
    intro vs a b hl hh hp
    cases vs with
    | nil => simp at hl
    | cons v vs =>
      rw [mapBuild, if_pos (hh k (by simp))]
      have hk : keyIndex k a = none := by
        apply keyIndex_none
        intro x hx
        exact (List.pairwise_append.mp hp).2.2 x hx k (by simp)
      rw [mapInsert, hk]
      rw [ih (by simpa using hl) (fun k hk => hh k (by simp [hk])) (by simpa using hp)]
      simp

theorem mapOut_id {f : α → Out α} {l : List α} (h : ∀ a ∈ l, f a = .ok a) : mapOut f l = .ok l := by
  rw [mapOut_ok (g := id) h, List.map_id]

theorem enumW_pos (w : EnumW) : 0 < w.width := by cases w <;> decide

theorem readBack_fits {t : SqlType} : ∀ {c : Col} {v : Value} {n : Nat}, c.sqlType = t → Sound c n → Fits t v →
    readBack c v = .ok v := by
  induction t with
  | num t =>
    intro c v n ht hs hf
    cases c <;> simp [Col.sqlType] at ht <;> try exact False.elim hs
    subst ht
    cases v <;> simp [Fits] at hf
    simp [readBack, Value.toNum, hf.1]
  | string =>
    intro c v n ht hs hf
    cases c <;> simp [Col.sqlType] at ht <;> try exact False.elim hs
    cases v <;> simp [Fits] at hf
    simp [readBack, Value.toBytes]
  | fixedString k =>
    intro c v n ht hs hf
    cases c <;> simp [Col.sqlType] at ht <;> try exact False.elim hs
    subst ht
    cases v <;> simp [Fits] at hf
    simp only [readBack, Value.toBytes, obind_ok, opure]
    rw [List.take_of_length_le (by omega), hf, Nat.sub_self]; simp
  | date =>
    intro c v n ht hs hf
    cases c <;> simp [Col.sqlType] at ht <;> try exact False.elim hs
    cases v <;> simp [Fits] at hf
    simp [readBack]
  | datetime => intro c v n ht hs hf; simp [Fits] at hf
  | dt64 p z => intro c v n ht hs hf; simp [Fits] at hf
  | chrono =>
    intro c v n ht hs hf
    cases c <;> simp [Col.sqlType] at ht <;> try exact False.elim hs
    cases v <;> simp [Fits] at hf
    simp only [readBack, Value.toAppDateTime, obind_ok, opure, asU32]
    congr 2
    omega
  | ip k =>
    intro c v n ht hs hf
    cases c <;> simp [Col.sqlType] at ht <;> try exact False.elim hs
    subst ht
    cases v <;> simp [Fits] at hf
    simp [readBack, hf.1]
  | nullable t ih =>
    intro c v n ht hs hf
    cases c <;> simp [Col.sqlType] at ht <;> try exact False.elim hs
    cases v <;> simp [Fits] at hf
    · simp [readBack, ht, hf]
    · simp [readBack, ih ht hs.2.2 hf]
  | array t ih =>
    intro c v n ht hs hf
    cases c <;> simp [Col.sqlType] at ht <;> try exact False.elim hs
    cases v <;> simp [Fits] at hf
    rw [readBack, mapOut_id (fun a ha => ih ht hs.2.2 (hf.2 a ha))]
    simp [ht, hf.1]
  | map kt vt ihk ihv =>
    intro c v n ht hs hf
    cases c <;> simp [Col.sqlType] at ht <;> try exact False.elim hs
    cases v <;> simp [Fits] at hf
    obtain ⟨f1, f2, f3, f4, f5, f6, f7⟩ := hf
    rw [readBack, mapOut_id (fun a ha => ihk ht.1 hs.2.2.1 (f4 a ha)), obind_ok,
      mapOut_id (fun a ha => ihv ht.2 hs.2.2.2 (f5 a ha)), obind_ok, mapBuild_distinct f3 f6 (by simpa using f7)]
    simp [ht, f1, f2]
  | decimal p s =>
    intro c v n ht hs hf
    cases c <;> simp [Col.sqlType] at ht <;> try exact False.elim hs
    obtain ⟨rfl, rfl⟩ := ht
    cases v <;> simp [Fits] at hf
    rename_i nb xs d
    obtain ⟨u, nb', p', s'⟩ := d
    simp only at hf
    obtain ⟨rfl, rfl, h1, h2, h3⟩ := hf
    have hnb : nb = nb' := by rw [h1]; exact hs.1
    subst hnb
    rw [readBack, toSigned_ofSigned (by cases nb <;> decide) h2 h3]
  | enum w items =>
    intro c v n ht hs hf
    cases c <;> simp [Col.sqlType] at ht <;> try exact False.elim hs
    obtain ⟨rfl, rfl⟩ := ht
    cases v <;> simp [Fits] at hf
    obtain ⟨rfl, rfl, h2, h3⟩ := hf
    rw [readBack, if_pos rfl, toSigned_ofSigned (enumW_pos _) h2 h3]
  | simpleAgg f t ih =>
    intro c v n ht hs hf
    cases c <;> simp [Col.sqlType] at ht <;> try exact False.elim hs
    rw [readBack]
    exact ih ht.2 hs hf
  | lowCard t ih =>
    intro c v n ht hs hf
    cases c <;> simp [Col.sqlType] at ht <;> try exact False.elim hs
    obtain ⟨_, _, _, m, h, _⟩ := hs
    rw [readBack]
    exact ih ht h hf

/-- Pushing a canonical value never panics, and neither does pushing the default standing for NULL. -/
theorem push_ok {t : SqlType} (hp : PlainType t) : ∀ {c : Col} {v : Value} {n : Nat}, c.sqlType = t → Sound c n →
    Fits t v ∨ v = Value.default t → ∃ c', pushT t c v = .ok c' := by
  have all : ∀ {t : SqlType}, (∀ {c : Col} {v : Value} {n : Nat}, c.sqlType = t → Sound c n →
      Fits t v ∨ v = Value.default t → ∃ c', pushT t c v = .ok c') →
      ∀ {vs : List Value} {c : Col} {n : Nat}, c.sqlType = t → Sound c n → (∀ v ∈ vs, Fits t v) →
        ∃ c', pushAllWith (pushT t) c vs = .ok c' := by
    intro t ih vs
    induction vs with
    | nil => intro c n _ _ _; exact ⟨c, rfl⟩
    | cons v vs ihv =>
      intro c n ht hs hf
      obtain ⟨c1, h1⟩ := ih ht hs (.inl (hf v (by simp)))
      have p := push_spec hs (fits_genuine (hf v (by simp))) (by rw [Col.push, ht]; exact h1)
      obtain ⟨c2, h2⟩ := ihv (p.type.trans ht) p.sound (fun v hv => hf v (by simp [hv]))
      exact ⟨c2, by rw [pushAllWith, h1]; exact h2⟩
  induction t with
  | num t =>
    intro c v n ht hs hf
    cases c <;> simp [Col.sqlType] at ht <;> try exact False.elim hs
    subst ht
    rcases hf with hf | rfl
    · cases v <;> simp [Fits] at hf
      simp [pushT, Value.toNum, hf.1]
    · simp [pushT, Value.toNum, Value.default]
  | string =>
    intro c v n ht hs hf
    cases c <;> simp [Col.sqlType] at ht <;> try exact False.elim hs
    rcases hf with hf | rfl
    · cases v <;> simp [Fits] at hf
      simp [pushT, Value.toBytes]
    · simp [pushT, Value.toBytes, Value.default]
  | fixedString k =>
    intro c v n ht hs hf
    cases c <;> simp [Col.sqlType] at ht <;> try exact False.elim hs
    rcases hf with hf | rfl
    · cases v <;> simp [Fits] at hf
      simp [pushT, Value.toBytes]
    · simp [pushT, Value.toBytes, Value.default]
  | date =>
    intro c v n ht hs hf
    cases c <;> simp [Col.sqlType] at ht <;> try exact False.elim hs
    rcases hf with hf | rfl
    · cases v <;> simp [Fits] at hf
      simp [pushT]
    · simp [pushT, Value.default]
  | datetime => intros; exact False.elim hp
  | dt64 p z => intros; exact False.elim hp
  | lowCard t ih => intros; exact False.elim hp
  | chrono =>
    intro c v n ht hs hf
    cases c <;> simp [Col.sqlType] at ht <;> try exact False.elim hs
    rcases hf with hf | rfl
    · cases v <;> simp [Fits] at hf
      simp [pushT, Value.toAppDateTime]
    · simp [pushT, Value.toAppDateTime, Value.default]
  | ip k =>
    intro c v n ht hs hf
    cases c <;> simp [Col.sqlType] at ht <;> try exact False.elim hs
    subst ht
    rcases hf with hf | rfl
    · cases v <;> simp [Fits] at hf
      simp [pushT, hf.1]
    · simp [pushT, Value.default]
  | nullable t ih =>
    intro c v n ht hs hf
    cases c <;> simp [Col.sqlType] at ht <;> try exact False.elim hs
    rcases hf with hf | rfl
    · cases v <;> simp [Fits] at hf
      · subst hf
        obtain ⟨c', h⟩ := ih hp ht hs.2.2 (.inr rfl)
        simp [pushT, h]
      · obtain ⟨c', h⟩ := ih hp ht hs.2.2 (.inl hf)
        simp [pushT, h]
    · obtain ⟨c', h⟩ := ih hp ht hs.2.2 (.inr rfl)
      simp [pushT, h, Value.default]
  | array t ih =>
    intro c v n ht hs hf
    cases c <;> simp [Col.sqlType] at ht <;> try exact False.elim hs
    rcases hf with hf | rfl
    · cases v <;> simp [Fits] at hf
      obtain ⟨c', h⟩ := all (ih hp) ht hs.2.2 hf.2
      simp [pushT, h]
    · simp [pushT, pushAllWith, Value.default]
  | map kt vt ihk ihv =>
    intro c v n ht hs hf
    cases c <;> simp [Col.sqlType] at ht <;> try exact False.elim hs
    rcases hf with hf | rfl
    · cases v <;> simp [Fits] at hf
      obtain ⟨c1, h1⟩ := all (ihk hp.1) ht.1 hs.2.2.1 hf.2.2.2.1
      obtain ⟨c2, h2⟩ := all (ihv hp.2) ht.2 hs.2.2.2 hf.2.2.2.2.1
      simp [pushT, h1, h2]
    · simp [pushT, pushAllWith, Value.default]
  | decimal p s =>
    intro c v n ht hs hf
    cases c <;> simp [Col.sqlType] at ht <;> try exact False.elim hs
    rcases hf with hf | rfl
    · cases v <;> simp [Fits] at hf
      simp [pushT]
    · simp [pushT, Value.default]
  | enum w items =>
    intro c v n ht hs hf
    cases c <;> simp [Col.sqlType] at ht <;> try exact False.elim hs
    obtain ⟨rfl, rfl⟩ := ht
    rcases hf with hf | rfl
    · cases v <;> simp [Fits] at hf
      simp [pushT, hf.1]
    · simp [pushT, Value.default]
  | simpleAgg f t ih =>
    intro c v n ht hs hf
    cases c <;> simp [Col.sqlType] at ht <;> try exact False.elim hs
    obtain ⟨c', h⟩ := ih hp ht.2 hs hf
    simp [pushT, h]

theorem pushList_ok {t : SqlType} (hp : PlainType t) {vs : List Value} : ∀ {c : Col} {n : Nat}, c.sqlType = t → Sound c n →
    (∀ v ∈ vs, Fits t v) → ∃ c', pushList c vs = .ok c' := by
  induction vs with
  | nil => intro c n _ _ _; exact ⟨c, rfl⟩
  | cons v vs ih =>
    intro c n ht hs hf
    obtain ⟨c1, h1⟩ := push_ok hp ht hs (.inl (hf v (by simp)))
    have h1' : c.push v = .ok c1 := by rw [Col.push, ht]; exact h1
    have p := push_spec hs (fits_genuine (hf v (by simp))) h1'
    obtain ⟨c2, h2⟩ := ih (p.type.trans ht) p.sound (fun v hv => hf v (by simp [hv]))
    exact ⟨c2, by rw [pushList, pushAllWith, h1']; exact h2⟩

theorem emptyCol_plain (tz : Tz) {t : SqlType} (hp : PlainType t) : ∃ c, emptyCol tz t = .ok c ∧ c.sqlType = t ∧ Sound c 0 := by
  induction t with
  | datetime => exact False.elim hp
  | dt64 p z => exact False.elim hp
  | lowCard t ih => exact False.elim hp
  | nullable t ih => obtain ⟨c, h1, h2, h3⟩ := ih hp; exact ⟨.nullable [] c, by simp [emptyCol, h1], by simp [Col.sqlType, h2], by simp [Sound, h3]⟩
  | array t ih => obtain ⟨c, h1, h2, h3⟩ := ih hp; exact ⟨.array [] c, by simp [emptyCol, h1], by simp [Col.sqlType, h2], by simp [Sound, lastOff, h3]⟩
  | simpleAgg f t ih => obtain ⟨c, h1, h2, h3⟩ := ih hp; exact ⟨.simpleAgg f c, by simp [emptyCol, h1], by simp [Col.sqlType, h2], h3⟩
  | map k v ihk ihv =>
    obtain ⟨c, h1, h2, h3⟩ := ihk hp.1
    obtain ⟨d, g1, g2, g3⟩ := ihv hp.2
    exact ⟨.map [] c d, by simp [emptyCol, h1, g1], by simp [Col.sqlType, h2, g2], by simp [Sound, lastOff, h3, g3]⟩
  | decimal p s =>
    have : p ≤ 18 := hp
    refine ⟨.decimal p s (if p ≤ 9 then .n32 else .n64) [], ?_, rfl, by simp [Sound]⟩
    rw [emptyCol, NoBits.fromPrecision]
    by_cases h9 : p ≤ 9 <;> simp [h9, this]
  | fixedString n => exact ⟨.fixed n [], rfl, rfl, ⟨hp, by simp⟩⟩
  | _ => exact ⟨_, rfl, rfl, by simp [Sound]⟩

/-- Building a column from canonical values: it has one row per value and each row reads as the value. -/
theorem build_spec (tz : Tz) {t : SqlType} (hp : PlainType t) {vs : List Value} (hf : ∀ v ∈ vs, Fits t v) :
    ∃ c0 c, emptyCol tz t = .ok c0 ∧ pushList c0 vs = .ok c ∧ c.sqlType = t ∧ Sound c vs.length ∧
      c.len = .ok vs.length ∧ ∀ i (h : i < vs.length), c.at i = .ok vs[i] := by
  obtain ⟨c0, h0, h1, h2⟩ := emptyCol_plain tz hp
  obtain ⟨c, h3⟩ := pushList_ok hp h1 h2 hf
  have p := pushList_spec h2 (fun v hv => fits_genuine (hf v hv)) h3
  have hs := p.sound
  rw [Nat.zero_add] at hs
  refine ⟨c0, c, h0, h3, p.type.trans h1, hs, hs.len, fun i hi => ?_⟩
  have := p.new i hi
  rw [Nat.zero_add] at this
  rw [this, readBack_fits h1 h2 (hf _ (List.getElem_mem hi))]

end CH
