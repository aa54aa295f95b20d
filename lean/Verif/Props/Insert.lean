import Verif.Lemmas.Insert
import Verif.Props.Cast

/-! What an INSERT sends follows the native format of ClickHouse. -/

namespace CH.Props

open CH CH.Spec

/-- C76, the column of an INSERT. A column converted for a table is written in the native format of the table's type, and the cells
there are the converted cells. (`_partial`: as `C34_column_partial` for the conversion and as `C76_save_partial` for the types, except
that `DateTime64` is included here.) -/
theorem C76_cast_partial (parse : IpKind → String → Option Bytes) (hparse : ∀ k s b, parse k s = some b → b.length = k.size)
    (known : Tz → Bool) (tz : Tz) (n : Nat) (hn : n < 2 ^ 56 - 1) (c : Col) (t : SqlType) (h : Convertible parse known tz n c t)
    (hf : Flat t) (hk : KeysHash t) (hg : Flagged c) (d : Col) (hd : c.castTo parse t = .ok d) :
    ∃ b vs, d.save 0 n = .ok b ∧ vs.length = n ∧ Stream tz t vs b ∧
      ∀ i, i < n → ∃ v w, cell c i = some v ∧ convert parse tz t v = some w ∧ vs[i]? = some w := by
  rcases castTo_done h.sound h.sized h.small h.room h.target h.times known h.named hn hparse h.cells with h1 | ⟨d', h1, h2⟩
  · rw [hd] at h1; cases h1
  · rw [hd] at h1
    injection h1 with h1
    subst h1
    obtain ⟨b, vs, g1, g2, g3, g4⟩ := sent_laid h2 hf hk hg
    refine ⟨b, vs, g1, g2, g3, fun i hi => ?_⟩
    obtain ⟨v, w, e1, e2⟩ := h.cells i hi
    exact ⟨v, w, e1, e2, g4 i v w hi e1 e2⟩

/-- C76, the block of an INSERT. A block converted for a table is written in the native format of a block with the table's types, the
block's own names and the converted cells. (`_partial` as `C76_cast_partial`.) -/
theorem C76_insert_partial (parse : IpKind → String → Option Bytes) (hparse : ∀ k s b, parse k s = some b → b.length = k.size)
    (known : Tz → Bool) (tz : Tz) (n : Nat) (hn : n < 2 ^ 56 - 1) (b table b' : Block) (hr : b.rowCount = .ok n)
    (hlen : b.columns.length = table.columns.length)
    (hlo : -(2 ^ 31 : Nat) ≤ b.info.bucketNum) (hhi : b.info.bucketNum < (2 ^ 31 : Nat))
    (h : ∀ (i : Nat) c t, b.columns[i]? = some c → table.columns[i]? = some t →
      Convertible parse known tz n c.data t.data.sqlType ∧ Flat t.data.sqlType ∧ KeysHash t.data.sqlType ∧ Flagged c.data)
    (hb : b.castTo parse table = .ok b') :
    ∃ bytes fs, b'.write = .ok bytes ∧ BlockLaid tz b.info n fs bytes ∧ fs.length = b.columns.length ∧
      ∀ (i : Nat) c t f, b.columns[i]? = some c → table.columns[i]? = some t → fs[i]? = some f →
        f.name = c.name ∧ f.type = t.data.sqlType ∧
        ∀ j, j < n → ∃ v w, cell c.data j = some v ∧ convert parse tz t.data.sqlType v = some w ∧ f.cells[j]? = some w := by
  rw [Block.castTo, if_neg (by omega)] at hb
  obtain ⟨ds, e, hb⟩ := obind_eq_ok hb
  injection hb with hb
  subst hb
  obtain ⟨hdl, hd⟩ := castColumns_ok hlen e
  have hsent : ∀ i (h1 : i < b.columns.length) (h2 : i < table.columns.length) (h3 : i < ds.length),
      Sent parse tz b.columns[i].data table.columns[i].data.sqlType ds[i].data n := by
    intro i h1 h2 h3
    obtain ⟨hc, -⟩ := h i _ _ (List.getElem?_eq_getElem h1) (List.getElem?_eq_getElem h2)
    rcases castTo_done hc.sound hc.sized hc.small hc.room hc.target hc.times known hc.named hn hparse hc.cells with e | ⟨d, e, s⟩
    · rw [(hd i h1 h2 h3).2] at e; cases e
    · rw [(hd i h1 h2 h3).2] at e; injection e with e; rw [e]; exact s
  have hrow : Block.rowCount ⟨b.info, ds⟩ = .ok n := by
    cases ds with
    | nil =>
      have : b.columns = [] := by cases hb : b.columns with
        | nil => rfl
        | cons => rw [hb] at hdl; simp at hdl
      rw [Block.rowCount, this] at hr
      exact hr
    | cons d ds =>
      simp only [List.length_cons] at hdl
      exact (hsent 0 (by omega) (by omega) (by simp)).len
  obtain ⟨bss, fs, g1, g2, g3, g4, g5⟩ := sent_fields (tz := tz) (n := n) (ds := ds)
    (P := fun i f => ∀ c t, b.columns[i]? = some c → table.columns[i]? = some t → f.name = c.name ∧ f.type = t.data.sqlType ∧
        ∀ j, j < n → ∃ v w, cell c.data j = some v ∧ convert parse tz t.data.sqlType v = some w ∧ f.cells[j]? = some w) (by
    intro i d hi
    obtain ⟨h3, rfl⟩ := List.getElem?_eq_some_iff.mp hi
    have h1 : i < b.columns.length := by omega
    have h2 : i < table.columns.length := by omega
    have s := hsent i h1 h2 h3
    obtain ⟨hc, hf, hk, hg⟩ := h i _ _ (List.getElem?_eq_getElem h1) (List.getElem?_eq_getElem h2)
    obtain ⟨b, vs, l1, l2, l3, l4⟩ := sent_laid s hf hk hg
    refine ⟨s.len, b, vs, l1, l2, by rw [s.type]; exact l3, fun c t hc' ht' => ?_⟩
    rw [List.getElem?_eq_getElem h1, Option.some.injEq] at hc'
    rw [List.getElem?_eq_getElem h2, Option.some.injEq] at ht'
    subst hc' ht'
    refine ⟨(hd i h1 h2 h3).1, s.type, fun j hj => ?_⟩
    obtain ⟨v, w, e1, e2⟩ := hc.cells j hj
    exact ⟨v, w, e1, e2, l4 j v w hj e1 e2⟩)
  refine ⟨_, fs, by rw [Block.write, hrow]; simp only [obind_ok]; rw [g1]; rfl,
    ⟨_, _, _, _, rfl, info_put hlo hhi, ?_, leb_put _, g2, g4⟩, by omega, fun i c t f h1 h2 h3 => g5 i f h3 c t h1 h2⟩
  rw [g3]
  exact leb_put _

/-- Optional times, one before 1970, for a column of optional `DateTime64`. -/
theorem exTimes : Convertible parseSome (fun _ => true) "UTC".toList 2 (.nullable [0, 1] (.chrono "UTC".toList [(-1, 250000000, []), (0, 0, [])]))
    (.nullable (.dt64 3 "UTC".toList)) where
  sound := by simp [Sound]
  sized := by simp [Sized]
  small := by simp [InMemory]
  room := by simp [SpaceFor]
  target := .inl (by simp [Insertable])
  times := by simp [TimesFit, fitsBytes]
  named := by simp [Nameable, plainText]
  cells := fun i hi => by
    match i with
    | 0 => exact ⟨.some (.chrono (-1) 250000000 []), .some (.dt64 (-750) 3 "UTC".toList), rfl, rfl⟩
    | 1 => exact ⟨.null .chrono, .null (.dt64 3 "UTC".toList), rfl, rfl⟩

example : ∃ b vs, (Col.nullable [0, 1] (.chronoAd (.chrono "UTC".toList [(-1, 250000000, []), (0, 0, [])]) (.dt64 3 "UTC".toList))).save 0 2 =
    .ok b ∧ vs.length = 2 ∧ Stream "UTC".toList (.nullable (.dt64 3 "UTC".toList)) vs b ∧ vs[0]? = some (.some (.dt64 (-750) 3 "UTC".toList)) := by
  obtain ⟨b, vs, h1, h2, h3, h4⟩ := C76_cast_partial parseSome (by
    intro k s b h
    unfold parseSome at h
    split at h <;> simp at h <;> subst h <;> rfl) (fun _ => true) "UTC".toList 2 (by decide) _ _ exTimes trivial trivial
    ⟨by decide, trivial⟩ _ rfl
  obtain ⟨v, w, e1, e2, e3⟩ := h4 0 (by decide)
  cases e1
  refine ⟨b, vs, h1, h2, h3, ?_⟩
  rw [e3]
  exact congrArg _ (Option.some.inj e2).symm

/-- The same column in a block. -/
example : ∃ bytes fs, Block.write ⟨⟨false, -1⟩, [⟨"t", .nullable [0, 1] (.chronoAd (.chrono "UTC".toList [(-1, 250000000, []), (0, 0, [])])
    (.dt64 3 "UTC".toList))⟩]⟩ = .ok bytes ∧ BlockLaid "UTC".toList ⟨false, -1⟩ 2 fs bytes ∧ fs.length = 1 := by
  obtain ⟨bytes, fs, h1, h2, h3, -⟩ := C76_insert_partial parseSome (by
    intro k s b h
    unfold parseSome at h
    split at h <;> simp at h <;> subst h <;> rfl) (fun _ => true) "UTC".toList 2 (by decide)
    ⟨⟨false, -1⟩, [⟨"t", .nullable [0, 1] (.chrono "UTC".toList [(-1, 250000000, []), (0, 0, [])])⟩]⟩
    ⟨⟨false, -1⟩, [⟨"t", .nullable [] (.dt64 3 "UTC".toList [])⟩]⟩ _ rfl rfl (by decide) (by decide) (by
      intro i c t hc ht
      match i with
      | 0 =>
        simp only [List.getElem?_cons_zero, Option.some.injEq] at hc ht
        subst hc ht
        exact ⟨exTimes, trivial, trivial, by decide, trivial⟩
      | i + 1 => simp at hc) rfl
  exact ⟨bytes, fs, h1, h2, h3⟩

end CH.Props
