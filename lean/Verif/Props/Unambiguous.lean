import Verif.Props.Native

/-! C76: the bytes of a block determine the block. -/

namespace CH.Props
open CH CH.Spec

/-- The bytes of a block begin with its info and its sizes. -/
theorem blockLaid_sizes {tz : Tz} {info : BlockInfo} {rows : Nat} {fs : List Field} {b : Bytes} (h : BlockLaid tz info rows fs b)
    (hr : rows < 2 ^ 64) (hb : b.length < 2 ^ 56) :
    ∃ d, (do let i ← readBlockInfo; let n ← readUvarint; let r ← readUvarint; pure (i, n, r) : Reader (BlockInfo × Nat × Nat)) b =
      .ok (info, fs.length, rows) d := by
  obtain ⟨i, c, r, d, rfl, h1, h2, h3, h4, h5⟩ := h
  have hlen : fs.length ≤ d.length := inTurn_length (fun f x hx => by
    obtain ⟨n, t, d, rfl, ⟨l, hl, rfl⟩, -, -⟩ := hx
    have := leb_length hl
    simp only [List.length_append]
    omega) h4
  simp only [List.length_append] at hb
  obtain ⟨rfl, lo, hi⟩ := info_eq h1
  refine ⟨d, ?_⟩
  rw [leb_eq h2, leb_eq h3]
  simp only [List.append_assoc]
  rw [bind_ok (readBlockInfo_put _ lo hi _), bind_ok (readUvarint_put (by omega) _), bind_ok (readUvarint_put hr _)]
  rfl

/-- Rows that are the cells of the same column are the same. -/
theorem rowsAre_eq {c : Col} {vs ws : List Value} (h : RowsAre c 0 vs) (h' : RowsAre c 0 ws) (hl : vs.length = ws.length) : vs = ws := by
  apply List.ext_getElem?
  intro i
  by_cases hi : i < vs.length
  · have e1 := h i _ (List.getElem?_eq_getElem hi)
    have e2 := h' i _ (List.getElem?_eq_getElem (by omega))
    rw [e1] at e2
    injection e2 with e2
    rw [List.getElem?_eq_getElem hi, List.getElem?_eq_getElem (by omega), e2]
  · rw [List.getElem?_eq_none (by omega), List.getElem?_eq_none (by omega)]

/-- C76. Bytes are those of one block only: info, number of rows, names, types and cells follow from them (but for the order of the
entries of a map). -/
theorem C76_block_determined (known : Tz → Bool) (tz : Tz) (info info' : BlockInfo) (rows rows' : Nat) (fs gs : List Field) (b : Bytes)
    (h : BlockLaid tz info rows fs b) (h' : BlockLaid tz info' rows' gs b)
    (hf : ∀ f ∈ fs, Flat f.type ∧ KeysHash f.type ∧ Nameable known f.type)
    (hg : ∀ f ∈ gs, Flat f.type ∧ KeysHash f.type ∧ Nameable known f.type) (hr : rows < 2 ^ 64) (hr' : rows' < 2 ^ 64)
    (hb : b.length < 2 ^ 56) :
    info' = info ∧ rows' = rows ∧ gs.length = fs.length ∧
    ∀ (i : Nat) f g, fs[i]? = some f → gs[i]? = some g →
      g.name = f.name ∧ g.type = f.type ∧ (MapFree f.type → g.cells = f.cells) ∧ ReorderedCells f.cells g.cells := by
  obtain ⟨d, e⟩ := blockLaid_sizes h hr hb
  obtain ⟨d', e'⟩ := blockLaid_sizes h' hr' hb
  rw [e] at e'
  injection e' with e1 _
  obtain ⟨rfl, e2⟩ := Prod.mk.inj e1
  obtain ⟨hl, rfl⟩ := Prod.mk.inj e2
  obtain ⟨cs, fs', k1, k2, k3, -, k4, k5⟩ := C76_block_load_partial known tz info rows fs b h hf hr hb
  obtain ⟨cs', gs', k1', k2', k3', -, k4', k5'⟩ := C76_block_load_partial known tz info rows gs b h' hg hr hb
  have ec := k1 []
  rw [k1' []] at ec
  injection ec with ec _
  have : cs' = cs := by injection ec
  subst this
  refine ⟨rfl, rfl, hl.symm, fun i f g hi hi' => ?_⟩
  have hlt : i < fs.length := (List.getElem?_eq_some_iff.mp hi).1
  obtain ⟨⟨a1, a2, a3⟩, a4, a5, a6, a7⟩ := k5 i (cs'[i]'(by omega)) f (fs'[i]'(by omega)) (List.getElem?_eq_getElem _) hi (List.getElem?_eq_getElem _)
  obtain ⟨⟨b1, b2, b3⟩, b4, b5, b6, b7⟩ := k5' i (cs'[i]'(by omega)) g (gs'[i]'(by omega)) (List.getElem?_eq_getElem _) hi' (List.getElem?_eq_getElem _)
  obtain ⟨-, -, -, -, -, -, -, -, -, hc⟩ := k3
  obtain ⟨-, -, -, -, -, -, -, -, -, hc'⟩ := k3'
  have hn : g.name = f.name := by rw [← a4, ← b4, ← a1, ← b1]
  have ht : g.type = f.type := by rw [← a5, ← b5, ← a2, ← b2]
  have hcell := rowsAre_eq a3 b3 (by rw [hc _ (List.getElem_mem _), hc' _ (List.getElem_mem _)])
  refine ⟨hn, ht, fun hm => ?_, ?_⟩
  · rw [← a6 hm, ← b6 (ht ▸ hm), hcell]
  · rw [hcell] at a7
    exact reorderedCells_trans a7 (reorderedCells_symm b7)

/-- A block of one column, `s Array(String)`, of one row. -/
theorem exLaid : BlockLaid [] ⟨false, -1⟩ 1 [⟨"s", .array .string, [.array .string [.str [97], .str [98, 99]]]⟩]
    (([1, 0, 2] ++ [255, 255, 255, 255] ++ [0]) ++ [1] ++ [1] ++
      ([1, 115] ++ [13, 65, 114, 114, 97, 121, 40, 83, 116, 114, 105, 110, 103, 41] ++
        ([2, 0, 0, 0, 0, 0, 0, 0] ++ [1, 97, 2, 98, 99]) ++ [])) :=
  ⟨_, _, _, _, rfl, ⟨[255, 255, 255, 255], ⟨rfl, .inr ⟨by decide, by decide⟩⟩, rfl⟩, .last rfl (by decide), .last rfl (by decide),
    .cons ⟨[1, 115], [13, 65, 114, 114, 97, 121, 40, 83, 116, 114, 105, 110, 103, 41], _, rfl,
      ⟨[1], .last (by decide +kernel) (by decide +kernel), by decide +kernel⟩,
      ⟨[13], .last (by decide +kernel) (by decide +kernel), by decide +kernel⟩, exNative⟩ .nil, by simp⟩

/-- Whatever block those bytes are taken for, it has one row and one column, which is called `s`. -/
example (info : BlockInfo) (rows : Nat) (g : Field) (h : BlockLaid [] info rows [g] (([1, 0, 2] ++ [255, 255, 255, 255] ++ [0]) ++ [1] ++ [1] ++
      ([1, 115] ++ [13, 65, 114, 114, 97, 121, 40, 83, 116, 114, 105, 110, 103, 41] ++
        ([2, 0, 0, 0, 0, 0, 0, 0] ++ [1, 97, 2, 98, 99]) ++ [])))
    (hg : Flat g.type ∧ KeysHash g.type ∧ Nameable (fun _ => true) g.type) (hr : rows < 2 ^ 64) :
    rows = 1 ∧ g.name = "s" ∧ g.cells = [.array .string [.str [97], .str [98, 99]]] := by
  obtain ⟨-, h2, -, h3⟩ := C76_block_determined (fun _ => true) [] _ info 1 rows _ [g] _ exLaid h
    (by simp only [List.mem_singleton, forall_eq]; exact ⟨trivial, trivial, trivial⟩) (by simpa using hg) (by decide) hr (by decide)
  obtain ⟨k1, -, k2, -⟩ := h3 0 _ g rfl rfl
  exact ⟨h2, k1, k2 trivial⟩

end CH.Props
