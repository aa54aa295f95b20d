import Verif.Lemmas.Native

/-! Column data follow the native format of ClickHouse. -/

namespace CH.Props

open CH CH.Spec

/-- C76. Saving rows of a column writes exactly those rows in the native format: fixed-size numbers little-endian, strings with their
length in front, the ends of arrays and maps before their elements, NULL flags before the values, the dictionary of a low-cardinality
column before the positions. The full claim is for every type; missing are `LowCardinality` inside other types and of optional values
(refuted below), `DateTime64` (refuted below), and maps whose keys are not integers or strings. -/
theorem C76_save_partial (tz : Tz) (c : Col) (s e : Nat) (h : Savable tz c s e) (hf : Flat c.sqlType) (hk : KeysHash c.sqlType)
    (hg : Flagged c) : ∃ b vs, c.save s e = .ok b ∧ vs.length = e - s ∧ RowsAre c s vs ∧ Stream tz c.sqlType vs b :=
  save_stream h hf hk hg

/-- Rows 1 and 2 of a column of optional arrays. -/
example : ∃ b vs, (Col.array [0, 2, 3] (.nullable [0, 1, 0] (.num .i16 [7, 0, 65535]))).save 1 3 = .ok b ∧ vs.length = 2 ∧
    RowsAre (Col.array [0, 2, 3] (.nullable [0, 1, 0] (.num .i16 [7, 0, 65535]))) 1 vs ∧
    Stream [] (.array (.nullable (.num .i16))) vs b := by
  apply C76_save_partial [] (Col.array [0, 2, 3] (.nullable [0, 1, 0] (.num .i16 [7, 0, 65535]))) 1 3
  · refine ⟨by decide, by decide, by decide, by decide, by decide, by decide, by decide, by decide, ?_⟩
    show ∀ x ∈ [7, 0, 65535], x < 256 ^ 2
    decide
  · exact trivial
  · exact trivial
  · exact ⟨by decide, trivial⟩

/-- A low-cardinality column of strings. -/
example : ∃ b vs, (Col.lowCard .u8 [0, 1, 0] (.str [[97], [98, 99]]) none).save 0 3 = .ok b ∧ vs.length = 3 ∧
    RowsAre (Col.lowCard .u8 [0, 1, 0] (.str [[97], [98, 99]]) none) 0 vs ∧ Stream [] (.lowCard .string) vs b := by
  apply C76_save_partial [] (Col.lowCard .u8 [0, 1, 0] (.str [[97], [98, 99]]) none) 0 3
  · exact ⟨by decide, by decide, by decide, 2, rfl, by decide, by decide, by decide, by decide, by decide⟩
  · exact ⟨trivial, nofun⟩
  · exact trivial
  · exact trivial

/-- C76. Every column in the native format, of any type below, is read as the rows it holds and nothing of what follows is touched.
The cells are exactly those written; in types with maps they are the same maps (`ReorderedCells`), whose entries may come in another order. Missing are `LowCardinality`
inside other types and of optional values, both refuted below, and maps whose keys are not integers or strings. -/
theorem C76_load_partial (known : Tz → Bool) (tz : Tz) (t : SqlType) (vs : List Value) (b : Bytes) (h : Stream tz t vs b)
    (hf : Flat t) (hk : KeysHash t) (hn : Nameable known t) (hb : b.length < 2 ^ 56) :
    ∃ c vs', (∀ rest, loadData known tz t.name vs.length (b ++ rest) = .ok c rest) ∧ c.sqlType = t ∧ c.len = .ok vs.length ∧
      vs'.length = vs.length ∧ RowsAre c 0 vs' ∧ Stream tz t vs' b ∧ (MapFree t → vs' = vs) ∧
      ReorderedCells vs vs' := by
  obtain ⟨c, vs', h1, h2⟩ := load_stream h hf hk hb
  exact ⟨c, vs', fun rest => by rw [loadData, resolve_name tz hn]; exact h1 rest, h2⟩

/-- One row holding two strings. -/
theorem exNative {tz : Tz} : Stream tz (.array .string) [.array .string [.str [97], .str [98, 99]]]
    ([2, 0, 0, 0, 0, 0, 0, 0] ++ [1, 97, 2, 98, 99]) :=
  .some (p := []) (by simp) (.array (.scalar trivial)) (.array (parts := [[.str [97], .str [98, 99]]])
    (.cons (b := [2, 0, 0, 0, 0, 0, 0, 0]) (bs := []) ⟨rfl, rfl⟩ .nil)
    (.plain trivial (.cons (b := [1, 97]) (bs := [2, 98, 99]) ⟨[1], .last rfl (by decide), rfl⟩
      (.cons (b := [2, 98, 99]) (bs := []) ⟨[2], .last rfl (by decide), rfl⟩ .nil))))

example : ∃ c, (∀ rest, loadData (fun _ => true) [] (SqlType.name (.array .string)) 1
    ([2, 0, 0, 0, 0, 0, 0, 0] ++ [1, 97, 2, 98, 99] ++ rest) = .ok c rest) ∧ c.at 0 = .ok (.array .string [.str [97], .str [98, 99]]) := by
  obtain ⟨c, vs', h1, -, -, -, h2, -, h3, -⟩ := C76_load_partial (fun _ => true) [] _ _ _ exNative trivial trivial trivial (by decide)
  rw [h3 trivial] at h2
  exact ⟨c, h1, h2 0 _ rfl⟩

theorem mapFree_keys {t : SqlType} : MapFree t → KeysHash t := by
  induction t with
  | nullable t ih | array t ih | simpleAgg f t ih | lowCard t ih => exact ih
  | map k v => exact fun h => h.elim
  | _ => exact fun _ => trivial

/-- C76. The bytes determine the cells: what the theorem above reads is the only possible reading. -/
theorem C76_determined (tz : Tz) (t : SqlType) (vs vs' : List Value) (b : Bytes) (h : Stream tz t vs b) (h' : Stream tz t vs' b)
    (hl : vs.length = vs'.length) (hf : Flat t) (hm : MapFree t) (hb : b.length < 2 ^ 56) : vs = vs' := by
  obtain ⟨c, ws, h1, -, -, -, h2, -, h3, -⟩ := load_stream h hf (mapFree_keys hm) hb
  obtain ⟨c', ws', h1', -, -, -, h2', -, h3', -⟩ := load_stream h' hf (mapFree_keys hm) hb
  rw [h3 hm] at h2
  rw [h3' hm] at h2'
  have e := h1 []
  rw [hl, h1' []] at e
  cases e
  apply List.ext_getElem?
  intro i
  by_cases hi : i < vs.length
  · have e1 := h2 i _ (List.getElem?_eq_getElem hi)
    have e2 := h2' i _ (List.getElem?_eq_getElem (by omega))
    rw [e1] at e2
    injection e2 with e2
    rw [List.getElem?_eq_getElem hi, List.getElem?_eq_getElem (by omega), e2]
  · rw [List.getElem?_eq_none (by omega), List.getElem?_eq_none (by omega)]

example (vs' : List Value) (h : Stream [] (.array .string) vs' ([2, 0, 0, 0, 0, 0, 0, 0] ++ [1, 97, 2, 98, 99])) (hl : 1 = vs'.length) :
    [Value.array .string [.str [97], .str [98, 99]]] = vs' :=
  C76_determined [] _ _ _ _ exNative h hl trivial trivial (by decide)

/-- C76. The bytes determine the cells also where there are maps, but for the order of the entries of a map. -/
theorem C76_determined_maps (tz : Tz) (t : SqlType) (vs vs' : List Value) (b : Bytes) (h : Stream tz t vs b) (h' : Stream tz t vs' b)
    (hl : vs.length = vs'.length) (hf : Flat t) (hk : KeysHash t) (hb : b.length < 2 ^ 56) : ReorderedCells vs vs' := by
  obtain ⟨c, ws, h1, -, -, h4, h2, -, -, h3⟩ := load_stream h hf hk hb
  obtain ⟨c', ws', h1', -, -, h4', h2', -, -, h3'⟩ := load_stream h' hf hk hb
  have e := h1 []
  rw [hl, h1' []] at e
  cases e
  have : ws = ws' := by
    apply List.ext_getElem?
    intro i
    by_cases hi : i < ws.length
    · have e1 := h2 i _ (List.getElem?_eq_getElem hi)
      have e2 := h2' i _ (List.getElem?_eq_getElem (by omega))
      rw [e1] at e2
      injection e2 with e2
      rw [List.getElem?_eq_getElem hi, List.getElem?_eq_getElem (by omega), e2]
    · rw [List.getElem?_eq_none (by omega), List.getElem?_eq_none (by omega)]
  subst this
  exact reorderedCells_trans h3 (reorderedCells_symm h3')

/-- One row holding the map `{1: 'a', 2: 'b'}`. -/
theorem exMapNative {tz : Tz} : Stream tz (.map (.num .u8) .string) [.map (.num .u8) .string [.num .u8 1, .num .u8 2] [.str [97], .str [98]]]
    ([2, 0, 0, 0, 0, 0, 0, 0] ++ [1, 2] ++ [1, 97, 1, 98]) := by
  refine .some (p := []) (by simp) (.map (a := []) (b := []) (.scalar trivial) (.scalar trivial))
    (.map (parts := [[(.num .u8 1, .str [97]), (.num .u8 2, .str [98])]])
    (.cons (b := [2, 0, 0, 0, 0, 0, 0, 0]) (bs := []) ⟨rfl, rfl⟩ .nil)
    (.plain trivial (.cons (b := [1]) (bs := [2]) ⟨rfl, rfl, rfl⟩ (.cons (b := [2]) (bs := []) ⟨rfl, rfl, rfl⟩ .nil)))
    (.plain trivial (.cons (b := [1, 97]) (bs := [1, 98]) ⟨[1], .last rfl (by decide), rfl⟩
      (.cons (b := [1, 98]) (bs := []) ⟨[1], .last rfl (by decide), rfl⟩ .nil))) rfl ?_)
  intro i x p hx hp
  match i, hx, hp with
  | 0, hx, hp =>
    cases hx; cases hp
    refine ⟨_, _, rfl, rfl, by simp, by simp, fun i k x hk hx => ?_⟩
    match i, hk, hx with
    | 0, hk, hx => cases hk; cases hx; exact ⟨[], _, rfl, by simp⟩
    | 1, hk, hx => cases hk; cases hx; exact ⟨[_], _, rfl, by simp⟩

/-- Whatever else those bytes might hold, it is that map. -/
example (v : Value) (h : Stream [] (.map (.num .u8) .string) [v] ([2, 0, 0, 0, 0, 0, 0, 0] ++ [1, 2] ++ [1, 97, 1, 98])) :
    Reordered (.map (.num .u8) .string [.num .u8 1, .num .u8 2] [.str [97], .str [98]]) v :=
  (C76_determined_maps [] _ _ _ _ exMapNative h rfl ⟨trivial, trivial⟩ ⟨by simp, trivial⟩ (by decide)).2 0 _ _ rfl rfl

/-- C76. A block is written as the native format lays a block out: info, number of columns, number of rows, and for each column its
name, its type and its data. -/
theorem C76_block_write_partial (tz : Tz) (rows : Nat) (b : Block) (hr : b.rowCount = .ok rows) (lo : -(2 ^ 31 : Nat) ≤ b.info.bucketNum)
    (hi : b.info.bucketNum < (2 ^ 31 : Nat)) (h : ∀ c ∈ b.columns, c.data.len = .ok rows ∧ Savable tz c.data 0 rows ∧
      Flat c.data.sqlType ∧ KeysHash c.data.sqlType ∧ Flagged c.data) :
    ∃ bytes fs, b.write = .ok bytes ∧ BlockLaid tz b.info rows fs bytes ∧ fs.length = b.columns.length ∧
      ∀ (i : Nat) c f, b.columns[i]? = some c → fs[i]? = some f → HoldsField c f := by
  obtain ⟨bss, fs, h1, h2, h3, h4, h5⟩ := write_fields h
  refine ⟨_, fs, by rw [Block.write, hr]; simp only [obind_ok]; rw [h1]; rfl, ⟨_, _, _, _, rfl, info_put lo hi, ?_, leb_put _, h2, h4⟩, h3, h5⟩
  rw [h3]
  exact leb_put _

/-- A block with a number and a text in each of two rows. -/
example : ∃ bytes fs, Block.write ⟨⟨false, -1⟩, [⟨"n", .num .u32 [1, 2]⟩, ⟨"t", .str [[97], []]⟩]⟩ = .ok bytes ∧
    BlockLaid [] ⟨false, -1⟩ 2 fs bytes ∧ fs.length = 2 ∧
    ∀ (i : Nat) c f, [NCol.mk "n" (.num .u32 [1, 2]), ⟨"t", .str [[97], []]⟩][i]? = some c → fs[i]? = some f → HoldsField c f := by
  apply C76_block_write_partial [] 2 ⟨⟨false, -1⟩, [⟨"n", .num .u32 [1, 2]⟩, ⟨"t", .str [[97], []]⟩]⟩ rfl (by decide) (by decide)
  intro c hc
  simp only [List.mem_cons, List.not_mem_nil, or_false] at hc
  rcases hc with rfl | rfl
  · refine ⟨rfl, ⟨by decide, by decide, ?_⟩, trivial, trivial, trivial⟩
    show ∀ x ∈ [1, 2], x < 256 ^ 4
    decide
  · exact ⟨rfl, ⟨by decide, by decide, by decide⟩, trivial, trivial, trivial⟩

/-- C76. Every block in the native format, with columns of the types above, is read as what it holds: info, names, types, number of
rows and cells. -/
theorem C76_block_load_partial (known : Tz → Bool) (tz : Tz) (info : BlockInfo) (rows : Nat) (fs : List Field) (b : Bytes)
    (h : BlockLaid tz info rows fs b) (hf : ∀ f ∈ fs, Flat f.type ∧ KeysHash f.type ∧ Nameable known f.type) (hr : rows < 2 ^ 64)
    (hb : b.length < 2 ^ 56) :
    ∃ (cs : List NCol) (fs' : List Field), (∀ rest, rawLoad known tz (b ++ rest) = .ok ⟨info, cs⟩ rest) ∧ cs.length = fs.length ∧
      BlockLaid tz info rows fs' b ∧ (∀ c ∈ cs, c.data.len = .ok rows) ∧ fs'.length = fs.length ∧
      ∀ (i : Nat) c f f', cs[i]? = some c → fs[i]? = some f → fs'[i]? = some f' →
        HoldsField c f' ∧ f'.name = f.name ∧ f'.type = f.type ∧ (MapFree f.type → f'.cells = f.cells) ∧
        ReorderedCells f.cells f'.cells := by
  obtain ⟨i, c, r, d, rfl, h1, h2, h3, h4, h5⟩ := h
  simp only [List.length_append] at hb
  obtain ⟨cs, fs', k1, k2, k3, k4, k5, k6, k7⟩ := read_fields (known := known) (rows := rows) h4
    (fun f hf' => ⟨(hf f hf').1, (hf f hf').2.1, (hf f hf').2.2, h5 f hf'⟩) (by omega)
  have hlen : fs.length ≤ d.length := inTurn_length (fun f x hx => by
    obtain ⟨n, t, d, rfl, ⟨l, hl, rfl⟩, -, -⟩ := hx
    have := leb_length hl
    simp only [List.length_append]
    omega) h4
  refine ⟨cs, fs', fun rest => ?_, k1, ⟨i, c, r, d, rfl, h1, by rw [k2]; exact h2, h3, k4, k5⟩, k3, k2, k6⟩
  obtain ⟨rfl, lo, hi⟩ := info_eq h1
  rw [leb_eq h2, leb_eq h3, rawLoad]
  simp only [List.append_assoc]
  rw [bind_ok (readBlockInfo_put _ lo hi _), bind_ok (readUvarint_put (by omega) _), bind_ok (readUvarint_put hr _),
    k7 _ (by simp [Block.new])]
  simp [Block.new]

/-- A block of one column, `s Array(String)`. -/
example : ∃ c : NCol, c.name = "s" ∧ c.data.at 0 = .ok (.array .string [.str [97], .str [98, 99]]) ∧
    ∀ rest, rawLoad (fun _ => true) [] (([1, 0, 2] ++ [255, 255, 255, 255] ++ [0]) ++ [1] ++ [1] ++
      ([1, 115] ++ [13, 65, 114, 114, 97, 121, 40, 83, 116, 114, 105, 110, 103, 41] ++
        ([2, 0, 0, 0, 0, 0, 0, 0] ++ [1, 97, 2, 98, 99]) ++ []) ++ rest) = .ok ⟨⟨false, -1⟩, [c]⟩ rest := by
  obtain ⟨cs, fs', h1, h2, -, -, h4, h3⟩ := C76_block_load_partial (fun _ => true) [] ⟨false, -1⟩ 1
    [⟨"s", .array .string, [.array .string [.str [97], .str [98, 99]]]⟩]
    (([1, 0, 2] ++ [255, 255, 255, 255] ++ [0]) ++ [1] ++ [1] ++
      ([1, 115] ++ [13, 65, 114, 114, 97, 121, 40, 83, 116, 114, 105, 110, 103, 41] ++
        ([2, 0, 0, 0, 0, 0, 0, 0] ++ [1, 97, 2, 98, 99]) ++ []))
    ⟨_, _, _, _, rfl, ⟨[255, 255, 255, 255], ⟨rfl, .inr ⟨by decide, by decide⟩⟩, rfl⟩, .last rfl (by decide), .last rfl (by decide),
      .cons ⟨[1, 115], [13, 65, 114, 114, 97, 121, 40, 83, 116, 114, 105, 110, 103, 41], _, rfl,
        ⟨[1], .last (by decide +kernel) (by decide +kernel), by decide +kernel⟩,
        ⟨[13], .last (by decide +kernel) (by decide +kernel), by decide +kernel⟩, exNative⟩ .nil, by simp⟩
    (by simp only [List.mem_singleton, forall_eq]; exact ⟨trivial, trivial, trivial⟩) (by decide) (by decide)
  match cs, fs', h2, h4 with
  | [c], [f'], _, _ =>
    obtain ⟨⟨k1, k2, k3⟩, k4, k5, k6, -⟩ := h3 0 c _ f' rfl rfl rfl
    rw [k6 trivial] at k3
    exact ⟨c, k1.trans k4, k3 0 _ rfl, h1⟩

/-- One row of an array of low-cardinality strings, with two elements. -/
theorem exArrayLow : Stream [] (.array (.lowCard .string)) [.array (.lowCard .string) [.str [97], .str [98]]]
    ([1, 0, 0, 0, 0, 0, 0, 0] ++ ([2, 0, 0, 0, 0, 0, 0, 0] ++ ([0, 6, 0, 0, 0, 0, 0, 0] ++ [2, 0, 0, 0, 0, 0, 0, 0] ++ [1, 97, 1, 98] ++
      [2, 0, 0, 0, 0, 0, 0, 0] ++ [0, 1]))) := by
  refine .some (by simp) (.array (.low ⟨rfl, rfl⟩)) (.array (parts := [[.str [97], .str [98]]])
      (.cons (b := [2, 0, 0, 0, 0, 0, 0, 0]) (bs := []) ⟨rfl, rfl⟩ .nil)
      (.low (ws := [.str [97], .str [98]]) (js := [0, 1]) nofun (by simp) .one ⟨rfl, rfl⟩ ⟨rfl, rfl⟩
        (.plain trivial (.cons (b := [1, 97]) (bs := [1, 98]) ⟨[1], .last rfl (by decide), rfl⟩
          (.cons (b := [1, 98]) (bs := []) ⟨[1], .last rfl (by decide), rfl⟩ .nil)))
        ⟨rfl, rfl⟩ (.cons (b := [0]) (bs := [1]) ⟨rfl, rfl⟩ (.cons (b := [1]) (bs := []) ⟨rfl, rfl⟩ .nil)) rfl ?_))
  intro i j hj
  match i, hj with
  | 0, hj => cases hj; exact ⟨by decide, rfl⟩
  | 1, hj => cases hj; exact ⟨by decide, rfl⟩

/-- C76, where the code differs: the version word of an array of low-cardinality values stands before the ends of the rows; the code
expects it after them, and refuses a row of two strings. -/
theorem C76_array_low_violated (known : Tz → Bool) : ∃ vs b, Stream [] (.array (.lowCard .string)) vs b ∧
    ∃ e r, loadData known [] (SqlType.name (.array (.lowCard .string))) vs.length b = .err e r := by
  refine ⟨_, _, exArrayLow, .other "Invalid low cardinality version", ?_, ?_⟩
  rotate_left
  · rw [loadData, resolve_name [] (t := .array (.lowCard .string)) trivial]
    rfl

theorem prefix_array_low {t : SqlType} {p : Bytes} (h : Prefix (.array (.lowCard t)) p) : Word 8 1 p := by
  cases h with
  | scalar h => exact h.elim
  | array h => cases h with
    | scalar h => exact h.elim
    | low h => exact h

/-- C76, where the code differs: what the code writes for the same array is not in the native format. -/
theorem C76_array_low_save_violated : ∃ c b, Savable [] c 0 1 ∧ c.sqlType = .array (.lowCard .string) ∧ c.save 0 1 = .ok b ∧
    ∀ vs, vs.length = 1 → ¬ Stream [] c.sqlType vs b := by
  refine ⟨.array [2] (.lowCard .u8 [0, 1] (.str [[97], [98]]) none), _, ?_, rfl, rfl, ?_⟩
  · exact ⟨by decide, by decide, by decide, by decide, by decide, by decide, by decide, by decide, 2, rfl, by decide, by decide, by decide,
      by decide, by decide⟩
  · intro vs hl h
    generalize hb : (numsBytes 8 [2] ++ _ : Bytes) = x at h
    cases h with
    | none => simp at hl
    | some _ hp _ =>
      obtain ⟨h1, h2⟩ := prefix_array_low hp
      rw [← (List.append_inj hb (by rw [h1]; rfl)).1] at h2
      exact absurd h2 (by decide)

/-- Two rows of low-cardinality optional strings of two bytes, the first a value and the second NULL. -/
theorem exLowNull : Stream [] (.lowCard (.nullable (.fixedString 2))) [.some (.str [97, 98]), .null (.fixedString 2)]
    ([1, 0, 0, 0, 0, 0, 0, 0] ++ ([0, 6, 0, 0, 0, 0, 0, 0] ++ [2, 0, 0, 0, 0, 0, 0, 0] ++ [0, 0, 97, 98] ++
      [2, 0, 0, 0, 0, 0, 0, 0] ++ [1, 0])) := by
  refine .some (by simp) (.low ⟨rfl, rfl⟩)
      (.lowNull (ws := [.str [0, 0], .str [97, 98]]) (js := [1, 0]) (by simp) .one ⟨rfl, rfl⟩ ⟨rfl, rfl⟩
        (.plain (show 0 < 2 by decide) (.cons (b := [0, 0]) (bs := [97, 98]) ⟨rfl, rfl⟩ (.cons (b := [97, 98]) (bs := []) ⟨rfl, rfl⟩ .nil)))
        ⟨rfl, rfl⟩ (.cons (b := [1]) (bs := [0]) ⟨rfl, rfl⟩ (.cons (b := [0]) (bs := []) ⟨rfl, rfl⟩ .nil)) rfl ?_)
  intro i j hj
  match i, hj with
  | 0, hj => cases hj; exact ⟨by decide, .inr ⟨by decide, rfl⟩⟩
  | 1, hj => cases hj; exact ⟨by decide, .inl ⟨rfl, rfl⟩⟩

/-- C76, where the code differs: the dictionary of a low-cardinality column of optional values holds plain values; the code expects
NULL flags in front of them, and waits for bytes that do not come. -/
theorem C76_low_null_violated (known : Tz → Bool) : ∃ vs b, Stream [] (.lowCard (.nullable (.fixedString 2))) vs b ∧
    loadData known [] (SqlType.name (.lowCard (.nullable (.fixedString 2)))) vs.length b = .more := by
  refine ⟨_, _, exLowNull, ?_⟩
  rw [loadData, resolve_name [] (t := .lowCard (.nullable (.fixedString 2))) ⟨show 2 < 2 ^ 64 by decide, nofun⟩]
  rfl

theorem fixed_one {ws : List Value} {d : Bytes} (h : Body [] (.fixedString 2) ws d) (hl : ws.length = 1) : d.length = 2 := by
  cases h with
  | plain _ h =>
    cases h with
    | nil => simp at hl
    | @cons v vs b bs hv ht =>
      cases ht with
      | cons => simp at hl
      | nil =>
        cases v <;> simp only [CellLaid] at hv
        rw [List.append_nil, hv.2, hv.1]

/-- C76, where the code differs: what the code writes for a low-cardinality column of optional values is not in the native format. -/
theorem C76_low_null_save_violated : ∃ c b, Savable [] c 0 1 ∧ c.sqlType = .lowCard (.nullable (.fixedString 2)) ∧ c.save 0 1 = .ok b ∧
    ∀ vs, vs.length = 1 → ¬ Stream [] c.sqlType vs b := by
  refine ⟨.lowCard .u8 [0] (.nullable [0] (.fixed 2 [97, 98])) none,
    putLE 8 1 ++ (putLE 8 1536 ++ (putLE 8 1 ++ [0, 97, 98, 1, 0, 0, 0, 0, 0, 0, 0, 0])), ?_, rfl, rfl, ?_⟩
  · exact ⟨by decide, by decide, by decide, 1, rfl, by decide, by decide, by decide, by decide, by decide, by decide⟩
  · intro vs hl h
    generalize hx : (putLE 8 1 ++ _ : Bytes) = x at h
    cases h with
    | none => simp at hl
    | some hne hp hb =>
      cases hp with
      | scalar h => exact h.elim
      | low hver =>
      cases hb with
      | plain h => exact h.elim
      | lowEmpty => simp at hl
      | low hnn => exact absurd rfl (hnn _)
      | @lowNull t vs ws js code size fl n d m ix _ hps hfl hn hd hm hix hjl hrow =>
        have hx := (List.append_inj hx (by rw [hver.1]; rfl)).2
        simp only [List.append_assoc] at hx
        obtain ⟨e1, hx⟩ := List.append_inj hx (by rw [hfl.1]; rfl)
        obtain ⟨e2, hx⟩ := List.append_inj hx (by rw [hn.1]; rfl)
        have hlen := congrArg List.length hx
        simp only [List.length_append, hm.1, List.length_cons, List.length_nil] at hlen
        have e1 := hfl.2.symm.trans (congrArg base256 e1.symm)
        have e2 := hn.2.symm.trans (congrArg base256 e2.symm)
        rw [show base256 (putLE 8 1536) = 1536 by decide] at e1
        rw [show base256 (putLE 8 1) = 1 by decide] at e2
        have hd := fixed_one hd e2
        obtain ⟨hix, -⟩ := words_eq hix
        have hl2 := congrArg List.length hix
        rw [numsBytes_length, hjl, hl, Nat.one_mul] at hl2
        cases hps <;> omega

/-- C76, where the code differs: a column of `DateTime64` received in the native format is read, but cannot be written. -/
theorem C76_dt64_violated : ∃ vs b c, Stream [] (.dt64 3 "UTC".toList) vs b ∧
    loadData (fun _ => true) [] (SqlType.name (.dt64 3 "UTC".toList)) vs.length b = .ok c [] ∧ RowsAre c 0 vs ∧ c.save 0 vs.length = .panic := by
  have h : Stream [] (.dt64 3 "UTC".toList) [.dt64 (-2) 3 "UTC".toList] ([] ++ [254, 255, 255, 255, 255, 255, 255, 255]) :=
    .some (by simp) (.scalar trivial) (.plain trivial (.cons (b := [254, 255, 255, 255, 255, 255, 255, 255]) (bs := [])
      ⟨rfl, rfl, rfl, .inr ⟨by decide, by decide⟩⟩ .nil))
  obtain ⟨c, vs', h1, h2, -, -, h3, -, h4, -⟩ := load_stream h trivial trivial (by decide)
  rw [h4 trivial] at h3
  refine ⟨_, _, c, h, ?_, h3, ?_⟩
  · rw [loadData, resolve_name [] (t := .dt64 3 "UTC".toList) ⟨by decide, rfl, by unfold plainText; decide⟩]
    simpa using h1 []
  have e := h1 []
  rw [planOf, Plan.load] at e
  cases e
  rfl

end CH.Props
