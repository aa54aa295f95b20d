import Verif.Lemmas.Block
import Verif.Lemmas.Chunk

/-! Properties C06, C10, C16, C19: blocks. -/

namespace CH.Props
open CH CH.Spec

/-- C06. The block header written by the client is read back unchanged, for both flags and every 32-bit bucket number. -/
theorem C06_block_info_roundtrip (i : BlockInfo) (h1 : -(2 ^ 31 : Nat) ≤ i.bucketNum) (h2 : i.bucketNum < (2 ^ 31 : Nat))
    (rest : Bytes) : readBlockInfo (putBlockInfo i ++ rest) = .ok i rest :=
  readBlockInfo_put i h1 h2 rest

example : putBlockInfo ⟨true, 3⟩ = [1, 1, 2, 3, 0, 0, 0, 0] := by simp [putBlockInfo, putUvarint, putBool, putLE, ofSigned]

/-- A header field the server may send. -/
inductive InfoField where
  | overflows (b : Bool)
  | bucket (n : Int)

/-- Wire form of a field. -/
def InfoField.enc : InfoField → Bytes
  | .overflows b => putUvarint 1 ++ putBool b
  | .bucket n => putUvarint 2 ++ putLE 4 (ofSigned 4 n)

/-- Bucket numbers have 32 bits. -/
def InfoField.ok : InfoField → Prop
  | .overflows _ => True
  | .bucket n => -(2 ^ 31 : Nat) ≤ n ∧ n < (2 ^ 31 : Nat)

/-- The last occurrence of a field counts. -/
def InfoField.apply (i : BlockInfo) : InfoField → BlockInfo
  | .overflows b => { i with isOverflows := b }
  | .bucket n => { i with bucketNum := n }

theorem readInfo_fields (fs : List InfoField) (h : ∀ f ∈ fs, f.ok) (i : BlockInfo) (tail : Bytes) :
    Reader.loop readBlockInfoStep i (fs.flatMap InfoField.enc ++ tail) =
      Reader.loop readBlockInfoStep (fs.foldl InfoField.apply i) tail := by
  induction fs generalizing i with
  | nil => rfl
  | cons f fs ih =>
    rw [List.flatMap_cons, List.append_assoc]
    cases f with
    | overflows b =>
      rw [InfoField.enc, loop_inl (readInfoStep_flag i b _) (by have := readUvarint_put_len 1; simp; omega),
        ih (fun f hf => h f (by simp [hf]))]
      rfl
    | bucket n =>
      have hn := h (.bucket n) (by simp)
      rw [InfoField.enc, loop_inl (readInfoStep_bucket i _ (ofSigned_lt 4 _) _) (by have := readUvarint_put_len 2; simp; omega),
        ih (fun f hf => h f (by simp [hf])), toSigned_ofSigned (by decide) hn.1 hn.2]
      rfl

/-- C06. Any sequence of known fields ended by the end mark is understood; a field with any other number, after any known
fields, is an error carrying that number. -/
theorem C06_block_info_fields (fs : List InfoField) (h : ∀ f ∈ fs, f.ok) (rest : Bytes) :
    readBlockInfo (fs.flatMap InfoField.enc ++ (putUvarint 0 ++ rest)) = .ok (fs.foldl InfoField.apply BlockInfo.default) rest ∧
    ∀ k, 2 < k → k < 2 ^ 64 →
      readBlockInfo (fs.flatMap InfoField.enc ++ (putUvarint k ++ rest)) = .err (.unknownPacket k) rest := by
  refine ⟨?_, fun k h2 h64 => ?_⟩
  · rw [readBlockInfo, readInfo_fields fs h, loop_inr (readInfoStep_end _ _)]
  · rw [readBlockInfo, readInfo_fields fs h, loop_err (readInfoStep_unknown _ k h64 h2 _)]

example : ∀ f ∈ [InfoField.bucket (-7), .overflows true, .bucket 5], f.ok := by simp [InfoField.ok]

/-- C10. A block written by the client and read back has the same header, column names, types, order, row count and values, and
the bytes after the block are untouched. (`_partial`: columns must be writable and their type names readable, see C09 and
C14.) -/
theorem C10_block_roundtrip_partial (known : Tz → Bool) (tz : Tz) (n : Nat) (b : Block) (h : BlockOK known tz n b) :
    ∃ bytes, b.write = .ok bytes ∧ ∀ rest, ∃ b', rawLoad known tz (bytes ++ rest) = .ok b' rest ∧
      b'.info = b.info ∧ header b' = header b ∧ b'.rowCount = .ok n ∧ Rect b' n ∧ ∀ i, i < n → rowOf b' i = rowOf b i := by
  obtain ⟨bytes, h1, h2⟩ := rawLoad_write h
  refine ⟨bytes, h1, fun rest => ⟨_, h2 rest, rfl, ?_, ?_, ?_, fun i hi => ?_⟩⟩
  · simp only [header, List.map_map]
    refine List.map_congr_left fun c hc => ?_
    simp only [Function.comp, NCol.arrived, sub_sqlType (h.cols c hc).data]
  · have hr := h.rows
    rw [Block.rowCount] at hr ⊢
    cases hc : b.columns with
    | nil => rw [hc] at hr; simpa using hr
    | cons c cs => exact sub_len (h.cols c (by simp [hc])).data
  · intro c hc
    simp only [List.mem_map] at hc
    obtain ⟨d, hd, rfl⟩ := hc
    exact sub_len (h.cols d hd).data
  · simp only [rowOf, List.map_map]
    refine List.map_congr_left fun c hc => ?_
    simp only [Function.comp, NCol.arrived]
    rw [sub_at (h.cols c hc).data (by omega), Nat.zero_add]

/-- Two columns, three rows. -/
def sampleBlock : Block := ⟨⟨false, -1⟩, [⟨"id", .num .u32 [1, 2, 3]⟩, ⟨"tags", .array [1, 1, 3] (.str [[97], [98], [99]])⟩]⟩

theorem sampleBlock_ok (known : Tz → Bool) : BlockOK known "UTC".toList 3 sampleBlock where
  rows := rfl
  rows64 := by decide
  cols64 := by decide
  lo := by decide
  hi := by decide
  cols := by
    intro c hc
    simp only [sampleBlock, List.mem_cons, List.not_mem_nil, or_false] at hc
    rcases hc with rfl | rfl
    · exact ⟨by decide, by decide, by simp [Nameable, Col.sqlType], rfl, ⟨by decide, by decide, by decide⟩, by simp [InMemory]⟩
    · exact ⟨by decide, by decide, by simp [Nameable, Col.sqlType], rfl, ⟨by decide, by decide, by decide, by decide, rfl, by decide,
        by decide, by decide⟩, by simp [InMemory]⟩

/-- C16. Cutting a rectangular block with at least one row into chunks of `n > 0` rows ends, and gives a unique list of blocks
which all have the columns of the block, at most `n` rows and at least one, exactly `n` except the last, and whose rows in
order are exactly the rows of the block. (`_partial`: for a block without rows see `C16_no_rows_violated`.) -/
theorem C16_chunks_partial (b : Block) (m n : Nat) (hn : 0 < n) (hm : 0 < m) (hr : Rect b m) (hrc : b.rowCount = .ok m) :
    ∃ bs, (∀ bs', Yields (b.chunks n) bs' ↔ bs' = bs) ∧
      (∀ c ∈ bs, header c = header b ∧ ∃ r, c.rowCount = .ok r ∧ 0 < r ∧ r ≤ n) ∧
      (∀ c ∈ bs.dropLast, c.rowCount = .ok n) ∧ bs.flatMap rowsOf = rowsOf b := by
  have hne : b.columns ≠ [] := by
    intro h; rw [Block.rowCount, h] at hrc; simp at hrc; omega
  obtain ⟨bs, h1, _, h3, h4, h5⟩ := chunks_from hn hm hr hne m 0 (by omega) (by omega)
  refine ⟨bs, fun bs' => ⟨fun h => Yields.unique h h1, fun h => h ▸ h1⟩, h3, h4, ?_⟩
  rw [h5, rowsOf, hrc]
  simp [List.range_eq_range']

example : Rect sampleBlock 3 ∧ sampleBlock.rowCount = .ok 3 :=
  ⟨by intro c hc; simp only [sampleBlock, List.mem_cons, List.not_mem_nil, or_false] at hc; rcases hc with rfl | rfl <;> rfl, rfl⟩

/-- C16. A block without columns gives one empty block. -/
theorem C16_empty_block (i : BlockInfo) (n : Nat) (bs : List Block) : Yields (Block.chunks ⟨i, []⟩ n) bs ↔ bs = [Block.new] := by
  have h : Yields (Block.chunks ⟨i, []⟩ n) [Block.new] := .more (it' := ⟨1, n, ⟨i, []⟩⟩) rfl (.done rfl)
  exact ⟨fun h' => Yields.unique h' h, fun h' => h' ▸ h⟩

/-- C16 fails for a block that has columns but no rows: its only chunk has lost the columns. -/
theorem C16_no_rows_violated (n : Nat) :
    ∃ (b : Block) (c : Block), b.rowCount = .ok 0 ∧ Rect b 0 ∧ Yields (b.chunks n) [c] ∧ header b ≠ header c := by
  refine ⟨⟨BlockInfo.default, [⟨"id", .num .u32 []⟩]⟩, Block.new, rfl, ?_, .more (it' := ⟨1, n, _⟩) rfl (.done rfl), ?_⟩
  · intro c hc; simp only [List.mem_singleton] at hc; subst hc; rfl
  · simp [header, Block.new]

/-- A chunk size of zero (never used by the client, which uses 1048576) would not end. -/
theorem C16_zero_size_violated (b : Block) (m : Nat) (hm : 0 < m) (hr : Rect b m) (hrc : b.rowCount = .ok m) (bs : List Block) :
    ¬ Yields (b.chunks 0) bs := by
  intro h
  have hne : b.columns ≠ [] := by
    intro h; rw [Block.rowCount, h] at hrc; simp at hrc; omega
  have hnext : (ChunkIter.mk 0 0 b).next = .ok (some (cut b 0 0, ⟨0, 0, b⟩)) := by
    rw [ChunkIter.next]; simp only [hrc, obind_ok]
    rw [if_neg (by omega), if_neg (by omega), appendAll_ok (k := 0)]
    · simp [cut, Block.new]
    · intro c hc
      simp only [List.mem_map] at hc
      obtain ⟨d, _, rfl⟩ := hc
      simp [NCol.slice, Col.len]
    · simp [Block.new]
  generalize hit : b.chunks 0 = it at h
  induction h with
  | done h1 => subst hit; rw [Block.chunks, hnext] at h1; simp at h1
  | more h1 _ ih =>
    subst hit; rw [Block.chunks, hnext] at h1; simp at h1; exact ih (by rw [← h1.2]; rfl)

/-- The columns at position `j` of the blocks agree in type. -/
def SameTypes (bs : List Block) : Prop := ∀ b ∈ bs, ∀ c ∈ bs, b.columns.map (·.data.sqlType) = c.columns.map (·.data.sqlType)

theorem rangeOut_ok {f : Nat → Out β} {g : Nat → β} {n : Nat} (h : ∀ i, i < n → f i = .ok (g i)) :
    rangeOut f 0 n = .ok ((List.range n).map g) := by
  rw [rangeOut, Nat.sub_zero, List.range_eq_range']
  have : ∀ l : List Nat, (∀ i ∈ l, i < n) → mapOut f l = .ok (l.map g) := by
    intro l
    induction l with
    | nil => intro _; rfl
    | cons i l ih => intro hl; rw [mapOut, h i (hl i (by simp)), obind_ok, ih fun j hj => hl j (by simp [hj])]; rfl
  exact this _ (by simp [List.mem_range'])

/-- The block with number `k` of a list of blocks contributes the rows from here on. -/
def rowsBefore (ms : List Nat) (k : Nat) : Nat := (ms.take k).sum

/-- C19. Concatenating result blocks `bs` (not empty, rectangular with `ms` rows, same column types): succeeds, has the columns of
the first block, as many rows as all together, and row `r` of block `k` is row `rowsBefore ms k + r` of the result, blocks
without rows included. -/
theorem C19_concat (bs : List Block) (ms : List Nat) (b0 : Block) (h0 : bs.head? = some b0) (hl : bs.length = ms.length)
    (hr : ∀ k (h : k < bs.length), Rect bs[k] ms[k]) (ht : SameTypes bs) :
    ∃ cb, concatBlocks bs = .ok cb ∧ cb.info = b0.info ∧ cb.columns.map Prod.fst = b0.columns.map NCol.name ∧
      (∀ c ∈ cb.columns, c.2.len = .ok ms.sum) ∧
      ∀ k (hk : k < bs.length) r, r < ms[k] →
        cb.columns.map (fun c => c.2.at (rowsBefore ms k + r)) = rowOf bs[k] r := by
  have hb0 : b0 ∈ bs := List.mem_of_head? h0
  have hlen : ∀ b ∈ bs, b.columns.length = b0.columns.length := by
    intro b hb; have := ht b hb b0 hb0; simpa using congrArg List.length this
  -- the concatenated column `j`
  let colsAt : Nat → List NCol := fun j => bs.filterMap fun b => b.columns[j]?
  have hmap : ∀ j, j < b0.columns.length → ∀ l : List Block, (∀ b ∈ l, b ∈ bs) →
      mapOut (fun (b : Block) => idx b.columns j) l = .ok (l.filterMap fun b => b.columns[j]?) := by
    intro j hj l
    induction l with
    | nil => intro _; rfl
    | cons b l ih =>
      intro hmem
      have hjb : j < b.columns.length := by rw [hlen b (hmem b (by simp))]; exact hj
      rw [mapOut, idx_ok hjb, obind_ok, ih fun c hc => hmem c (by simp [hc])]
      simp [List.getElem?_eq_getElem hjb]
  have hget : ∀ j, j < b0.columns.length → ∀ l : List Block, (∀ b ∈ l, b ∈ bs) →
      (l.filterMap fun b => b.columns[j]?).length = l.length ∧ ∀ k (h : k < l.length) (hj : j < l[k].columns.length),
        (l.filterMap fun b => b.columns[j]?)[k]? = some l[k].columns[j] := by
    intro j hj l
    induction l with
    | nil => intro _; simp
    | cons b l ih =>
      intro hmem
      have hjb : j < b.columns.length := by rw [hlen b (hmem b (by simp))]; exact hj
      obtain ⟨i1, i2⟩ := ih fun c hc => hmem c (by simp [hc])
      rw [List.filterMap_cons, List.getElem?_eq_getElem hjb]
      refine ⟨by simp [i1], ?_⟩
      intro k hk hjk
      cases k with
      | zero => simp
      | succ k => simpa using i2 k (by simpa using hk) hjk
  have hcol : ∀ j (hj : j < b0.columns.length), concatColumn bs j =
      .ok (b0.columns[j].name, ⟨(colsAt j).map NCol.data, buildIndex ms⟩) := by
    intro j hj
    obtain ⟨g1, g2⟩ := hget j hj bs (fun _ h => h)
    have hne : 0 < bs.length := List.length_pos_of_mem hb0
    rw [concatColumn, hmap j hj bs (fun _ h => h), obind_ok]
    have hcat : concatCols ((colsAt j).map NCol.data) = .ok ⟨(colsAt j).map NCol.data, buildIndex ms⟩ := by
      refine concatCols_ok (t := b0.columns[j].data.sqlType) ?_ ?_ ?_
      · intro h
        have := congrArg List.length h
        simp only [List.length_map, List.length_nil, colsAt, g1] at this; omega
      · intro c hc
        simp only [colsAt, List.mem_map, List.mem_filterMap] at hc
        obtain ⟨d, ⟨b, hb, hbd⟩, rfl⟩ := hc
        have h2 := congrArg (fun l => l[j]?) (ht b hb b0 hb0)
        simp only [List.getElem?_map, hbd, List.getElem?_eq_getElem hj, Option.map_some, Option.some.injEq] at h2
        exact h2
      · refine List.ext_getElem (by simp [colsAt, g1, hl]) fun k hk1 hk2 => ?_
        simp only [List.length_map, colsAt, g1] at hk1
        have hjb : j < bs[k].columns.length := by rw [hlen _ (List.getElem_mem hk1)]; exact hj
        have h2 := g2 k hk1 hjb
        have h3 := hr k hk1 bs[k].columns[j] (List.getElem_mem hjb)
        simp only [List.getElem_map, colsAt]
        rw [List.getElem?_eq_getElem (by rw [g1]; exact hk1), Option.some.injEq] at h2
        rw [h2, h3]
    have hfirst : (colsAt j)[0]? = some b0.columns[j] := by
      have hb : bs[0] = b0 := by
        rw [List.head?_eq_getElem?, List.getElem?_eq_getElem hne, Option.some.injEq] at h0; exact h0
      have := g2 0 hne (by rw [hb]; exact hj)
      rw [this]
      simp only [hb]
    change (match colsAt j with | [] => Out.panic | c :: _ => _) = _
    cases hca : colsAt j with
    | nil => rw [hca] at hfirst; simp at hfirst
    | cons c cs =>
      rw [hca] at hfirst hcat
      simp only [List.getElem?_cons_zero, Option.some.injEq] at hfirst
      have hca' : (bs.filterMap fun b => b.columns[j]?) = c :: cs := hca
      subst hfirst
      simp only [hca', hcat]; rfl
  cases bs with
  | nil => simp at h0
  | cons b bs =>
    simp only [List.head?_cons, Option.some.injEq] at h0
    subst h0
    refine ⟨⟨b.info, (List.range b.columns.length).map fun j =>
      ((b.columns[j]?.map NCol.name).getD "", ⟨(colsAt j).map NCol.data, buildIndex ms⟩)⟩, ?_, rfl, ?_, ?_, ?_⟩
    · rw [concatBlocks, if_pos]
      · rw [rangeOut_ok (g := fun j => ((b.columns[j]?.map NCol.name).getD "", ⟨(colsAt j).map NCol.data, buildIndex ms⟩))]
        · rfl
        · intro j hj; rw [hcol j hj, List.getElem?_eq_getElem hj]; rfl
      · rw [List.all_eq_true]; intro d hd; simp [hlen d hd]
    · refine List.ext_getElem (by simp) fun j h1 h2 => ?_
      have hj : j < b.columns.length := by simpa using h2
      simp [List.getElem?_eq_getElem hj]
    · intro c hc
      simp only [List.mem_map] at hc
      obtain ⟨j, _, rfl⟩ := hc
      exact concat_len
    · intro k hk r hrk
      refine List.ext_getElem (by simp [rowOf, hlen _ (List.getElem_mem hk)]) fun j h1 h2 => ?_
      have hj : j < b.columns.length := by simpa using h1
      have hjb : j < (b :: bs)[k].columns.length := by rw [hlen _ (List.getElem_mem hk)]; exact hj
      obtain ⟨g1, g2⟩ := hget j hj (b :: bs) (fun _ h => h)
      have hlens : ((colsAt j).map NCol.data).map Col.len = ms.map Out.ok := by
        refine List.ext_getElem (by simp [colsAt, g1, hl]) fun k hk1 hk2 => ?_
        simp only [List.length_map, colsAt, g1] at hk1
        have hjb : j < (b :: bs)[k].columns.length := by rw [hlen _ (List.getElem_mem hk1)]; exact hj
        have h2 := g2 k hk1 hjb
        have h3 := hr k hk1 (b :: bs)[k].columns[j] (List.getElem_mem hjb)
        simp only [List.getElem_map, colsAt]
        rw [List.getElem?_eq_getElem (by rw [g1]; exact hk1), Option.some.injEq] at h2
        rw [h2, h3]
      have hk' : k < ((colsAt j).map NCol.data).length := by simp only [List.length_map, colsAt, g1]; exact hk
      simp only [List.getElem_map, List.getElem_range, rowOf, rowsBefore]
      rw [concat_at hlens k r (by omega) hk' hrk]
      have h2 := g2 k hk hjb
      rw [List.getElem?_eq_getElem (by rw [g1]; exact hk), Option.some.injEq] at h2
      simp only [List.getElem_map, colsAt]
      rw [h2]

example : SameTypes [⟨BlockInfo.default, [⟨"a", .num .u8 [1]⟩]⟩, ⟨BlockInfo.default, [⟨"a", .num .u8 []⟩]⟩,
    ⟨BlockInfo.default, [⟨"a", .num .u8 [2, 3]⟩]⟩] := by
  intro b hb c hc
  simp only [List.mem_cons, List.not_mem_nil, or_false] at hb hc
  rcases hb with rfl | rfl | rfl <;> rcases hc with rfl | rfl | rfl <;> rfl

/-- C19, another way to say it: the rows of the result are the rows of the blocks one after the other. -/
theorem C19_concat_rows (bs : List Block) (ms : List Nat) (b0 : Block) (h0 : bs.head? = some b0) (hl : bs.length = ms.length)
    (hr : ∀ k (h : k < bs.length), Rect bs[k] ms[k]) (ht : SameTypes bs) :
    ∃ cb, concatBlocks bs = .ok cb ∧
      (List.range ms.sum).map (fun i => cb.columns.map fun c => c.2.at i) =
        (List.zipWith (fun b m => (List.range m).map (rowOf b)) bs ms).flatten := by
  obtain ⟨cb, h1, _, _, _, h5⟩ := C19_concat bs ms b0 h0 hl hr ht
  refine ⟨cb, h1, ?_⟩
  have key : ∀ (l : List Block) (ns : List Nat) (off : Nat) (_hlen : l.length = ns.length),
      (∀ k (hk : k < l.length) r, r < ns[k]'(by omega) → (fun i => cb.columns.map fun c => c.2.at i) (off + rowsBefore ns k + r) = rowOf l[k] r) →
      (List.range' off ns.sum).map (fun i => cb.columns.map fun c => c.2.at i) =
        (List.zipWith (fun b m => (List.range m).map (rowOf b)) l ns).flatten := by
    intro l
    induction l with
    | nil =>
      intro ns off hlen _
      cases ns with
      | nil => rfl
      | cons => simp at hlen
    | cons b l ih =>
      intro ns off hlen h
      cases ns with
      | nil => simp at hlen
      | cons m ns =>
        rw [List.sum_cons, ← List.range'_append_1, List.map_append, List.zipWith_cons_cons, List.flatten_cons]
        congr 1
        · rw [List.range'_eq_map_range, List.map_map]
          refine List.map_congr_left fun r hr => ?_
          have := h 0 (by simp) r (by simpa using hr)
          simpa [rowsBefore] using this
        · refine ih ns (off + m) (by simpa using hlen) fun k hk r hr => ?_
          have := h (k + 1) (by simpa using hk) r (by simpa using hr)
          simp only [rowsBefore, List.take_succ_cons, List.sum_cons, List.getElem_cons_succ] at this ⊢
          rw [← this]; congr 1; funext c; congr 1; omega
  rw [List.range_eq_range']
  exact key bs ms 0 hl fun k hk r hr => by
    have := h5 k hk r hr
    rw [← this]; simp

example : ∀ k (h : k < ([⟨BlockInfo.default, [⟨"a", .num .u8 [1]⟩]⟩, ⟨BlockInfo.default, [⟨"a", .num .u8 []⟩]⟩,
      ⟨BlockInfo.default, [⟨"a", .num .u8 [2, 3]⟩]⟩] : List Block).length),
    Rect ([⟨BlockInfo.default, [⟨"a", .num .u8 [1]⟩]⟩, ⟨BlockInfo.default, [⟨"a", .num .u8 []⟩]⟩,
      ⟨BlockInfo.default, [⟨"a", .num .u8 [2, 3]⟩]⟩] : List Block)[k] [1, 0, 2][k] := by
  intro k h c hc
  match k, h with
  | 0, _ => simp at hc; subst hc; rfl
  | 1, _ => simp at hc; subst hc; rfl
  | 2, _ => simp at hc; subst hc; rfl

end CH.Props
