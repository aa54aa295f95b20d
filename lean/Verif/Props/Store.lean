import Verif.Lemmas.Store
import Verif.Props.Answer
import Verif.Props.Verdict

/-! Property C78: what one connection inserts is what another one selects. -/

namespace CH.Props

open CH CH.Spec

/-- C78. An INSERT of a block into a table (given by the header block the server answers with): when the server acknowledges the data,
`insert` succeeds; what it has sent is the query, and one message with the data and one with the empty block. The bytes of the data
message carry, plain or compressed, a block in the native format whose cells are the counterparts of the user's. (`_partial`: for blocks
of at most 1048576 rows, which are sent in one piece, see C17 for larger ones; and for the types of `Convertible` and `Flat`.) -/
theorem C78_insert_partial (z : Codec) (parse : IpKind → String → Option Bytes) (hparse : ∀ k s b, parse k s = some b → b.length = k.size)
    (known : Tz → Bool) (tz : Tz) (n : Nat) (h0 : 0 < n) (hn : n ≤ 1048576) (b table b' : Block) (hr : b.rowCount = .ok n)
    (hlen : b.columns.length = table.columns.length)
    (h : ∀ (i : Nat) c t, b.columns[i]? = some c → table.columns[i]? = some t →
      Convertible parse known tz n c.data t.data.sqlType ∧ Flat t.data.sqlType ∧ KeysHash t.data.sqlType ∧ Flagged c.data)
    (hb : b.castTo parse table = .ok b') (c : Conn) (q : Query) (ctx : Context) (rest : List Inc) (hi : c.inconsistent = false)
    (hq : Judged InsertSkips InsertEnds (c.incoming ++ c.server (c.sent ++ [.sendQuery q ctx])) (.finished (.block table) rest)) :
    ∃ data raw fs, BlockLaid tz BlockInfo.default n fs raw ∧ TableHolds parse tz b table n fs ∧
      (∀ p rest', Judged InsertSkips InsertEnds
          (rest ++ c.server (c.sent ++ [.sendQuery q ctx] ++ [.union (.sendData data ctx) (.sendData Block.new ctx)])) (.finished p rest') →
        c.insert (fun x t => x.castTo parse t) q ctx b = .ok { c with
          incoming := rest', sent := c.sent ++ [.sendQuery q ctx] ++ [.union (.sendData data ctx) (.sendData Block.new ctx)] }) ∧
      ∃ empty, BlockLaid tz BlockInfo.default 0 [] empty ∧ ((ctx.options.compression = true → Packs z raw ∧ Packs z empty) →
        ∃ x y, (Cmd.union (.sendData data ctx) (.sendData Block.new ctx)).encode z = .ok ([2, 0] ++ x ++ ([2, 0] ++ y)) ∧
          Carried z ctx.options.compression raw x ∧ Carried z ctx.options.compression empty y) := by
  have hb1 : Block.castTo parse ⟨BlockInfo.default, b.columns⟩ table = .ok ⟨BlockInfo.default, b'.columns⟩ := by
    rw [Block.castTo] at hb ⊢
    rw [if_neg (by omega)] at hb
    rw [if_neg (by show ¬ table.columns.length ≠ b.columns.length; omega)]
    obtain ⟨ds, e, hb⟩ := obind_eq_ok hb
    injection hb with hb
    subst hb
    rw [e]; rfl
  obtain ⟨raw, fs, w1, w2, w3, w4⟩ := C76_insert_partial parse hparse known tz n (by omega) ⟨BlockInfo.default, b.columns⟩ table _
    (by rw [← hr]; rfl) hlen (show -(2 ^ 31 : Nat) ≤ BlockInfo.default.bucketNum by decide)
    (show BlockInfo.default.bucketNum < (2 ^ 31 : Nat) by decide) h hb1
  have hrect : Rect b' n := by
    rw [Block.castTo, if_neg (by omega)] at hb
    obtain ⟨ds, e, hb⟩ := obind_eq_ok hb
    injection hb with hb
    subst hb
    obtain ⟨hdl, hd⟩ := castColumns_ok hlen e
    intro d hd'
    obtain ⟨i, h3, rfl⟩ := List.mem_iff_getElem.mp hd'
    have h1 : i < b.columns.length := by rw [← hdl]; exact h3
    have h2 : i < table.columns.length := by omega
    rcases C34_column_partial parse hparse known tz n (by omega) _ _ (h i _ _ (List.getElem?_eq_getElem h1) (List.getElem?_eq_getElem h2)).1
      with e | ⟨d, e, -, hl, -⟩
    · rw [(hd i h1 h2 h3).2] at e; cases e
    · rw [(hd i h1 h2 h3).2] at e; injection e with e; rw [e]; exact hl
  have hne : b'.columns ≠ [] := by
    rw [Block.castTo, if_neg (by omega)] at hb
    obtain ⟨ds, e, hb⟩ := obind_eq_ok hb
    injection hb with hb
    subst hb
    intro e'
    have := (castColumns_ok hlen e).1
    simp only at e'
    rw [e'] at this
    rw [Block.rowCount, List.length_eq_zero_iff.mp this.symm] at hr
    injection hr with hr
    omega
  have hw : (cut b' 0 n).write = .ok raw := by rw [cut_write hrect hne, w1]
  obtain ⟨e0, fs0, l1, l2, l3, -⟩ := C76_block_write_partial tz 0 Block.new rfl (by decide) (by decide) (by simp [Block.new])
  refine ⟨cut b' 0 n, raw, fs, w2, ⟨w3, fun i c t f h1 h2 h3 => ?_⟩, fun p rest' ha => ?_, e0, ?_, fun hp => ?_⟩
  · obtain ⟨g1, g2, g3⟩ := w4 i c t f h1 h2 h3
    obtain ⟨_, _, _, _, -, -, -, -, -, hc⟩ := w2
    exact ⟨g1, g2, hc f (List.mem_of_getElem? h3), g3⟩
  · have a1 := C71_insert_query c q ctx _ hq
    simp only at a1
    have a2 := C71_insert_block { c with incoming := rest, sent := c.sent ++ [.sendQuery q ctx] } (cut b' 0 n) ctx _ ha
    simp only at a2
    have hc : c.clear = .ok c := by simp [Conn.clear, hi]
    simp only [Conn.insert, hc, a1, hb, one_chunk hrect hne h0 hn, a2, Conn.insertTail]
  · rw [(List.length_eq_zero_iff.mp l3 : fs0 = [])] at l2
    exact l2
  · have hz : ∀ (r : Bytes) (bl : Block), bl.write = .ok r → (ctx.options.compression = true → Packs z r) →
        ∃ body, bl.sendData z ctx.options.compression = .ok ([2, 0] ++ body) ∧ Carried z ctx.options.compression r body := by
      intro r bl hw hp
      cases hc : ctx.options.compression with
      | true =>
        obtain ⟨p1, p2, p3⟩ := hp hc
        exact C77_sent z true bl r hw p1 p2 p3
      | false =>
        refine ⟨r, ?_, rfl⟩
        have e : putUvarint 2 ++ putString "" = [2, 0] := by
          rw [uvarint_two, show putString "" = putUvarint 0 ++ [] from rfl, uvarint_zero]
          rfl
        rw [Block.sendData, Block.writeC, if_neg (by simp), hw]; simp only [obind_ok]; rw [e]; rfl
    obtain ⟨x, x1, x2⟩ := hz raw _ hw fun hc => (hp hc).1
    obtain ⟨y, y1, y2⟩ := hz e0 _ l1 fun hc => (hp hc).2
    refine ⟨x, y, ?_, x2, y2⟩
    rw [Cmd.encode, Cmd.encode, Cmd.encode, x1, y1]
    rfl

/-- One row `['a', 'bc']`, and a table with such a column. -/
def exKept : Block := ⟨BlockInfo.default, [⟨"s", .array [2] (.str [[97], [98, 99]])⟩]⟩

/-- The header of that table. -/
def exKeptTable : Block := ⟨BlockInfo.default, [⟨"s", .array [] (.str [])⟩]⟩

theorem exKept_convertible : Convertible parseSome (fun _ => true) "UTC".toList 1 (.array [2] (.str [[97], [98, 99]])) (.array .string) where
  sound := by simp [Sound, lastOff]
  sized := by simp [Sized]
  small := by simp [InMemory]
  room := by simp [SpaceFor]
  target := .inr rfl
  times := by simp [TimesFit]
  named := by simp [Nameable]
  cells := fun i hi => by
    obtain rfl : i = 0 := by omega
    exact ⟨.array .string [.str [97], .str [98, 99]], .array .string [.str [97], .str [98, 99]], rfl, rfl⟩

theorem exKept_parse (k : IpKind) (s : String) (b : Bytes) (h : parseSome k s = some b) : b.length = k.size := by
  unfold parseSome at h
  split at h <;> cases h <;> rfl

/-- A server that takes the insert. -/
def exTakes : List Cmd → List Inc
  | [.sendQuery _ _] => [.packet (.tableColumns "" ""), .packet (.block exKeptTable)]
  | _ => [.packet .eof]

example (ctx : Context) : ∃ c', (⟨[], exTakes, false, []⟩ : Conn).insert (fun x t => x.castTo parseSome t) sampleQuery ctx exKept = .ok c' := by
  obtain ⟨data, raw, fs, -, -, h, -⟩ := C78_insert_partial sampleEnv.codec parseSome exKept_parse
    (fun _ => true) "UTC".toList 1 (by decide) (by decide) exKept exKeptTable exKept rfl rfl (by
      intro i c t h1 h2
      match i with
      | 0 => cases h1; cases h2; exact ⟨exKept_convertible, trivial, trivial, trivial⟩) rfl ⟨[], exTakes, false, []⟩ sampleQuery ctx []
    rfl (.skip .columns (.finished .block))
  exact ⟨_, h .eof [] (.finished .eof)⟩

/-- C78. A table that holds the block's rows (as after `C78_insert_partial`) and a server that says them, however it cuts them into blocks,
frames and packets: `fetch_all` on a connection to it gives as many rows as the block has, under its names, and the cells are the
counterparts of the user's; the entries of maps may come in another order. (`_partial`: for the column types of `Readable`.) -/
theorem C78_select_partial (parse : IpKind → String → Option Bytes) (tz : Tz) (n : Nat) (b table : Block) (fs : List Field)
    (hlen : b.columns.length = table.columns.length) (hst : TableHolds parse tz b table n fs)
    {env : Env} {t : Transport} {revs : List ReadEv} {c : Conn} {tz' : Tz} {said : List Said} {h h1 : Handle} {q : Query} {w w1 : World}
    (hc : Carries env t revs c) (htz : t.info.timezone = some tz')
    (ha : AnswerLaid env.codec tz' t.info.revision t.info.compress said (t.rd ++ received revs)) (hr : ∀ m ∈ said, Readable env.known m)
    (hs : Says fs n said) (ho : h.openStream q false w = (.ok (BStream.new ⟨some c, false, false⟩ false), h1, w1)) :
    ∃ cb, ∃ rows : List (List Value), h.fetchAll q w = (.ok cb, ⟨some { c with incoming := [] }, h1.context, .attached⟩, w1) ∧
      cb.columns.map Prod.fst = b.columns.map (·.name) ∧ cblockRows cb = rows.map (·.map .ok) ∧ rows.length = n ∧
      ∀ (j : Nat) row, rows[j]? = some row → row.length = b.columns.length ∧
        ∀ (i : Nat) col tcol, b.columns[i]? = some col → table.columns[i]? = some tcol →
          ∃ v u u', cell col.data j = some v ∧ convert parse tz tcol.data.sqlType v = some u ∧ row[i]? = some u' ∧ Reordered u u' ∧
            ((∀ m ∈ said, Mapless m) → u' = u) := by
  obtain ⟨s1, s2, s3⟩ := hs
  obtain ⟨x, hx, -⟩ := id ha
  have hw := laid_block hx
  obtain ⟨cb, said', g1, hre, g2, before, i, r, cols, after, g3, g4, -, g5⟩ := C77_fetch_all_partial hc htz ha hr (by
    intro i r c i' r' c' h h' hne hne'
    have := (s1 i r c h hne).trans (s1 i' r' c' h' hne').symm
    have := congrArg (List.map Prod.snd) this
    simpa [List.map_map, Function.comp_def] using this) s2 ho
  have hcells : ∀ f ∈ fs, f.cells.length = n := by
    intro f hf
    obtain ⟨k, hk, rfl⟩ := List.mem_iff_getElem.mp hf
    have h1 : k < b.columns.length := by rw [← hst.1]; exact hk
    exact (hst.2 k _ _ _ (List.getElem?_eq_getElem h1) (List.getElem?_eq_getElem (by omega)) (List.getElem?_eq_getElem hk)).2.2.1
  refine ⟨cb, said'.flatMap saidRows, g1, ?_, g2, ?_, fun j row' hrow' => ?_⟩
  · have e := congrArg (List.map Prod.fst) (s1 i r cols (by rw [g3]; simp) g4)
    simp only [List.map_map, Function.comp_def] at e
    rw [g5, e]
    apply List.ext_getElem? fun k => ?_
    rw [List.getElem?_map, List.getElem?_map]
    by_cases hk : k < fs.length
    · have h1 : k < b.columns.length := by rw [← hst.1]; exact hk
      rw [List.getElem?_eq_getElem hk, List.getElem?_eq_getElem h1]
      simp only [Option.map_some]
      rw [(hst.2 k _ _ _ (List.getElem?_eq_getElem h1) (List.getElem?_eq_getElem (by omega)) (List.getElem?_eq_getElem hk)).1]
    · rw [List.getElem?_eq_none (by omega), List.getElem?_eq_none (by rw [← hst.1]; omega)]; rfl
  · rw [reordered_rows hre, s3, saidRows, List.length_map, List.length_range]
  · obtain ⟨row, hrow, hcr⟩ := reordered_cells hre hw hrow'
    have hex : (∀ m ∈ said, Mapless m) → row' = row := fun hm => by
      rw [hre.2.2 hm, hrow] at hrow'
      exact (Option.some.inj hrow').symm
    rw [s3, saidRows, List.getElem?_map] at hrow
    obtain ⟨j', hj', rfl⟩ := Option.map_eq_some_iff.mp hrow
    obtain ⟨hj, rfl⟩ : j < n ∧ j = j' := by
      obtain ⟨h1, h2⟩ := List.getElem?_eq_some_iff.mp hj'
      simp only [List.length_range] at h1
      rw [List.getElem_range] at h2
      exact ⟨h1, h2⟩
    have hget := rows_zip hcells hj
    have hlrow : (fs.filterMap fun f => f.cells[j]?).length = b.columns.length := by
      rw [← hst.1]
      apply Nat.le_antisymm
      · exact List.length_filterMap_le _ _
      · apply Nat.le_of_not_lt
        intro hlt
        have e := hget (fs.filterMap fun f => f.cells[j]?).length
        rw [List.getElem?_eq_none (Nat.le_refl _), List.getElem?_eq_getElem hlt] at e
        simp only [Option.bind_some] at e
        rw [List.getElem?_eq_getElem (by rw [hcells _ (List.getElem_mem hlt)]; exact hj)] at e
        cases e
    refine ⟨by rw [← hcr.1, hlrow], fun k col tcol h1 h2 => ?_⟩
    · have hk : k < fs.length := by rw [hst.1]; exact (List.getElem?_eq_some_iff.mp h1).1
      obtain ⟨-, -, -, hx⟩ := hst.2 k col tcol _ h1 h2 (List.getElem?_eq_getElem hk)
      obtain ⟨v, u, e1, e2, e3⟩ := hx j hj
      have e4 : (fs.filterMap fun f => f.cells[j]?)[k]? = some u := by
        rw [hget k, List.getElem?_eq_getElem hk]
        exact e3
      have e5 := List.getElem?_eq_getElem (l := row') (i := k) (by rw [← hcr.1, hlrow]; exact (List.getElem?_eq_some_iff.mp h1).1)
      refine ⟨v, u, _, e1, e2, e5, hcr.2 k _ _ e4 e5, fun hm => ?_⟩
      have e6 : row'[k]? = some u := by rw [hex hm]; exact e4
      exact Option.some.inj (e5.symm.trans e6)

/-- The row of `exKept`, said by the server of `exAnswer_conn` after a header. -/
example : ∃ (h h' : Handle) (cb : CBlock) (w1 : World) (rows : List (List Value)), h.fetchAll sampleQuery [] = (.ok cb, h', w1) ∧
    cblockRows cb = rows.map (·.map .ok) ∧ rows.length = 1 := by
  obtain ⟨t, revs, c, h, h1, w1, hc, hi, hb, ho, -⟩ := exAnswer_conn
  obtain ⟨cb, rows, g1, -, g2, g3, -⟩ := C78_select_partial parseSome "UTC".toList 1 exKept exKeptTable
    [⟨"s", .array .string, [.array .string [.str [97], .str [98, 99]]]⟩] rfl
    ⟨rfl, fun i c t f h1 h2 h3 => by
      match i with
      | 0 =>
        cases h1; cases h2; cases h3
        refine ⟨rfl, rfl, rfl, fun j hj => ?_⟩
        obtain rfl : j = 0 := by omega
        exact ⟨_, _, rfl, rfl, rfl⟩⟩
    (said := exSaid) (tz' := "UTC".toList) hc (by rw [hi]; rfl)
    (by rw [hi, hb]; exact exAnswer_laid) exAnswer_readable
    ⟨fun i r cols hm _ => by
      simp only [exSaid, List.mem_cons, List.not_mem_nil, or_false, Said.block.injEq, reduceCtorEq, false_or] at hm
      rcases hm with ⟨-, -, rfl⟩ | ⟨-, -, rfl⟩ <;> rfl, ⟨_, _, _, .head _, by simp⟩, rfl⟩ ho
  exact ⟨h, _, cb, w1, rows, g1, g2, g3⟩

theorem piece {tz : Tz} {b : Block} {m s e : Nat} (hne : b.columns ≠ []) (hse : s ≤ e) (he : e ≤ m)
    (h : ∀ c ∈ b.columns, Savable tz c.data 0 m ∧ Flat c.data.sqlType ∧ KeysHash c.data.sqlType ∧ Flagged c.data ∧ ListFree c.data.sqlType) :
    ∃ raw fs, (cut b s e).write = .ok raw ∧ PieceLaid tz b (e - s) fs raw ∧
      (saidRows (.block BlockInfo.default (e - s) fs)).map (·.map Out.ok) = (List.range' s (e - s)).map (rowOf b) := by
  obtain ⟨raw, fs, h1, h2, h3, h4⟩ := C76_block_write_partial tz (e - s) (cut b s e) (cut_rows hne)
    (show -(2 ^ 31 : Nat) ≤ BlockInfo.default.bucketNum by decide) (show BlockInfo.default.bucketNum < (2 ^ 31 : Nat) by decide) (by
      intro c hc
      simp only [cut, List.mem_map] at hc
      obtain ⟨d, hd, rfl⟩ := hc
      obtain ⟨a1, a2, a3, a4, a5⟩ := h d hd
      refine ⟨rfl, ⟨by omega, ?_⟩, a2, a3, a4⟩
      rw [Nat.add_zero, show s + (e - s) = e by omega]
      exact (a1.shrink (by omega) he).later a5 (by omega) hse)
  have hcells : ∀ f ∈ fs, f.cells.length = e - s := by
    obtain ⟨_, _, _, _, -, -, -, -, -, hc⟩ := h2
    exact hc
  refine ⟨raw, fs, h1, ⟨?_, h2⟩, ?_⟩
  · rw [fields_header h3 h4]
    exact cut_header
  · rw [← cut_rowsOf hne, rowsOf, cut_rows hne]
    simp only [saidRows, List.map_map]
    refine List.map_congr_left fun j hj => ?_
    exact fields_row h3 hcells h4 (List.mem_range.mp hj)

theorem pieces {tz : Tz} {b : Block} {m n : Nat} (hn : 0 < n) (hm : 0 < m) (hr : Rect b m) (hne : b.columns ≠ [])
    (h : ∀ c ∈ b.columns, Savable tz c.data 0 m ∧ Flat c.data.sqlType ∧ KeysHash c.data.sqlType ∧ Flagged c.data ∧ ListFree c.data.sqlType)
    (k : Nat) : ∀ pos, pos ≤ m → m - pos ≤ k → ∃ bs, ∃ parts : List (Nat × List Field × Bytes), Yields ⟨pos, n, b⟩ bs ∧ bs.length ≤ k ∧
      parts.length = bs.length ∧
      (∀ (i : Nat) x p, bs[i]? = some x → parts[i]? = some p →
        0 < p.1 ∧ p.1 ≤ n ∧ x.write = .ok p.2.2 ∧ PieceLaid tz b p.1 p.2.1 p.2.2) ∧
      (parts.flatMap fun p => saidRows (.block BlockInfo.default p.1 p.2.1)).map (·.map Out.ok) =
        (List.range' pos (m - pos)).map (rowOf b) := by
  have hrc := rect_rowCount hr hne
  induction k with
  | zero =>
    intro pos h1 h2
    refine ⟨[], [], .done ?_, by simp, rfl, by simp, ?_⟩
    · rw [ChunkIter.next]; simp only [hrc, obind_ok]
      rw [if_neg (by omega), if_pos (by omega)]; rfl
    · rw [show m - pos = 0 by omega]; rfl
  | succ k ih =>
    intro pos h1 h2
    by_cases hp : pos = m
    · refine ⟨[], [], .done ?_, by simp, rfl, by simp, ?_⟩
      · rw [ChunkIter.next]; simp only [hrc, obind_ok]
        rw [if_neg (by omega), if_pos (by omega)]; rfl
      · rw [show m - pos = 0 by omega]; rfl
    · obtain ⟨bs, parts, g1, g2, g3, g4, g5⟩ := ih (pos + min n (m - pos)) (by omega) (by omega)
      obtain ⟨raw, fs, p1, p2, p3⟩ := piece (tz := tz) (s := pos) (e := pos + min n (m - pos)) hne (by omega) (by omega) h
      rw [Nat.add_sub_cancel_left] at p2 p3
      refine ⟨cut b pos (pos + min n (m - pos)) :: bs, (min n (m - pos), fs, raw) :: parts, .more ?_ g1, by simp; omega, by simp [g3], ?_, ?_⟩
      · rw [ChunkIter.next]; simp only [hrc, obind_ok]
        rw [if_neg (by omega), if_neg (by omega)]
        rw [appendAll_ok (k := min n (m - pos))]
        · simp [cut, Block.new]
        · intro c hc
          simp only [List.mem_map] at hc
          obtain ⟨d, _, rfl⟩ := hc
          simp [NCol.slice, Col.len]
        · simp [Block.new]
      · intro i x p hx hy
        cases i with
        | zero => cases hx; cases hy; exact ⟨by show 0 < min n (m - pos); omega, Nat.min_le_left _ _, p1, p2⟩
        | succ i => exact g4 i x p hx hy
      · rw [List.flatMap_cons, List.map_append, g5, p3, ← List.map_append]
        congr 1
        have hq : min n (m - pos) ≤ m - pos := by omega
        generalize min n (m - pos) = q at hq
        rw [List.range'_append_1]
        congr 1; omega

/-- C78. A block of any number of rows, without arrays and maps: the pieces in which INSERT sends it are written as blocks in the native
format, with the names and types of the block's columns, none of them empty and none with more than 1048576 rows, and the rows of these
blocks, one after the other, are the rows of the block. (`_partial`: for a block that needs no conversion, or after it; arrays and maps
are not sent correctly from the second piece on, see `C17_array_chunk_violated`.) -/
theorem C78_large_partial (tz : Tz) (n : Nat) (b : Block) (hr : b.rowCount = .ok n) (h0 : 0 < n)
    (h : ∀ c ∈ b.columns, c.data.len = .ok n ∧ Savable tz c.data 0 n ∧ Flat c.data.sqlType ∧ KeysHash c.data.sqlType ∧ Flagged c.data ∧
      ListFree c.data.sqlType) :
    ∃ chunks, ∃ parts : List (Nat × List Field × Bytes), insertChunks b = .ok chunks ∧ parts.length = chunks.length ∧
      (∀ (i : Nat) x p, chunks[i]? = some x → parts[i]? = some p →
        0 < p.1 ∧ p.1 ≤ 1048576 ∧ x.write = .ok p.2.2 ∧ PieceLaid tz b p.1 p.2.1 p.2.2) ∧
      (parts.flatMap fun p => saidRows (.block BlockInfo.default p.1 p.2.1)).map (·.map Out.ok) = rowsOf b := by
  have hne : b.columns ≠ [] := by
    intro e
    rw [Block.rowCount, e] at hr
    injection hr with hr
    omega
  obtain ⟨bs, parts, g1, g2, g3, g4, g5⟩ := pieces (tz := tz) (n := 1048576) (by decide) h0 (fun c hc => (h c hc).1) hne (fun c hc => (h c hc).2) n 0
    (by omega) (by omega)
  refine ⟨bs, parts, ?_, g3, g4, ?_⟩
  · rw [insertChunks, hr]
    exact chunkList_yields g1 _ (by omega)
  · rw [g5, rowsOf, hr, Nat.sub_zero, ← List.range_eq_range']

/-- A block of more than 1048576 numbers: at least two pieces. -/
example (n : Nat) (hn : 1048576 < n) :
    ∃ chunks, insertChunks ⟨BlockInfo.default, [⟨"x", .num .u8 (List.replicate n 7)⟩]⟩ = .ok chunks ∧ 2 ≤ chunks.length := by
  obtain ⟨chunks, parts, h1, h2, h3, h4⟩ := C78_large_partial [] n ⟨BlockInfo.default, [⟨"x", .num .u8 (List.replicate n 7)⟩]⟩
    (by simp [Block.rowCount, Col.len]) (by omega) (by
      intro c hc
      obtain rfl := List.mem_singleton.mp hc
      refine ⟨by simp [Col.len], ⟨by omega, by simp, ?_⟩, trivial, trivial, trivial, trivial⟩
      intro x hx
      rw [(List.mem_replicate.mp hx).2]
      decide)
  refine ⟨chunks, h1, ?_⟩
  rw [← h2]
  have e := congrArg List.length h4
  rw [List.length_map, rowsOf] at e
  simp only [Block.rowCount, Col.len, List.length_map, List.length_range, List.length_replicate] at e
  match parts, h2, e, h3 with
  | [], _, e, _ => simp at e; omega
  | [p], h2, e, h3 =>
    obtain ⟨x, hx⟩ : ∃ x, chunks = [x] := by
      match chunks, h2 with
      | [x], _ => exact ⟨x, rfl⟩
    have := (h3 0 x p (by rw [hx]; rfl) rfl).2.1
    rw [List.flatMap_singleton, saidRows, List.length_map, List.length_range] at e
    omega
  | _ :: _ :: _, _, _, _ => simp

end CH.Props
