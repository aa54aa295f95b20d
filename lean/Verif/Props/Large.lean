import Verif.Lemmas.Pieces
import Verif.Props.Written

/-! INSERTs of any number of rows, converted to the types of the table. -/

namespace CH.Props
open CH CH.Spec CH.Socket CH.Outage CH.Pieces CH.WrittenOut

/-- C78. A block of any number of rows, converted for a table without arrays and maps or small enough to be
sent as one piece: the pieces in which INSERT sends it are blocks in the
native format with the table's types, none of them empty and none with more than 1048576 rows, and their rows, one block after the other,
are the converted rows. (`_partial`: as `C76_cast_partial` for the conversions; arrays and maps are not sent correctly from the second
piece on, see `C17_array_chunk_violated`.) -/
theorem C78_large_cast_partial (parse : IpKind → String → Option Bytes) (hparse : ∀ k s b, parse k s = some b → b.length = k.size)
    (known : Tz → Bool) (tz : Tz) (n : Nat) (h0 : 0 < n) (hn : n < 2 ^ 56 - 1) (b table b' : Block) (hr : b.rowCount = .ok n)
    (hs : GoesInto parse known tz n b table) (hl : n ≤ 1048576 ∨ ∀ t ∈ table.columns, ListFree t.data.sqlType)
    (hb : b.castTo parse table = .ok b') :
    ∃ chunks fs, ∃ parts : List (Nat × List Field × Bytes), insertChunks b' = .ok chunks ∧ parts.length = chunks.length ∧
      TableHolds parse tz b table n fs ∧ Says fs n (parts.map fun p => .block BlockInfo.default p.1 p.2.1) ∧
      ∀ (i : Nat) x p, chunks[i]? = some x → parts[i]? = some p →
        0 < p.1 ∧ p.1 ≤ 1048576 ∧ x.write = .ok p.2.2 ∧ BlockLaid tz BlockInfo.default p.1 p.2.1 p.2.2 ∧
          p.2.1.map (fun f => (f.name, f.type)) = fs.map fun f => (f.name, f.type) := by
  have hlen := hs.width
  have hb0 := hb
  rw [Block.castTo, if_neg (by omega)] at hb
  obtain ⟨ds, e, hb⟩ := obind_eq_ok hb
  injection hb with hb
  subst hb
  obtain ⟨hdl, hd⟩ := castColumns_ok hlen e
  have hne : b.columns ≠ [] := by
    intro e
    rw [Block.rowCount, e] at hr
    injection hr with hr
    omega
  have hdne : ds ≠ [] := by
    intro e
    rw [e] at hdl
    exact hne (List.length_eq_zero_iff.mp hdl.symm)
  have hsent : ∀ (i : Nat) c t d, b.columns[i]? = some c → table.columns[i]? = some t → ds[i]? = some d →
      d.name = c.name ∧ Sent parse tz c.data t.data.sqlType d.data n ∧ Flat t.data.sqlType ∧ KeysHash t.data.sqlType ∧ Flagged c.data ∧
        (n ≤ 1048576 ∨ ListFree t.data.sqlType) := by
    intro i c t d h1 h2 h3
    obtain ⟨hc, hf, hk, hg⟩ := hs.columns i c t h1 h2
    obtain ⟨i1, rfl⟩ := List.getElem?_eq_some_iff.mp h1
    obtain ⟨i2, rfl⟩ := List.getElem?_eq_some_iff.mp h2
    obtain ⟨i3, rfl⟩ := List.getElem?_eq_some_iff.mp h3
    refine ⟨(hd i i1 i2 i3).1, ?_, hf, hk, hg, hl.imp id fun h => h _ (List.getElem_mem i2)⟩
    rcases castTo_done hc.sound hc.sized hc.small hc.room hc.target hc.times known hc.named hn hparse hc.cells with e | ⟨d, e, s⟩
    · rw [(hd i i1 i2 i3).2] at e; cases e
    · rw [(hd i i1 i2 i3).2] at e; injection e with e; rw [e]; exact s
  have hrect : Rect ⟨b.info, ds⟩ n := by
    intro c hc
    obtain ⟨i, hi, rfl⟩ := List.mem_iff_getElem.mp hc
    have hi : i < ds.length := hi
    exact (hsent i _ _ _ (List.getElem?_eq_getElem (by omega)) (List.getElem?_eq_getElem (by omega)) (List.getElem?_eq_getElem hi)).2.1.len
  obtain ⟨fs, hst⟩ : ∃ fs, TableHolds parse tz b table n fs := by
    obtain ⟨bss, fs, g1, g2, g3, g4, g5⟩ := sent_fields (tz := tz) (n := n) (ds := ds)
      (P := fun i f => ∀ c t, b.columns[i]? = some c → table.columns[i]? = some t → f.name = c.name ∧ f.type = t.data.sqlType ∧ f.cells.length = n ∧
        ∀ j, j < n → ∃ v w, cell c.data j = some v ∧ convert parse tz t.data.sqlType v = some w ∧ f.cells[j]? = some w) (by
      intro i d hi
      have h3 := (List.getElem?_eq_some_iff.mp hi).1
      have h1 := List.getElem?_eq_getElem (l := b.columns) (i := i) (by omega)
      have h2 := List.getElem?_eq_getElem (l := table.columns) (i := i) (by omega)
      obtain ⟨a1, a2, a3, a4, a5, a6⟩ := hsent i _ _ _ h1 h2 hi
      obtain ⟨x, vs, l1, l2, l3, l4⟩ := sent_laid a2 a3 a4 a5
      refine ⟨a2.len, x, vs, l1, l2, by rw [a2.type]; exact l3, fun c t hc' ht' => ?_⟩
      rw [h1, Option.some.injEq] at hc'
      rw [h2, Option.some.injEq] at ht'
      subst hc' ht'
      refine ⟨a1, a2.type, l2, fun j hj => ?_⟩
      obtain ⟨v, w, e1, e2⟩ := (hs.columns i _ _ h1 h2).1.cells j hj
      exact ⟨v, w, e1, e2, l4 j v w hj e1 e2⟩)
    exact ⟨fs, by omega, fun i c t f h1 h2 h3 => g5 i f h3 c t h1 h2⟩
  obtain ⟨bs, parts, g1, g2, g3, g4, g5, g6⟩ := pieces_by (n := 1048576) (by decide) h0 hrect hdne
    (R := fun j => fs.filterMap fun f => f.cells[j]?)
    (L := fun r gs raw => BlockLaid tz BlockInfo.default r gs raw ∧ gs.map (fun f => (f.name, f.type)) = fs.map fun f => (f.name, f.type))
    (fun s e h1 h2 h3 => sent_piece hdl hlen h1 h2 hst (fun i c t d e1 e2 e3 => by
      obtain ⟨a1, a2, a3, a4, a5, a6⟩ := hsent i c t d e1 e2 e3
      exact ⟨a1, a2, a3, a4, a5, a6.imp h3 id⟩) hdne b.info) n 0 (by omega) (.inl rfl) (by omega)
  have hget : ∀ p ∈ parts, BlockLaid tz BlockInfo.default p.1 p.2.1 p.2.2 ∧
      p.2.1.map (fun f => (f.name, f.type)) = fs.map fun f => (f.name, f.type) := by
    intro p hp
    obtain ⟨i, hi, rfl⟩ := List.mem_iff_getElem.mp hp
    exact (g4 i _ _ (List.getElem?_eq_getElem (by omega)) (List.getElem?_eq_getElem hi)).2.2.2
  refine ⟨bs, fs, parts, ?_, g3, hst, ⟨?_, ?_, ?_⟩, fun i x p h1 h2 => ?_⟩
  · rw [insertChunks, rect_rowCount hrect hdne]
    exact chunkList_yields g1 _ (by omega)
  · intro i r cols hm _
    obtain ⟨p, hp, e⟩ := List.mem_map.mp hm
    cases e
    exact (hget p hp).2
  · obtain ⟨p, ps, rfl⟩ := List.exists_cons_of_ne_nil (g6 h0)
    refine ⟨_, _, _, List.mem_map_of_mem (List.mem_cons_self ..), fun e => ?_⟩
    have := congrArg List.length (hget p (List.mem_cons_self ..)).2
    rw [e, List.length_map, List.length_map, hst.1] at this
    exact hne (List.length_eq_zero_iff.mp this.symm)
  · rw [List.flatMap_map, g5, saidRows, Nat.sub_zero, ← List.range_eq_range']
  · obtain ⟨a1, a2, a3, a4⟩ := g4 i x p h1 h2
    exact ⟨a1, a2, a3, a4⟩

/-- The values an application knows, and those of the table. -/
def exFew : List (Str × Int) := [("a".toList, 1)]
def exMore : List (Str × Int) := [("a".toList, 1), ("b".toList, 2)]

/-- A block of `m` values. -/
def exLots (m : Nat) : Block := ⟨BlockInfo.default, [⟨"x", .enum .w8 exFew (List.replicate m 1)⟩]⟩

/-- The header of the table. -/
def exLotsTable : Block := ⟨BlockInfo.default, [⟨"x", .enum .w8 exMore []⟩]⟩

theorem exLots_rows (m : Nat) : (exLots m).rowCount = .ok m := by simp [exLots, Block.rowCount, Col.len]

theorem exLots_table {d : Block} (h : header d = header exLotsTable) : ∃ c, d.columns = [c] ∧ c.data.sqlType = .enum .w8 exMore := by
  simp only [header] at h
  match hd : d.columns, h with
  | [c], h =>
    simp only [exLotsTable, List.map_cons, List.map_nil, List.cons.injEq, Prod.mk.injEq, and_true] at h
    exact ⟨c, rfl, h.2⟩
  | [], h => cases h
  | _ :: _ :: _, h => simp [exLotsTable] at h

theorem exLots_convertible {m : Nat} (hm : m < 2 ^ 56) :
    Convertible parseSome (fun _ => true) "UTC".toList m (.enum .w8 exFew (List.replicate m 1)) (.enum .w8 exMore) where
  sound := ⟨by simp, fun x hx => by rw [(List.mem_replicate.mp hx).2]; decide⟩
  sized := by simp [Sized]
  small := by simpa [InMemory] using hm
  room := by simp [SpaceFor]
  target := .inl (by simp [Insertable])
  times := by simp [TimesFit]
  named := by
    refine ⟨by simp [exMore], fun it hi => ?_⟩
    rcases List.mem_cons.mp hi with rfl | hi
    · exact ⟨by unfold plainText; decide, by unfold enumRange; decide⟩
    · obtain rfl := List.mem_singleton.mp hi
      exact ⟨by unfold plainText; decide, by unfold enumRange; decide⟩
  cells := fun i hi => by
    refine ⟨.enum .w8 exFew 1, .enum .w8 exMore 1, ?_, rfl⟩
    have hi' : i < (List.replicate m 1).length := by simpa using hi
    simp only [cell, Col.at, idx_ok hi', obind_ok, List.getElem_replicate]
    rfl

theorem exLots_suits {m : Nat} (hm : m < 2 ^ 56) {d : Block} (h : header d = header exLotsTable) :
    GoesInto parseSome (fun _ => true) "UTC".toList m (exLots m) d := by
  obtain ⟨c, h1, h2⟩ := exLots_table h
  refine ⟨by rw [h1]; rfl, fun i c t e1 e2 => ?_⟩
  match i with
  | 0 =>
    rw [h1] at e2
    cases e1; cases e2
    rw [h2]
    exact ⟨exLots_convertible hm, trivial, trivial, trivial⟩
  | i + 1 => simp [exLots] at e1

theorem exLots_free {d : Block} (h : header d = header exLotsTable) : ∀ t ∈ d.columns, ListFree t.data.sqlType := by
  obtain ⟨c, h1, h2⟩ := exLots_table h
  intro t ht
  rw [h1] at ht
  obtain rfl := List.mem_singleton.mp ht
  rw [h2]
  exact trivial

theorem exLots_castTo (m : Nat) {d : Block} (h : header d = header exLotsTable) :
    (exLots m).castTo parseSome d = .ok ⟨BlockInfo.default, [⟨"x", .enumAd (.enum .w8 exFew (List.replicate m 1)) .w8 exMore⟩]⟩ := by
  obtain ⟨c, h1, h2⟩ := exLots_table h
  rw [Block.castTo, h1, if_neg (by simp [exLots])]
  simp only [exLots, castColumns, h2]
  rfl

/-- `C78_large_cast_partial`: any number of values, in at least two pieces if there are more than 1048576. -/
example (m : Nat) (h0 : 1048576 < m) (hm : m < 2 ^ 56 - 1) : ∃ b' chunks, (exLots m).castTo parseSome exLotsTable = .ok b' ∧
    insertChunks b' = .ok chunks ∧ 2 ≤ chunks.length := by
  obtain ⟨chunks, fs, parts, h1, h2, h3, h4, h5⟩ := C78_large_cast_partial parseSome exKept_parse (fun _ => true) "UTC".toList m (by omega) hm
    (exLots m) exLotsTable _ (exLots_rows m) (exLots_suits (by omega) rfl) (.inr (exLots_free rfl)) (exLots_castTo m rfl)
  refine ⟨_, chunks, exLots_castTo m rfl, h1, ?_⟩
  rw [← h2]
  have e := congrArg List.length h4.2.2
  rw [saidRows, List.length_map, List.length_range] at e
  match parts, h2, e, h5 with
  | [], _, e, _ => simp at e; omega
  | [p], h2, e, h5 =>
    obtain ⟨x, hx⟩ : ∃ x, chunks = [x] := by
      match chunks, h2 with
      | [x], _ => exact ⟨x, rfl⟩
    have := (h5 0 x p (by rw [hx]; rfl) rfl).2.1
    simp only [List.map_cons, List.map_nil, List.flatMap_singleton, saidRows, List.length_map, List.length_range] at e
    omega
  | _ :: _ :: _, _, _, _ => simp

theorem written_parts {env : Env} {kind : String → SettingKind} {tz tz' : Tz} {q : Query} {ctx : Context} {before : List Cmd} {chs : List Block}
    {out : Bytes} {parts : List (Nat × List Field × Bytes)} (hk : QueryOK env kind tz' q ctx) (w2 : parts.length = chs.length)
    (w3 : ∀ (i : Nat) x p, chs[i]? = some x → parts[i]? = some p → x.write = .ok p.2.2)
    (ho : out = cmdBytes env.codec (before ++ pieceCmds q ctx chs)) :
    ∃ empty, Block.new.write = .ok empty ∧ BlockLaid tz BlockInfo.default 0 [] empty ∧
      ((ctx.options.compression = true → (∀ p ∈ parts, Packs env.codec p.2.2) ∧ Packs env.codec empty) →
        ∃ stmt, ∃ rows : List Bytes, out = cmdBytes env.codec before ++ rows.flatMap (stmt ++ ·) ∧
          Stated env kind tz' q ctx stmt ∧ rows.length = parts.length ∧
          ∀ (i : Nat) p r, parts[i]? = some p → rows[i]? = some r → RowsPackets env.codec ctx.options.compression p.2.2 empty r) := by
  obtain ⟨empty, fs0, l1, l2, l3, -⟩ := C76_block_write_partial tz 0 Block.new rfl (by decide) (by decide) (by simp [Block.new])
  rw [(List.length_eq_zero_iff.mp l3 : fs0 = [])] at l2
  refine ⟨empty, l1, l2, fun hz => ?_⟩
  obtain ⟨stmt, s1, s2⟩ := stated hk
  obtain ⟨y, y1, y2⟩ := sent_packet env.codec ctx.options.compression empty _ l1 fun hc => (hz hc).2
  have hall : ∃ rows : List Bytes, rows.length = parts.length ∧
      ∀ (i : Nat) p r, parts[i]? = some p → rows[i]? = some r → RowsPackets env.codec ctx.options.compression p.2.2 empty r ∧
        ∀ ch, chs[i]? = some ch → (Cmd.union (.sendData ch ctx) (.sendData Block.new ctx)).encode env.codec = .ok r := by
    refine pick_list (P := fun (i : Nat) (p : Nat × List Field × Bytes) (r : Bytes) => RowsPackets env.codec ctx.options.compression p.2.2 empty r ∧
        ∀ ch, chs[i]? = some ch → (Cmd.union (.sendData ch ctx) (.sendData Block.new ctx)).encode env.codec = .ok r) parts fun i p hp => ?_
    obtain ⟨hi, rfl⟩ := List.getElem?_eq_some_iff.mp hp
    have hi' : i < chs.length := w2 ▸ hi
    have a3 := w3 i _ _ (List.getElem?_eq_getElem hi') hp
    obtain ⟨x, x1, x2⟩ := sent_packet env.codec ctx.options.compression _ _ a3 fun hc => (hz hc).1 _ (List.getElem_mem hi)
    refine ⟨_, ⟨x, y, x2, y2, rfl⟩, fun ch hch => ?_⟩
    rw [List.getElem?_eq_getElem hi'] at hch
    cases hch
    rw [Cmd.encode, Cmd.encode, Cmd.encode, x1, y1]
    rfl
  obtain ⟨rows, r1, r2⟩ := hall
  refine ⟨stmt, rows, ?_, s2, r1, fun i p r h1 h2 => (r2 i p r h1 h2).1⟩
  rw [ho, cmdBytes_append, cmdBytes_pieces s1 (rows := rows) (r1.trans w2) fun i ch r h1 h2 => ?_]
  obtain ⟨hi, rfl⟩ := List.getElem?_eq_some_iff.mp h2
  exact (r2 i _ _ (List.getElem?_eq_getElem (r1 ▸ hi)) h2).2 ch h1

/-- C91. An INSERT of any number of rows into a table without arrays and maps, or few enough for one piece: when it is reported as done, the socket has taken, after all
it had taken or was to take before, the pieces one after the other, each with the statement before it and the end of the data after it, in
the native format of the table, and the rows of the pieces are the rows of the block, converted cell by cell to the types of the table.
(`_partial`: for the conversions of `C76_cast_partial`; arrays and maps are not sent correctly from the second piece on.) -/
theorem C91_large_partial (env : Env) (numeric : Char → Bool) (parse : IpKind → String → Option Bytes)
    (hparse : ∀ k s b, parse k s = some b → b.length = k.size) (known : Tz → Bool) (kind : String → SettingKind) (tz tz' : Tz) (k : Sock)
    (ctx : Context) (bd : Binding) (h' : HandleS) (w : WorldS) (t q : Query) (b : Block) (n : Nat) (log : List Cmd) (hi : Issued env k log)
    (hp : ctx.options.pingBeforeQuery = false) (he : DataEncodes env (fun x t => x.castTo parse t) ctx (.insert t b))
    (hr : b.rowCount = .ok n) (h0 : 0 < n) (hn : n < 2 ^ 56 - 1) (hq : makeQuery numeric t b = .ok q) (hk : QueryOK env kind tz' q ctx)
    (ha : AskS env numeric (fun x t => x.castTo parse t) ⟨some k, ctx, bd⟩ w (.insert t b) (.items []) h') :
    ∃ table ps k', Heads k.t.inconsistent table ps ∧ Delivers env k ps ∧ h'.inner = some k' ∧
      (GoesInto parse known tz n b table → (n ≤ 1048576 ∨ ∀ t ∈ table.columns, ListFree t.data.sqlType) →
        ∃ fs, ∃ parts : List (Nat × List Field × Bytes), ∃ empty, TableHolds parse tz b table n fs ∧
          Says fs n (parts.map fun p => .block BlockInfo.default p.1 p.2.1) ∧
          (∀ p ∈ parts, 0 < p.1 ∧ p.1 ≤ 1048576 ∧ BlockLaid tz BlockInfo.default p.1 p.2.1 p.2.2) ∧ BlockLaid tz BlockInfo.default 0 [] empty ∧
          ((ctx.options.compression = true → (∀ p ∈ parts, Packs env.codec p.2.2) ∧ Packs env.codec empty) →
            ∃ stmt, ∃ rows : List Bytes, k'.writer.out = cmdBytes env.codec (log ++ cancelFirst k) ++ rows.flatMap (stmt ++ ·) ∧
              Stated env kind tz' q ctx stmt ∧ rows.length = parts.length ∧
              ∀ (i : Nat) p r, parts[i]? = some p → rows[i]? = some r → RowsPackets env.codec ctx.options.compression p.2.2 empty r)) := by
  obtain ⟨h1, w1, k1, k', hpc, hin, hx, ho⟩ := insert_of hq ha
  cases hpc with
  | ok hp' => simp only at hp'; rw [hp] at hp'; cases hp'
  | failed _ _ hn => exact absurd rfl hn
  | off =>
    cases hin
    obtain ⟨d, b', chs, ps, g1, g2, g3, g4, g5⟩ := insert_done hi he hx
    refine ⟨d, ps, k', g1, g2, ho, fun hs hl => ?_⟩
    obtain ⟨chs', fs, parts, w1, w2, w3, w4, w5⟩ := C78_large_cast_partial parse hparse known tz n h0 hn b d b' hr hs hl g3
    rw [g4] at w1
    cases w1
    obtain ⟨empty, -, l2, l3⟩ := written_parts (tz := tz) hk w2 (fun i x p h1 h2 => (w5 i x p h1 h2).2.2.1) g5
    refine ⟨fs, parts, empty, w3, w4, fun p hp => ?_, l2, l3⟩
    obtain ⟨i, hi, rfl⟩ := List.mem_iff_getElem.mp hp
    obtain ⟨a1, a2, -, a4, -⟩ := w5 i _ _ (List.getElem?_eq_getElem (w2 ▸ hi)) (List.getElem?_eq_getElem hi)
    exact ⟨a1, a2, a4⟩

/-- C91. The same with the check beforehand, as it is by default, and reconnecting as often as it does. -/
theorem C91_large_checked_partial (env : Env) (numeric : Char → Bool) (parse : IpKind → String → Option Bytes)
    (hparse : ∀ k s b, parse k s = some b → b.length = k.size) (known : Tz → Bool) (kind : String → SettingKind) (tz tz' : Tz) (h h' : HandleS)
    (w : WorldS) (t q : Query) (b : Block) (n : Nat) (log : List Cmd) (hi : IssuedIn env h log) (hw : IssuedWorld env w)
    (hp : h.context.options.pingBeforeQuery = true) (he : DataEncodes env (fun x t => x.castTo parse t) h.context (.insert t b))
    (hr : b.rowCount = .ok n) (h0 : 0 < n) (hn : n < 2 ^ 56 - 1) (hq : makeQuery numeric t b = .ok q) (hk : QueryOK env kind tz' q h.context)
    (ha : AskS env numeric (fun x t => x.castTo parse t) h w (.insert t b) (.items []) h') :
    ∃ k lg table ls ps k', (h.inner = some k ∧ lg = log ∨ some k ∈ w) ∧ Issued env k lg ∧ Cleared k.t.inconsistent ls ∧ Heads false table ps ∧
      Delivers env k (ls ++ [.pong] ++ ps) ∧ h'.inner = some k' ∧
      (GoesInto parse known tz n b table → (n ≤ 1048576 ∨ ∀ t ∈ table.columns, ListFree t.data.sqlType) →
        ∃ fs, ∃ parts : List (Nat × List Field × Bytes), ∃ empty, TableHolds parse tz b table n fs ∧
          Says fs n (parts.map fun p => .block BlockInfo.default p.1 p.2.1) ∧
          (∀ p ∈ parts, 0 < p.1 ∧ p.1 ≤ 1048576 ∧ BlockLaid tz BlockInfo.default p.1 p.2.1 p.2.2) ∧ BlockLaid tz BlockInfo.default 0 [] empty ∧
          ((h.context.options.compression = true → (∀ p ∈ parts, Packs env.codec p.2.2) ∧ Packs env.codec empty) →
            ∃ stmt, ∃ rows : List Bytes, k'.writer.out = cmdBytes env.codec (lg ++ cancelFirst k ++ [.ping]) ++ rows.flatMap (stmt ++ ·) ∧
              Stated env kind tz' q h.context stmt ∧ rows.length = parts.length ∧
              ∀ (i : Nat) p r, parts[i]? = some p → rows[i]? = some r → RowsPackets env.codec h.context.options.compression p.2.2 empty r)) := by
  obtain ⟨h1, w1, k1, k', hpc, hin, hx, ho⟩ := insert_of hq ha
  have hctx := precheck_context hpc
  rw [hctx] at hx
  obtain ⟨k, k1', g1, g2, g3⟩ := precheck_used hpc hp
  rw [hin] at g3
  cases g3
  obtain ⟨lg, hk', hj⟩ : ∃ lg, Issued env k lg ∧ (h.inner = some k ∧ lg = log ∨ some k ∈ w) := by
    rcases g1 with e | e
    · exact ⟨log, hi k e, .inl ⟨e, rfl⟩⟩
    · obtain ⟨lg, hl⟩ := hw k e
      exact ⟨lg, hl, .inr e⟩
  obtain ⟨d, b', chs, ls, ps, m1, m2, m3, m4, m5, m6⟩ := insert_done_checked hk' g2 he hx
  refine ⟨k, lg, d, ls, ps, k', hj, hk', m1, m2, m3, ho, fun hs hl => ?_⟩
  obtain ⟨chs', fs, parts, w1, w2, w3, w4, w5⟩ := C78_large_cast_partial parse hparse known tz n h0 hn b d b' hr hs hl m4
  rw [m5] at w1
  cases w1
  obtain ⟨empty, -, l2, l3⟩ := written_parts (tz := tz) hk w2 (fun i x p h1 h2 => (w5 i x p h1 h2).2.2.1) m6
  refine ⟨fs, parts, empty, w3, w4, fun p hp => ?_, l2, l3⟩
  obtain ⟨i, hi, rfl⟩ := List.mem_iff_getElem.mp hp
  obtain ⟨a1, a2, -, a4, -⟩ := w5 i _ _ (List.getElem?_eq_getElem (w2 ▸ hi)) (List.getElem?_eq_getElem hi)
  exact ⟨a1, a2, a4⟩

theorem exLots_header : ∃ bs d, bs ≠ [] ∧ header d = header exLotsTable ∧
    ∀ rest, parsePacket sampleEnv sampleInfo (bs ++ rest) = .ok (.block d) rest := by
  have hok : BlockOK sampleEnv.known "UTC".toList 0 exLotsTable := ⟨rfl, by decide, by decide, by decide, by decide, by
    intro c hc
    obtain rfl := List.mem_singleton.mp hc
    exact ⟨by decide, by decide +kernel, (exLots_convertible (m := 0) (by decide)).named, rfl, by simp [Savable], by simp [InMemory]⟩⟩
  obtain ⟨bytes, h1, h2⟩ := C07_data_block_partial sampleEnv sampleInfo "UTC".toList rfl rfl 1 (by decide) 0 exLotsTable hok
  obtain ⟨d, h3, h4, -⟩ := h2 []
  rw [List.append_nil] at h3
  refine ⟨putUvarint 1 ++ putString "" ++ bytes, d, ?_, h4, fun rest => ?_⟩
  · intro e
    rw [e, parsePacket_nil] at h3
    cases h3
  · have := (C05_answers_are_final sampleEnv sampleInfo _ rest).1 _ _ h3
    simpa using this

/-- Whatever these values are converted to, any part of them can be written. -/
theorem exLots_casts {m : Nat} (hm : m < 2 ^ 56) (t : SqlType) : ∀ {d : Col}, (Col.enum .w8 exFew (List.replicate m 1)).castTo parseSome t = .ok d →
    d.len = .ok m ∧ ∀ s e, s ≤ e → e ≤ m → ∃ x, d.save s e = .ok x := by
  have hplain : ∀ items, (Col.enum .w8 items (List.replicate m 1)).len = .ok m ∧
      ∀ s e, s ≤ e → e ≤ m → ∃ x, (Col.enum .w8 items (List.replicate m 1)).save s e = .ok x := by
    refine fun items => ⟨by simp [Col.len], fun s e h1 h2 => ?_⟩
    rw [Col.save, saveNums_ok h1 (by simpa using h2)]
    exact ⟨_, rfl⟩
  have hself := hplain exFew
  have had : ∀ items, (Col.enumAd (.enum .w8 exFew (List.replicate m 1)) .w8 items).len = .ok m ∧
      ∀ s e, s ≤ e → e ≤ m → ∃ x, (Col.enumAd (.enum .w8 exFew (List.replicate m 1)) .w8 items).save s e = .ok x := by
    intro items
    refine ⟨by simp [Col.len], fun s e h1 h2 => ?_⟩
    obtain ⟨p, -, -, h3, -⟩ := (sent_enumAd (parse := parseSome) (tz := []) (n := m) (items' := items) hm (exLots_convertible hm).sound rfl).slices trivial
    obtain ⟨b, h4, -⟩ := h3 s e h1 h2
    exact ⟨b, h4⟩
  have hdata : ∀ dst d, castData (Col.enum .w8 exFew (List.replicate m 1)) dst = .ok d → d.len = .ok m ∧
      ∀ s e, s ≤ e → e ≤ m → ∃ x, d.save s e = .ok x := by
    intro dst d h
    rw [castData] at h
    cases dst <;> simp only [Col.dataCast, reduceCtorEq] at h
    split at h
    · rename_i hh
      split at hh
      · cases hh
        cases h
        exact hplain _
      · cases hh
    · cases h
  induction t with
  | simpleAgg f t ih =>
    intro d h
    rw [Col.castTo] at h
    split at h
    · cases h; exact hself
    · obtain ⟨d', h1, h2⟩ := obind_eq_ok h
      cases h2
      exact ⟨(ih h1).1, (ih h1).2⟩
  | _ =>
    intro d h
    rw [Col.castTo] at h
    · split at h
      · cases h; exact hself
      · simp only [castArm, Col.sqlType, SqlType.lcInner, Bool.false_eq_true, if_false] at h
        first
          | exact hdata _ _ h
          | (split at h
             · rename_i hw
               cases hw
               cases h
               exact had _
             · exact hdata _ _ h)
          | (split at h <;> first | exact hdata _ _ h | cases h)
    · simp

theorem exLots_encodes {m : Nat} (h0 : 0 < m) (hm : m < 2 ^ 56) (ctx : Context) (h : ctx.options.compression = false) (t : Query) :
    DataEncodes sampleEnv (fun x t => x.castTo parseSome t) ctx (.insert t (exLots m)) := by
  intro d b' chs ch h1 h2 h3
  simp only at h1
  rw [Block.castTo] at h1
  split at h1
  · cases h1
  next hl =>
  obtain ⟨cs, e1, e2⟩ := obind_eq_ok h1
  cases e2
  match hd : d.columns, hl with
  | [c], _ =>
    rw [hd] at e1
    simp only [exLots, castColumns] at e1
    obtain ⟨x, x1, x2⟩ := obind_eq_ok e1
    cases x2
    obtain ⟨l, hs⟩ := exLots_casts hm _ x1
    have hrect : Rect ⟨(exLots m).info, [⟨"x", x⟩]⟩ m := by
      intro y hy
      obtain rfl := List.mem_singleton.mp hy
      exact l
    obtain ⟨bs, parts, g1, g2, g3, g4, -⟩ := pieces_by (n := 1048576) (by decide) h0 hrect (by simp) (R := fun _ => []) (L := fun _ _ _ => True)
      (fun s e h1 h2 _ => by
        obtain ⟨y, hy⟩ := hs s e (by omega) h2
        have hw : ∃ r, (cut ⟨(exLots m).info, [⟨"x", x⟩]⟩ s e).write = .ok r := by
          rw [Block.write, cut_rows (by simp)]
          simp only [obind_ok, cut, mapOut, List.map_cons, List.map_nil, NCol.write, NCol.slice, Col.len, Col.save, Col.sqlType]
          rw [Nat.add_zero, show min e (s + (e - s)) = e by omega, hy]
          exact ⟨_, rfl⟩
        obtain ⟨r, hw⟩ := hw
        exact ⟨r, [], hw, trivial, by simp [saidRows, List.map_const']⟩) m 0 (by omega) (.inl rfl) (by omega)
    have h2 : insertChunks ⟨(exLots m).info, [⟨"x", x⟩]⟩ = .ok chs := h2
    rw [insertChunks, rect_rowCount hrect (by simp), obind_ok,
      show chunkList (m + 1) (Block.chunks ⟨(exLots m).info, [⟨"x", x⟩]⟩ insertBlockSize) = .ok bs from chunkList_yields g1 _ (by omega)] at h2
    cases h2
    obtain ⟨i, hi, rfl⟩ := List.mem_iff_getElem.mp h3
    have hw := (g4 i _ _ (List.getElem?_eq_getElem hi) (List.getElem?_eq_getElem (g3 ▸ hi))).2.2.1
    obtain ⟨body, b1, -⟩ := sent_packet sampleEnv.codec false _ _ hw nofun
    rw [Cmd.encode, Cmd.encode, Cmd.encode, h, b1]
    exact ⟨_, rfl⟩
  | [], hl => simp [exLots] at hl
  | _ :: _ :: _, hl => simp [exLots] at hl

theorem rounds_cast {cast : Block → Block → Out Block} (d b b' : Block) (ctx : Context) (q : Query) (chs : List Block) (hc : cast b d = .ok b')
    (h : insertChunks b' = .ok chs) (hne : chs ≠ []) (log : List Cmd) :
    ∃ c', Conn.insert cast ⟨(rounds d chs.length).map .packet, fun _ => [], false, log⟩ q ctx b = .ok c' := by
  obtain ⟨c', ht⟩ := rounds_tail d ctx q chs log
  match chs, hne with
  | ch :: chs, _ =>
    have h2 := C71_insert_query ⟨(rounds d (chs.length + 1)).map .packet, fun _ => [], false, log⟩ q ctx
      (.finished (.block d) (.packet .eof :: (rounds d chs.length).map .packet)) (by rw [List.append_nil]; exact .finished .block)
    rw [insertTail_eq] at ht
    rw [insert_eq, show Conn.clear ⟨(rounds d (ch :: chs).length).map .packet, fun _ => [], false, log⟩ =
      .ok ⟨(rounds d (ch :: chs).length).map .packet, fun _ => [], false, log⟩ from rfl]
    simp only [List.length_cons] at h2 ht ⊢
    simp only [andThen, h2, hc, h] at ht ⊢
    exact ⟨c', ht⟩

/-- Any number of values converted to the type of the table, in as many pieces as it takes. -/
theorem exLots_inserted (m : Nat) (h0 : 0 < m) (hm : m < 2 ^ 56 - 1) : ∃ bs n h' q, (∃ d ps, header d = header exLotsTable ∧
        Decodes sampleEnv sampleInfo bs (.inl (.block d) :: ps) sampleInfo []) ∧ AskS sampleEnv (fun c => c.isDigit) (fun x t => x.castTo parseSome t)
        ⟨some (exOn bs n), uncheckedCtx, .attached⟩ [] (.insert ⟨"t", ""⟩ (exLots m)) (.items []) h' ∧
      Issued sampleEnv (exOn bs n) [] ∧ uncheckedCtx.options.pingBeforeQuery = false ∧
      DataEncodes sampleEnv (fun x t => x.castTo parseSome t) uncheckedCtx (.insert ⟨"t", ""⟩ (exLots m)) ∧ (exLots m).rowCount = .ok m ∧
      makeQuery (fun c => c.isDigit) ⟨"t", ""⟩ (exLots m) = .ok q ∧ QueryOK sampleEnv (fun _ => .number) "UTC".toList q uncheckedCtx ∧
      ∀ d, header d = header exLotsTable → GoesInto parseSome (fun _ => true) "UTC".toList m (exLots m) d ∧
        ∀ t ∈ d.columns, ListFree t.data.sqlType := by
  obtain ⟨hdr, d, -, hd, hp⟩ := exLots_header
  have hc := exLots_castTo m hd
  obtain ⟨chs, fs, parts, w1, w2, w3, w4, w5⟩ := C78_large_cast_partial parseSome exKept_parse (fun _ => true) "UTC".toList m h0 hm
    (exLots m) d _ (exLots_rows m) (exLots_suits (by omega) hd) (.inr (exLots_free hd)) hc
  have hne : chs ≠ [] := by
    rintro rfl
    rw [List.length_eq_zero_iff.mp w2] at w4
    have := congrArg List.length w4.2.2
    simp [saidRows] at this
    omega
  obtain ⟨x, hdec, hx0⟩ := rounds_bytes hp chs.length
  have hq : makeQuery (fun c => c.isDigit) ⟨"t", ""⟩ (exLots m) = .ok ⟨"INSERT INTO t (`x`) VALUES", ""⟩ :=
    show makeQuery (fun c => c.isDigit) ⟨"t", ""⟩ (exLots 0) = _ from rfl
  obtain ⟨c', hx⟩ := rounds_cast (cast := fun x t => x.castTo parseSome t) d (exLots m) _ uncheckedCtx ⟨"INSERT INTO t (`x`) VALUES", ""⟩ chs hc w1 hne []
  have he := exLots_encodes h0 (by omega) uncheckedCtx rfl ⟨"t", ""⟩
  obtain ⟨n, h', g⟩ := exOn_asks (numeric := fun c => c.isDigit) (cast := fun x t => x.castTo parseSome t) (bs := x)
    (ps := rounds d chs.length) (a := .insert ⟨"t", ""⟩ (exLots m)) (o := []) (ctx := uncheckedCtx) (c' := c')
    (hx0 (List.length_pos_iff.mpr hne)) hdec (by
      simp only [ask, Handle.insert, hq, Handle.precheck, show uncheckedCtx.options.pingBeforeQuery = false from rfl]
      simp [hx]) (by simp) he
  have hfirst : ∃ ps, Decodes sampleEnv sampleInfo x (.inl (.block d) :: ps) sampleInfo [] := by
    match hl : chs.length, hdec with
    | 0, _ => exact absurd (List.length_eq_zero_iff.mp hl) hne
    | m + 1, hdec => exact ⟨_, hdec⟩
  obtain ⟨ps, hfirst⟩ := hfirst
  exact ⟨x, n, h', _, ⟨d, ps, hd, hfirst⟩, g, exOn_issued _ _, rfl, he, exLots_rows m, hq, ⟨by decide, by decide, by decide, by nofun, ⟨⟨0, emptyBlock_ok _ _⟩, nofun⟩⟩,
    fun d hd => ⟨exLots_suits (by omega) hd, exLots_free hd⟩⟩

/-- Any number of values converted to the type of the table, in as many pieces as it takes, with the check beforehand. -/
theorem exLots_inserted_checked (m : Nat) (h0 : 0 < m) (hm : m < 2 ^ 56 - 1) : ∃ bs n h' q, (∃ d ps, header d = header exLotsTable ∧
        Decodes sampleEnv sampleInfo bs (.inl .pong :: .inl (.block d) :: ps) sampleInfo []) ∧ AskS sampleEnv (fun c => c.isDigit) (fun x t => x.castTo parseSome t)
        ⟨some (exOn bs n), sampleCtx, .attached⟩ [] (.insert ⟨"t", ""⟩ (exLots m)) (.items []) h' ∧
      IssuedIn sampleEnv ⟨some (exOn bs n), sampleCtx, .attached⟩ [] ∧ sampleCtx.options.pingBeforeQuery = true ∧
      DataEncodes sampleEnv (fun x t => x.castTo parseSome t) sampleCtx (.insert ⟨"t", ""⟩ (exLots m)) ∧ (exLots m).rowCount = .ok m ∧
      makeQuery (fun c => c.isDigit) ⟨"t", ""⟩ (exLots m) = .ok q ∧ QueryOK sampleEnv (fun _ => .number) "UTC".toList q sampleCtx ∧
      ∀ d, header d = header exLotsTable → GoesInto parseSome (fun _ => true) "UTC".toList m (exLots m) d ∧
        ∀ t ∈ d.columns, ListFree t.data.sqlType := by
  obtain ⟨hdr, d, -, hd, hp⟩ := exLots_header
  have hc := exLots_castTo m hd
  obtain ⟨chs, fs, parts, w1, w2, w3, w4, w5⟩ := C78_large_cast_partial parseSome exKept_parse (fun _ => true) "UTC".toList m h0 hm
    (exLots m) d _ (exLots_rows m) (exLots_suits (by omega) hd) (.inr (exLots_free hd)) hc
  have hne : chs ≠ [] := by
    rintro rfl
    rw [List.length_eq_zero_iff.mp w2] at w4
    have := congrArg List.length w4.2.2
    simp [saidRows] at this
    omega
  obtain ⟨x, hdec, -⟩ := rounds_bytes hp chs.length
  have hq : makeQuery (fun c => c.isDigit) ⟨"t", ""⟩ (exLots m) = .ok ⟨"INSERT INTO t (`x`) VALUES", ""⟩ :=
    show makeQuery (fun c => c.isDigit) ⟨"t", ""⟩ (exLots 0) = _ from rfl
  obtain ⟨c', hx⟩ := rounds_cast (cast := fun x t => x.castTo parseSome t) d (exLots m) _ sampleCtx ⟨"INSERT INTO t (`x`) VALUES", ""⟩ chs hc w1 hne [.ping]
  have he := exLots_encodes h0 (by omega) sampleCtx rfl ⟨"t", ""⟩
  obtain ⟨n, h', g⟩ := exOn_asks (numeric := fun c => c.isDigit) (cast := fun x t => x.castTo parseSome t) (bs := 4 :: x)
    (ps := .pong :: rounds d chs.length) (a := .insert ⟨"t", ""⟩ (exLots m)) (o := []) (ctx := sampleCtx) (c' := c')
    (by simp) (.packet (pong_parse _ _ _) (.other (by simp)) hdec) (by
      simp only [ask, Handle.insert, hq, List.map_cons, exOn_precheck, hx]) (by simp) he
  have hfirst : ∃ ps, Decodes sampleEnv sampleInfo x (.inl (.block d) :: ps) sampleInfo [] := by
    match hl : chs.length, hdec with
    | 0, _ => exact absurd (List.length_eq_zero_iff.mp hl) hne
    | m + 1, hdec => exact ⟨_, hdec⟩
  obtain ⟨ps, hfirst⟩ := hfirst
  exact ⟨4 :: x, n, h', _, ⟨d, ps, hd, .packet (pong_parse _ _ _) (.other (by simp)) hfirst⟩, g, fun k e => by cases e; exact exOn_issued _ _, rfl, he, exLots_rows m, hq, ⟨by decide, by decide, by decide, by nofun, ⟨⟨0, emptyBlock_ok _ _⟩, nofun⟩⟩,
    fun d hd => ⟨exLots_suits (by omega) hd, exLots_free hd⟩⟩

/-- The hypotheses of `C91_large_partial`. -/
example (m : Nat) (h0 : 0 < m) (hm : m < 2 ^ 56 - 1) : ∃ bs n h' q, AskS sampleEnv (fun c => c.isDigit) (fun x t => x.castTo parseSome t)
        ⟨some (exOn bs n), uncheckedCtx, .attached⟩ [] (.insert ⟨"t", ""⟩ (exLots m)) (.items []) h' ∧
      Issued sampleEnv (exOn bs n) [] ∧ uncheckedCtx.options.pingBeforeQuery = false ∧
      DataEncodes sampleEnv (fun x t => x.castTo parseSome t) uncheckedCtx (.insert ⟨"t", ""⟩ (exLots m)) ∧ (exLots m).rowCount = .ok m ∧
      makeQuery (fun c => c.isDigit) ⟨"t", ""⟩ (exLots m) = .ok q ∧ QueryOK sampleEnv (fun _ => .number) "UTC".toList q uncheckedCtx ∧
      ∀ d, header d = header exLotsTable → GoesInto parseSome (fun _ => true) "UTC".toList m (exLots m) d ∧
        ∀ t ∈ d.columns, ListFree t.data.sqlType := by
  obtain ⟨bs, n, h', q, -, h⟩ := exLots_inserted m h0 hm
  exact ⟨bs, n, h', q, h⟩

/-- The hypotheses of `C91_large_checked_partial`. -/
example (m : Nat) (h0 : 0 < m) (hm : m < 2 ^ 56 - 1) : ∃ bs n h' q, AskS sampleEnv (fun c => c.isDigit) (fun x t => x.castTo parseSome t)
        ⟨some (exOn bs n), sampleCtx, .attached⟩ [] (.insert ⟨"t", ""⟩ (exLots m)) (.items []) h' ∧
      IssuedIn sampleEnv ⟨some (exOn bs n), sampleCtx, .attached⟩ [] ∧ IssuedWorld sampleEnv [] ∧ sampleCtx.options.pingBeforeQuery = true ∧
      DataEncodes sampleEnv (fun x t => x.castTo parseSome t) sampleCtx (.insert ⟨"t", ""⟩ (exLots m)) ∧ (exLots m).rowCount = .ok m ∧
      makeQuery (fun c => c.isDigit) ⟨"t", ""⟩ (exLots m) = .ok q ∧ QueryOK sampleEnv (fun _ => .number) "UTC".toList q sampleCtx ∧
      ∀ d, header d = header exLotsTable → GoesInto parseSome (fun _ => true) "UTC".toList m (exLots m) d ∧
        ∀ t ∈ d.columns, ListFree t.data.sqlType := by
  obtain ⟨bs, n, h', q, -, h1, h2, h3⟩ := exLots_inserted_checked m h0 hm
  exact ⟨bs, n, h', q, h1, h2, nofun, h3⟩

end CH.Props
