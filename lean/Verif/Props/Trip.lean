import Verif.Lemmas.Trip
import Verif.Props.Large

/-! What was inserted is what is selected, over any two sockets. -/

namespace CH.Props
open CH CH.Spec CH.Socket CH.Outage CH.WrittenOut CH.Trip

/-- C92. What a client sends for an INSERT can be read in one way only: two servers (or a server and a proxy) that follow the protocol and
the native format, and know the types of the table, find the same rows in the same bytes. -/
theorem C92_one_reading (env : Env) (kind : String → SettingKind) (known : Tz → Bool) (tz tz' : Tz) (q : Query) (ctx : Context)
    (types : List SqlType) (hne : types ≠ []) (ht : ∀ t ∈ types, Flat t ∧ MapFree t ∧ Nameable known t) (b : Bytes)
    (p p' : List (Nat × List Field)) (h : Understood env kind tz tz' q ctx types b p) (h' : Understood env kind tz tz' q ctx types b p') :
    p = p' := understood_same hne ht h h'

theorem understood_rounds {env : Env} {kind : String → SettingKind} {tz tz' : Tz} {q : Query} {ctx : Context} {types : List SqlType}
    {stmt empty : Bytes} (hs : Stated env kind tz' q ctx stmt) (he : BlockLaid tz BlockInfo.default 0 [] empty) (hl : empty.length < 2 ^ 56) :
    ∀ {parts : List (Nat × List Field × Bytes)} {rows : List Bytes}, rows.length = parts.length →
      (∀ p ∈ parts, p.2.1.map (·.type) = types ∧ BlockLaid tz BlockInfo.default p.1 p.2.1 p.2.2 ∧ p.2.2.length < 2 ^ 56 ∧ p.1 < 2 ^ 64) →
      (∀ (i : Nat) p r, parts[i]? = some p → rows[i]? = some r → RowsPackets env.codec ctx.options.compression p.2.2 empty r) →
      Understood env kind tz tz' q ctx types (rows.flatMap (stmt ++ ·)) (parts.map fun p => (p.1, p.2.1)) := by
  intro parts
  induction parts with
  | nil =>
    intro rows h1 _ _
    rw [List.length_eq_zero_iff.mp h1]
    exact .nil
  | cons p parts ih =>
    intro rows h1 h2 h3
    match rows, h1 with
    | r :: rows, h1 =>
      obtain ⟨x, y, hx, hy, rfl⟩ := h3 0 p r rfl rfl
      obtain ⟨a1, a2, a3, a4⟩ := h2 p (by simp)
      rw [List.flatMap_cons]
      exact .cons hs a1 a2 a3 a4 hx he hl hy (ih (by simpa using h1) (fun p hp => h2 p (by simp [hp]))
        fun i p r e1 e2 => h3 (i + 1) p r (by simpa using e1) (by simpa using e2))

theorem empty_short {empty : Bytes} (h : Block.new.write = .ok empty) : empty.length < 2 ^ 56 := by
  have e : Block.new.write = .ok (putBlockInfo BlockInfo.default ++ putUvarint 0 ++ putUvarint 0 ++ []) := rfl
  rw [e] at h
  cases h
  decide +kernel

/-- The rows of a table that holds the block: row `j` has the counterparts of the block's cells. -/
theorem table_rows {parse : IpKind → String → Option Bytes} {tz : Tz} {b table : Block} {n : Nat} {fs : List Field}
    (hlen : b.columns.length = table.columns.length) (h : TableHolds parse tz b table n fs) :
    (saidRows (.block BlockInfo.default n fs)).length = n ∧
    ∀ (j : Nat) row, (saidRows (.block BlockInfo.default n fs))[j]? = some row → row.length = b.columns.length ∧
      ∀ (i : Nat) col tcol, b.columns[i]? = some col → table.columns[i]? = some tcol →
        ∃ v u, cell col.data j = some v ∧ convert parse tz tcol.data.sqlType v = some u ∧ row[i]? = some u := by
  have hcells : ∀ f ∈ fs, f.cells.length = n := by
    intro f hf
    obtain ⟨k, hk, rfl⟩ := List.mem_iff_getElem.mp hf
    have h1 : k < b.columns.length := by rw [← h.1]; exact hk
    exact (h.2 k _ _ _ (List.getElem?_eq_getElem h1) (List.getElem?_eq_getElem (by omega)) (List.getElem?_eq_getElem hk)).2.2.1
  refine ⟨by simp [saidRows], fun j row hrow => ?_⟩
  rw [saidRows, List.getElem?_map] at hrow
  obtain ⟨j', hj', rfl⟩ := Option.map_eq_some_iff.mp hrow
  obtain ⟨hj, rfl⟩ : j < n ∧ j = j' := by
    obtain ⟨h1, h2⟩ := List.getElem?_eq_some_iff.mp hj'
    simp only [List.length_range] at h1
    rw [List.getElem_range] at h2
    exact ⟨h1, h2⟩
  have hget := rows_zip hcells hj
  refine ⟨?_, fun k col tcol h1 h2 => ?_⟩
  · rw [← h.1]
    apply Nat.le_antisymm
    · exact List.length_filterMap_le _ _
    · apply Nat.le_of_not_lt
      intro hlt
      have e := hget (fs.filterMap fun f => f.cells[j]?).length
      rw [List.getElem?_eq_none (Nat.le_refl _), List.getElem?_eq_getElem hlt] at e
      simp only [Option.bind_some] at e
      rw [List.getElem?_eq_getElem (by rw [hcells _ (List.getElem_mem hlt)]; exact hj)] at e
      cases e
  · have hk : k < fs.length := by rw [h.1]; exact (List.getElem?_eq_some_iff.mp h1).1
    obtain ⟨-, -, -, hx⟩ := h.2 k col tcol _ h1 h2 (List.getElem?_eq_getElem hk)
    obtain ⟨v, u, e1, e2, e3⟩ := hx j hj
    refine ⟨v, u, e1, e2, ?_⟩
    rw [hget k, List.getElem?_eq_getElem hk]
    exact e3

/-- What the commands of an INSERT are on the wire: bytes that can be read as the converted rows. -/
theorem trip_written {env : Env} {parse : IpKind → String → Option Bytes} (hparse : ∀ k s b, parse k s = some b → b.length = k.size)
    {known : Tz → Bool} {kind : String → SettingKind} {tz tz' : Tz} {ctx : Context} {q : Query} {b d b' : Block} {n : Nat} {before : List Cmd}
    {chs : List Block} {out : Bytes} (hr : b.rowCount = .ok n) (h0 : 0 < n) (hn : n < 2 ^ 56 - 1) (hk : QueryOK env kind tz' q ctx)
    (hs : GoesInto parse known tz n b d) (hl : n ≤ 1048576 ∨ ∀ t ∈ d.columns, ListFree t.data.sqlType)
    (hfit : FitsFrames parse env.codec ctx.options.compression b d)
    (g3 : b.castTo parse d = .ok b') (g4 : insertChunks b' = .ok chs)
    (g5 : out = cmdBytes env.codec (before ++ pieceCmds q ctx chs)) :
    ∃ bytes fs pieces, out = cmdBytes env.codec before ++ bytes ∧ TableHolds parse tz b d n fs ∧
      pieceRows pieces = saidRows (.block BlockInfo.default n fs) ∧
      Understood env kind tz tz' q ctx (d.columns.map (·.data.sqlType)) bytes pieces ∧ d.columns.map (·.data.sqlType) ≠ [] ∧
      ∀ t ∈ d.columns.map (·.data.sqlType), Flat t ∧ KeysHash t ∧ Nameable known t := by
  obtain ⟨chs', fs, parts, w1, w2, w3, w4, w5⟩ := C78_large_cast_partial parse hparse known tz n h0 hn b d b' hr hs hl g3
  rw [g4] at w1
  cases w1
  have hparts : ∀ p ∈ parts, (p.1 ≤ 1048576 ∧ BlockLaid tz BlockInfo.default p.1 p.2.1 p.2.2 ∧ p.2.1.map (·.type) = fs.map (·.type)) ∧
      (p.2.2.length < 2 ^ 56 ∧ (ctx.options.compression = true → Packs env.codec p.2.2)) := by
    intro p hp
    obtain ⟨i, hi, rfl⟩ := List.mem_iff_getElem.mp hp
    have hi' : i < chs.length := w2 ▸ hi
    obtain ⟨-, a2, a3, a4, a5⟩ := w5 i _ _ (List.getElem?_eq_getElem hi') (List.getElem?_eq_getElem hi)
    exact ⟨⟨a2, a4, by simpa [List.map_map, Function.comp_def] using congrArg (List.map Prod.snd) a5⟩,
      hfit.1 b' chs _ _ g3 g4 (List.getElem_mem hi') a3⟩
  have hbne : b.columns ≠ [] := by
    intro e
    rw [Block.rowCount, e] at hr
    injection hr with hr
    omega
  have hty : fs.map (·.type) = d.columns.map (·.data.sqlType) := by
    apply List.ext_getElem (by rw [List.length_map, List.length_map, w3.1, hs.width])
    intro i e1 e2
    simp only [List.length_map] at e1 e2
    have e3 : i < b.columns.length := by rw [← w3.1]; exact e1
    rw [List.getElem_map, List.getElem_map]
    exact (w3.2 i _ _ _ (List.getElem?_eq_getElem e3) (List.getElem?_eq_getElem e2) (List.getElem?_eq_getElem e1)).2.1
  obtain ⟨empty, l1, l2, l3⟩ := written_parts (tz := tz) hk w2 (fun i x p h1 h2 => (w5 i x p h1 h2).2.2.1) g5
  obtain ⟨stmt, rows, r1, r2, r3, r4⟩ := l3 fun hc => ⟨fun p hp => (hparts p hp).2.2 hc, hfit.2 _ l1 hc⟩
  have hu := understood_rounds (types := d.columns.map (·.data.sqlType)) r2 l2 (empty_short l1) r3 (fun p hp => by
    obtain ⟨⟨a1, a2, a3⟩, a4, -⟩ := hparts p hp
    exact ⟨a3.trans hty, a2, a4, by omega⟩) r4
  have hdne : d.columns ≠ [] := by
    intro e
    have := hs.width
    rw [e] at this
    exact hbne (List.length_eq_zero_iff.mp this)
  refine ⟨_, fs, _, r1, w3, ?_, hu, by simpa using hdne, fun t ht => ?_⟩
  rotate_left
  · obtain ⟨c, hc, rfl⟩ := List.mem_map.mp ht
    obtain ⟨i, hi, rfl⟩ := List.mem_iff_getElem.mp hc
    have hi' : i < b.columns.length := by rw [hs.width]; exact hi
    obtain ⟨x1, x2, x3, -⟩ := hs.columns i _ _ (List.getElem?_eq_getElem hi') (List.getElem?_eq_getElem hi)
    exact ⟨x2, x3, x1.named⟩
  rw [← w4.2.2, pieceRows, List.flatMap_map, List.flatMap_map]

/-- C92. An INSERT of any number of rows is reported as done over one socket. Then what that socket has taken for it can be read as rows for
the table, and for every server that reads it so and gives the rows back in an answer over another socket, in whatever blocks, frames and
parts: a query there that gives the blocks `bs` and then ends has given the rows of the user's block, converted cell by cell to the types
of the table. (`_partial`: for the conversions and types of `C91_large_partial` and `C89_whole_partial`, and without maps; with arrays only in
what is sent as one piece, see `C17_array_chunk_violated`.) -/
theorem C92_round_trip_partial (env : Env) (numeric : Char → Bool) (parse : IpKind → String → Option Bytes)
    (hparse : ∀ k s b, parse k s = some b → b.length = k.size) (known : Tz → Bool) (kind : String → SettingKind) (tz tz' : Tz) (k : Sock)
    (ctx : Context) (bd : Binding) (h' : HandleS) (w : WorldS) (t q : Query) (b : Block) (n : Nat) (log : List Cmd) (hi : Issued env k log)
    (hp : ctx.options.pingBeforeQuery = false) (he : DataEncodes env (fun x t => x.castTo parse t) ctx (.insert t b))
    (hr : b.rowCount = .ok n) (h0 : 0 < n) (hn : n < 2 ^ 56 - 1) (hq : makeQuery numeric t b = .ok q) (hk : QueryOK env kind tz' q ctx)
    (ha : AskS env numeric (fun x t => x.castTo parse t) ⟨some k, ctx, bd⟩ w (.insert t b) (.items []) h') :
    ∃ table ps k', Heads k.t.inconsistent table ps ∧ Delivers env k ps ∧ h'.inner = some k' ∧
      (GoesInto parse known tz n b table → (n ≤ 1048576 ∨ ∀ t ∈ table.columns, ListFree t.data.sqlType) →
        (∀ t ∈ table.columns, MapFree t.data.sqlType) →
        FitsFrames parse env.codec ctx.options.compression b table →
        ∃ bytes, k'.writer.out = cmdBytes env.codec (log ++ cancelFirst k) ++ bytes ∧
          (∃ pieces, Understood env kind tz tz' q ctx (table.columns.map (·.data.sqlType)) bytes pieces) ∧
          ∀ pieces, Understood env kind tz tz' q ctx (table.columns.map (·.data.sqlType)) bytes pieces →
          ∀ (k2 : Sock) (ctx2 : Context) (bd2 : Binding) (w2 : WorldS) (q2 : Query) (skip : Bool) (bs : List Block) (h2 : HandleS) (log2 : List Cmd)
            (tz2 : Tz) (said : List Said) (ans more : Bytes), Issued env k2 log2 → ctx2.options.pingBeforeQuery = false →
            AskS env numeric (fun x t => x.castTo parse t) ⟨some k2, ctx2, bd2⟩ w2 (.select q2 skip (bs.length + 1)) (.items (bs.map .block ++ [.ended])) h2 →
            k2.t.info.timezone = some tz2 → k2.t.rd ++ received k2.revs = ans ++ more →
            AnswerLaid env.codec tz2 k2.t.info.revision k2.t.info.compress said ans → (∀ m ∈ said, Readable env.known m ∧ Mapless m) →
            (skip = true → ∃ before i cols after, said = before ++ .block i 0 cols :: after ∧ ∀ m ∈ before, ∀ i r c, m ≠ .block i r c) →
            said.flatMap saidRows = pieceRows pieces →
            ∃ rows : List (List Value), answerRows bs = rows.map (·.map .ok) ∧ rows.length = n ∧
              ∀ (j : Nat) row, rows[j]? = some row → row.length = b.columns.length ∧
                ∀ (i : Nat) col tcol, b.columns[i]? = some col → table.columns[i]? = some tcol →
                  ∃ v u, cell col.data j = some v ∧ convert parse tz tcol.data.sqlType v = some u ∧ row[i]? = some u) := by
  obtain ⟨h1, w1, k1, k', hpc, hin, hx, ho⟩ := insert_of hq ha
  cases hpc with
  | ok hp' => simp only at hp'; rw [hp] at hp'; cases hp'
  | failed _ _ hn => exact absurd rfl hn
  | off =>
    cases hin
    obtain ⟨d, b', chs, ps, g1, g2, g3, g4, g5⟩ := insert_done hi he hx
    refine ⟨d, ps, k', g1, g2, ho, fun hs hl hmf hfit => ?_⟩
    obtain ⟨bytes, fs, pieces0, t1, t2, t3, t4, t6, t7⟩ := trip_written hparse hr h0 hn hk hs hl hfit g3 g4 g5
    have t5 := fun p hp => (understood_same (p' := p) t6 (fun t ht => ⟨(t7 t ht).1, by
      obtain ⟨c, hc, rfl⟩ := List.mem_map.mp ht
      exact hmf c hc, (t7 t ht).2.2⟩) t4 hp).symm
    refine ⟨bytes, t1, ⟨_, t4⟩, fun pieces hpc k2 ctx2 bd2 w2 q2 skip bs h2 log2 tz2 said ans more i2 p2 a2 z2 b2 n2 d2 f2 s2 => ?_⟩
    obtain ⟨said', y1, y2⟩ := C89_whole_partial env numeric _ k2 ctx2 bd2 w2 q2 skip bs h2 log2 i2 p2 a2 z2 b2 n2 (fun m hm => (d2 m hm).1) f2
    rw [y1.2.2 fun m hm => (d2 m hm).2, s2, t5 _ hpc, t3] at y2
    obtain ⟨m1, m3⟩ := table_rows hs.width t2
    exact ⟨_, y2, m1, m3⟩

/-- C92. The same with the check before both operations, as it is by default: the INSERT went to the connection of the handle or to one that
reconnecting gave, and so did the query. -/
theorem C92_round_trip_checked_partial (env : Env) (numeric : Char → Bool) (parse : IpKind → String → Option Bytes)
    (hparse : ∀ k s b, parse k s = some b → b.length = k.size) (known : Tz → Bool) (kind : String → SettingKind) (tz tz' : Tz)
    (h h' : HandleS) (w : WorldS) (t q : Query) (b : Block) (n : Nat) (log : List Cmd) (hi : IssuedIn env h log) (hw : IssuedWorld env w)
    (hp : h.context.options.pingBeforeQuery = true) (he : DataEncodes env (fun x t => x.castTo parse t) h.context (.insert t b))
    (hr : b.rowCount = .ok n) (h0 : 0 < n) (hn : n < 2 ^ 56 - 1) (hq : makeQuery numeric t b = .ok q) (hk : QueryOK env kind tz' q h.context)
    (ha : AskS env numeric (fun x t => x.castTo parse t) h w (.insert t b) (.items []) h') :
    ∃ k lg table ls ps k', (h.inner = some k ∧ lg = log ∨ some k ∈ w) ∧ Issued env k lg ∧ Cleared k.t.inconsistent ls ∧ Heads false table ps ∧
      Delivers env k (ls ++ [.pong] ++ ps) ∧ h'.inner = some k' ∧
      (GoesInto parse known tz n b table → (n ≤ 1048576 ∨ ∀ t ∈ table.columns, ListFree t.data.sqlType) →
        (∀ t ∈ table.columns, MapFree t.data.sqlType) →
        FitsFrames parse env.codec h.context.options.compression b table →
        ∃ bytes, k'.writer.out = cmdBytes env.codec (lg ++ cancelFirst k ++ [.ping]) ++ bytes ∧
          (∃ pieces, Understood env kind tz tz' q h.context (table.columns.map (·.data.sqlType)) bytes pieces) ∧
          ∀ pieces, Understood env kind tz tz' q h.context (table.columns.map (·.data.sqlType)) bytes pieces →
          ∀ (h2 h2' : HandleS) (w2 : WorldS) (q2 : Query) (skip : Bool) (bs : List Block) (log2 : List Cmd) (said : Sock → List Said),
            IssuedIn env h2 log2 → IssuedWorld env w2 → h2.context.options.pingBeforeQuery = true →
            AskS env numeric (fun x t => x.castTo parse t) h2 w2 (.select q2 skip (bs.length + 1)) (.items (bs.map .block ++ [.ended])) h2' →
            (∀ k, h2.inner = some k ∨ some k ∈ w2 → k.t.inconsistent = false ∧ (∀ m ∈ said k, Readable env.known m ∧ Mapless m) ∧
              (said k).flatMap saidRows = pieceRows pieces ∧
              ∃ tz b more, k.t.info.timezone = some tz ∧ k.t.rd ++ received k.revs = 4 :: (b ++ more) ∧
                AnswerLaid env.codec tz k.t.info.revision k.t.info.compress (said k) b) →
            (skip = true → ∀ k, h2.inner = some k ∨ some k ∈ w2 →
              ∃ before i cols after, said k = before ++ .block i 0 cols :: after ∧ ∀ m ∈ before, ∀ i r c, m ≠ .block i r c) →
            ∃ rows : List (List Value), answerRows bs = rows.map (·.map .ok) ∧ rows.length = n ∧
              ∀ (j : Nat) row, rows[j]? = some row → row.length = b.columns.length ∧
                ∀ (i : Nat) col tcol, b.columns[i]? = some col → table.columns[i]? = some tcol →
                  ∃ v u, cell col.data j = some v ∧ convert parse tz tcol.data.sqlType v = some u ∧ row[i]? = some u) := by
  obtain ⟨h1, w1, k1, k', hpc, hin, hx, ho⟩ := insert_of hq ha
  have hctx := precheck_context hpc
  rw [hctx] at hx
  obtain ⟨k, k1', g1, g2, g3⟩ := precheck_used hpc hp
  rw [hin] at g3
  cases g3
  obtain ⟨lg, hk', hj⟩ : ∃ lg, Issued env k lg ∧ (h.inner = some k ∧ lg = log ∨ some k ∈ w) := by
    rcases g1 with e | e
    · exact ⟨log, hi k e, .inl ⟨e, rfl⟩⟩
    · obtain ⟨lg, hl⟩ := hw k e
      exact ⟨lg, hl, .inr e⟩
  obtain ⟨d, b', chs, ls, ps, m1, m2, m3, m4, m5, m6⟩ := insert_done_checked hk' g2 he hx
  refine ⟨k, lg, d, ls, ps, k', hj, hk', m1, m2, m3, ho, fun hs hl hmf hfit => ?_⟩
  obtain ⟨bytes, fs, pieces0, t1, t2, t3, t4, t6, t7⟩ := trip_written hparse hr h0 hn hk hs hl hfit m4 m5 m6
  have t5 := fun p hp => (understood_same (p' := p) t6 (fun t ht => ⟨(t7 t ht).1, by
    obtain ⟨c, hc, rfl⟩ := List.mem_map.mp ht
    exact hmf c hc, (t7 t ht).2.2⟩) t4 hp).symm
  refine ⟨bytes, t1, ⟨_, t4⟩, fun pieces hpc h2 h2' w2 q2 skip bs log2 said i2 iw2 p2 a2 hc hh => ?_⟩
  obtain ⟨k2, said', y0, y1, y2⟩ := C89_checked_partial env numeric _ h2 h2' w2 q2 skip bs log2 i2 iw2 p2 a2 said
    (fun k e => ⟨(hc k e).1, fun m hm => ((hc k e).2.1 m hm).1, (hc k e).2.2.2⟩) hh
  rw [y1.2.2 fun m hm => ((hc k2 y0).2.1 m hm).2, (hc k2 y0).2.2.1, t5 _ hpc, t3] at y2
  obtain ⟨n1, n3⟩ := table_rows hs.width t2
  exact ⟨_, y2, n1, n3⟩

/-- A server that gives back what it has read. -/
theorem exEcho {env : Env} {kind : String → SettingKind} {tz tz' : Tz} {q : Query} {ctx : Context} {types : List SqlType} (rev : Nat)
    (hne : types ≠ []) (ht : ∀ t ∈ types, Flat t ∧ MapFree t ∧ Nameable env.known t) {b : Bytes} {p : List (Nat × List Field)}
    (h : Understood env kind tz tz' q ctx types b p) : ∃ said x, InTurn (SaidLaid env.codec tz rev false) said x ∧
      (∀ m ∈ said, Readable env.known m ∧ Mapless m) ∧ said.flatMap saidRows = pieceRows p := by
  induction h with
  | nil => exact ⟨[], [], .nil, by simp, rfl⟩
  | @cons stmt raw empty x y bytes info info' r fs pieces a1 a2 a3 a4 a5 a6 a7 a8 a9 _ ih =>
    obtain ⟨said, z, h1, h2, h3⟩ := ih
    have hf : ∀ f ∈ fs, Flat f.type ∧ MapFree f.type ∧ Nameable env.known f.type := fun f hf => ht _ (a2 ▸ List.mem_map_of_mem hf)
    refine ⟨.block info r fs :: said, _, .cons (b := [1] ++ [0] ++ raw) ⟨1, "", [0], raw, raw, .inl rfl, ⟨[0], .last rfl (by decide), rfl⟩, a3, ?_, ?_, a4, by decide, rfl⟩ h1, ?_, ?_⟩
    · rintro rfl
      exact absurd a2.symm hne
    · simp [Carried]
    · intro m hm
      rcases List.mem_cons.mp hm with rfl | hm
      · exact ⟨⟨a5, fun f h => ⟨(hf f h).1, mapFree_keys (hf f h).2.1, (hf f h).2.2⟩⟩, fun f h => (hf f h).2.1⟩
      · exact h2 m hm
    · rw [List.flatMap_cons, h3]
      rfl

theorem exOn_bytes (b : Bytes) (n : Nat) : (exOn b n).t.rd ++ received (exOn b n).revs = b := by
  show [] ++ ([] ++ (b ++ [])) = b
  simp

/-- A query so answered, with the check beforehand and without. -/
theorem exEcho_served (ctx : Context) {said : List Said} {x : Bytes} (h : InTurn (SaidLaid sampleEnv.codec "UTC".toList 54450 false) said x)
    (hr : ∀ m ∈ said, Readable sampleEnv.known m) : ∃ (n : Nat) (bs : List Block) (h' : HandleS), AskS sampleEnv (fun c => c.isDigit) (fun x t => x.castTo parseSome t)
      ⟨some (exOn ((if ctx.options.pingBeforeQuery then [4] else []) ++ (x ++ [5])) n), ctx, .attached⟩ []
      (.select sampleQuery false (bs.length + 1)) (.items (bs.map .block ++ [.ended])) h' := by
  obtain ⟨n, bs, said', -, -, g3⟩ := C89_served_partial sampleEnv (fun c => c.isDigit) (fun x t => x.castTo parseSome t) sampleInfo ctx sampleQuery false []
    (tz := "UTC".toList) rfl ⟨x, h, rfl⟩ hr nofun
  obtain ⟨h', h⟩ := g3 (exOn ((if ctx.options.pingBeforeQuery then [4] else []) ++ (x ++ [5])) (n + 1)) (exOn_issued _ _) rfl rfl rfl (exOn_bytes _ _) (by
    intro e he
    simp only [exOn, List.mem_cons, List.not_mem_nil, or_false] at he
    rcases he with rfl | rfl
    · exact .inl rfl
    · exact .inr ⟨_, by simp, rfl⟩) (by
    intro e he
    rw [List.eq_of_mem_replicate (show e ∈ List.replicate (n + 1) (.wrote 1) from he)]
    exact nofun) (by
    rw [show (exOn _ (n + 1)).writer.evs = List.replicate (n + 1) (.wrote 1) from rfl, exLine_accepts]
    show n + 0 < n + 1
    omega)
  exact ⟨n + 1, bs, h', h⟩

/-- What two values make on the wire fits. -/
theorem exLots_fits {d : Block} (h : header d = header exLotsTable) : FitsFrames parseSome sampleEnv.codec false (exLots 2) d := by
  refine ⟨fun b' chs ch raw h1 h2 h3 h4 => ?_, fun _ _ e => by cases e⟩
  rw [exLots_castTo 2 h] at h1
  cases h1
  have e : insertChunks ⟨BlockInfo.default, [⟨"x", .enumAd (.enum .w8 exFew (List.replicate 2 1)) .w8 exMore⟩]⟩ =
    .ok [cut ⟨BlockInfo.default, [⟨"x", .enumAd (.enum .w8 exFew (List.replicate 2 1)) .w8 exMore⟩]⟩ 0 2] := rfl
  rw [e] at h2
  cases h2
  obtain rfl := List.mem_singleton.mp h3
  refine ⟨?_, fun e => by cases e⟩
  have e : ∃ raw, (cut ⟨BlockInfo.default, [⟨"x", .enumAd (.enum .w8 exFew (List.replicate 2 1)) .w8 exMore⟩]⟩ 0 2).write = .ok raw ∧ raw.length < 2 ^ 56 :=
    ⟨_, rfl, by decide +kernel⟩
  obtain ⟨raw', e1, e2⟩ := e
  rw [e1] at h4
  cases h4
  exact e2

/-- The table is the one the server describes first. -/
theorem exLots_first {d table : Block} {x : Bytes} {j : TransportInfo} {rest : Bytes} (pre : List Packet) {ps' : List Packet} {ps : List (Packet ⊕ Err)}
    (g1 : Heads false table ps') (g2 : Decodes sampleEnv sampleInfo x ((pre ++ ps').map .inl) j rest)
    (hdec : Decodes sampleEnv sampleInfo x (pre.map .inl ++ .inl (.block d) :: ps) sampleInfo []) : table = d := by
  obtain ⟨ls, cs, more, hc, hskip, rfl⟩ := g1
  obtain rfl : ls = [] := hc
  match cs, hskip, g2 with
  | [], _, g2 =>
    rcases Whole.compare g2 hdec with ⟨zs, e, -⟩ | ⟨zs, e, -⟩
    · simp at e; exact e.1.symm
    · simp at e; exact e.1
  | c :: cs, hskip, g2 =>
    have e : c = .block d := by
      rcases Whole.compare g2 hdec with ⟨zs, e, -⟩ | ⟨zs, e, -⟩
      · simp at e; exact e.1.symm
      · simp at e; exact e.1
    subst e
    have := hskip (.block d) (List.mem_cons_self ..)
    cases this

theorem exLots_types {d : Block} (h : header d = header exLotsTable) : (∀ t ∈ d.columns, MapFree t.data.sqlType) ∧
    d.columns.map (·.data.sqlType) ≠ [] ∧ ∀ t ∈ d.columns.map (·.data.sqlType), Flat t ∧ MapFree t ∧ Nameable sampleEnv.known t := by
  obtain ⟨c, hc1, hc2⟩ := exLots_table h
  rw [hc1]
  refine ⟨fun t ht => ?_, by simp, fun t ht => ?_⟩
  · obtain rfl := List.mem_singleton.mp ht
    rw [hc2]
    trivial
  · rw [List.map_cons, List.map_nil, hc2] at ht
    obtain rfl := List.mem_singleton.mp ht
    exact ⟨trivial, trivial, (exLots_convertible (m := 0) (by decide)).named⟩

theorem exLots_back {d : Block} (h : header d = header exLotsTable) {rows : List (List Value)} (r2 : rows.length = 2)
    (r3 : ∀ (j : Nat) row, rows[j]? = some row → row.length = (exLots 2).columns.length ∧
      ∀ (i : Nat) col tcol, (exLots 2).columns[i]? = some col → d.columns[i]? = some tcol →
        ∃ v u, cell col.data j = some v ∧ convert parseSome "UTC".toList tcol.data.sqlType v = some u ∧ row[i]? = some u) :
    rows = [[.enum .w8 exMore 1], [.enum .w8 exMore 1]] := by
  obtain ⟨c, hc1, hc2⟩ := exLots_table h
  have hrow : ∀ (j : Nat) (row : List Value), rows[j]? = some row → row = [.enum .w8 exMore 1] := by
    intro j row hj
    obtain ⟨l, hcell⟩ := r3 j row hj
    obtain ⟨v, u, e1, e2, e3⟩ := hcell 0 ⟨"x", .enum .w8 exFew (List.replicate 2 1)⟩ c rfl (by rw [hc1]; rfl)
    rw [hc2] at e2
    have hj2 : j < 2 := by rw [← r2]; exact (List.getElem?_eq_some_iff.mp hj).1
    have : v = .enum .w8 exFew 1 := by
      match j, hj2 with
      | 0, _ => exact (Option.some.inj e1).symm
      | 1, _ => exact (Option.some.inj e1).symm
    subst this
    cases e2
    match row, l with
    | [a], _ => cases e3; rfl
  match rows, r2, hrow with
  | [a, b], _, hrow => rw [hrow 0 a rfl, hrow 1 b rfl]

/-- `C92_round_trip_partial` in full: two values inserted over one socket, and given back over another. -/
example : ∃ (k k2 : Sock) (h' h2 : HandleS) (bs : List Block) (rows : List (List Value)),
    AskS sampleEnv (fun c => c.isDigit) (fun x t => x.castTo parseSome t) ⟨some k, uncheckedCtx, .attached⟩ [] (.insert ⟨"t", ""⟩ (exLots 2)) (.items []) h' ∧
    AskS sampleEnv (fun c => c.isDigit) (fun x t => x.castTo parseSome t) ⟨some k2, uncheckedCtx, .attached⟩ [] (.select sampleQuery false (bs.length + 1))
      (.items (bs.map .block ++ [.ended])) h2 ∧
    answerRows bs = rows.map (·.map .ok) ∧ rows = [[.enum .w8 exMore 1], [.enum .w8 exMore 1]] := by
  obtain ⟨x, n, h', q, ⟨d, ps, hd, hdec⟩, ha, hi, hp, he, hr, hq, hk, hs⟩ := exLots_inserted 2 (by decide) (by decide)
  obtain ⟨table, ps', k', g1, ⟨j, rest, g2⟩, g3, g4⟩ := C92_round_trip_partial sampleEnv _ parseSome exKept_parse (fun _ => true) _ "UTC".toList _ _ _ _ _ _ _ _ _ 2 _
    hi hp he hr (by decide) (by decide) hq hk ha
  rw [exOn_bytes] at g2
  obtain rfl := exLots_first [] g1 g2 hdec
  obtain ⟨ht1, ht2, ht3⟩ := exLots_types hd
  obtain ⟨bytes, -, ⟨pieces, hu⟩, hall⟩ := g4 (hs table hd).1 (.inl (by decide)) ht1 (exLots_fits hd)
  obtain ⟨said, y, s1, s2, s3⟩ := exEcho 54450 ht2 ht3 hu
  obtain ⟨n2, bs, h2, hsel⟩ := exEcho_served uncheckedCtx s1 fun m hm => (s2 m hm).1
  obtain ⟨rows, r1, r2, r3⟩ := hall pieces hu _ _ _ _ _ _ bs h2 [] "UTC".toList said (y ++ [5]) [] (exOn_issued _ _) rfl hsel rfl
    (by rw [exOn_bytes, List.append_nil]; rfl) ⟨y, s1, rfl⟩ s2 (fun e => by cases e) s3
  exact ⟨_, _, h', h2, bs, rows, ha, hsel, r1, exLots_back hd r2 r3⟩

/-- `C92_round_trip_partial` with an array: the row `['a', 'bc']` inserted over one socket, and given back over another. -/
example : ∃ (k k2 : Sock) (h' h2 : HandleS) (bs : List Block) (rows : List (List Value)),
    AskS sampleEnv (fun c => c.isDigit) (fun x t => x.castTo parseSome t) ⟨some k, uncheckedCtx, .attached⟩ [] (.insert ⟨"t", ""⟩ exKept) (.items []) h' ∧
    AskS sampleEnv (fun c => c.isDigit) (fun x t => x.castTo parseSome t) ⟨some k2, uncheckedCtx, .attached⟩ [] (.select sampleQuery false (bs.length + 1))
      (.items (bs.map .block ++ [.ended])) h2 ∧
    answerRows bs = rows.map (·.map .ok) ∧ rows = [[.array .string [.str [97], .str [98, 99]]]] := by
  obtain ⟨x, d, -, hd, hpk⟩ := exKept_header
  have hdec : Decodes sampleEnv sampleInfo (x ++ [5]) ([Packet.block d, .eof].map .inl) sampleInfo [] :=
    .packet (hpk [5]) (.other (by simp)) (.packet (eof_parse _ _) (.other (by simp)) .done)
  have he := exKept_encodes uncheckedCtx rfl ⟨"t", ""⟩
  have hq : makeQuery (fun c => c.isDigit) ⟨"t", ""⟩ exKept = .ok ⟨"INSERT INTO t (`s`) VALUES", ""⟩ := rfl
  obtain ⟨c', hx⟩ := exKept_insert (d := d) hd uncheckedCtx ⟨"INSERT INTO t (`s`) VALUES", ""⟩ []
  obtain ⟨n, h', ha⟩ := exOn_asks (numeric := fun c => c.isDigit) (cast := fun x t => x.castTo parseSome t) (bs := x ++ [5])
    (ps := [.block d, .eof]) (a := .insert ⟨"t", ""⟩ exKept) (o := []) (ctx := uncheckedCtx) (c' := c') (by simp) hdec (by
      simp only [ask, Handle.insert, hq, Handle.precheck, show uncheckedCtx.options.pingBeforeQuery = false from rfl, List.map_cons, List.map_nil]
      simp [hx]) (by simp) he
  obtain ⟨table, ps', k', g1, ⟨j, rest, g2⟩, g3, g4⟩ := C92_round_trip_partial sampleEnv _ parseSome exKept_parse (fun _ => true) (fun _ => .number)
    "UTC".toList "UTC".toList _ _ _ _ _ _ _ _ 1 _ (exOn_issued _ _) rfl he rfl (by decide) (by decide) hq (exKept_query _ rfl rfl rfl) ha
  rw [exOn_bytes] at g2
  obtain rfl := exLots_first [] g1 g2 hdec
  obtain ⟨c, hc1, hc2⟩ := exKept_table hd
  obtain ⟨bytes, -, ⟨pieces, hu⟩, hall⟩ := g4 (exKept_suits hd) (.inl (by decide)) (by
    intro t ht
    rw [hc1] at ht
    obtain rfl := List.mem_singleton.mp ht
    rw [hc2]
    trivial) (by
    refine ⟨fun b' chs ch raw h1 h2 h3 h4 => ?_, fun _ _ e => by cases e⟩
    rw [exKept_castTo hd] at h1
    cases h1
    have e : insertChunks exKept = .ok [cut exKept 0 1] := rfl
    rw [e] at h2
    cases h2
    obtain rfl := List.mem_singleton.mp h3
    refine ⟨?_, fun e => by cases e⟩
    have e : ∃ raw, (cut exKept 0 1).write = .ok raw ∧ raw.length < 2 ^ 56 := ⟨_, rfl, by decide +kernel⟩
    obtain ⟨raw', e1, e2⟩ := e
    rw [e1] at h4
    cases h4
    exact e2)
  obtain ⟨said, y, s1, s2, s3⟩ := exEcho 54450 (by rw [hc1]; simp) (by
    intro t ht
    rw [hc1, List.map_cons, List.map_nil, hc2] at ht
    obtain rfl := List.mem_singleton.mp ht
    exact ⟨trivial, trivial, exKept_convertible.named⟩) hu
  obtain ⟨n2, bs, h2, hsel⟩ := exEcho_served uncheckedCtx s1 fun m hm => (s2 m hm).1
  obtain ⟨rows, r1, r2, r3⟩ := hall pieces hu _ _ _ _ _ _ bs h2 [] "UTC".toList said (y ++ [5]) [] (exOn_issued _ _) rfl hsel rfl
    (by rw [exOn_bytes, List.append_nil]; rfl) ⟨y, s1, rfl⟩ s2 (fun e => by cases e) s3
  refine ⟨_, _, h', h2, bs, rows, ha, hsel, r1, ?_⟩
  match rows, r2, r3 with
  | [row], _, r3 =>
    obtain ⟨l, hcell⟩ := r3 0 row rfl
    obtain ⟨v, u, e1, e2, e3⟩ := hcell 0 _ c rfl (by rw [hc1]; rfl)
    rw [hc2] at e2
    cases e1
    cases e2
    match row, l with
    | [a], _ => cases e3; rfl

/-- `C92_round_trip_checked_partial` in full: the same with the check before both. -/
example : ∃ (k k2 : Sock) (h' h2 : HandleS) (bs : List Block) (rows : List (List Value)),
    AskS sampleEnv (fun c => c.isDigit) (fun x t => x.castTo parseSome t) ⟨some k, sampleCtx, .attached⟩ [] (.insert ⟨"t", ""⟩ (exLots 2)) (.items []) h' ∧
    AskS sampleEnv (fun c => c.isDigit) (fun x t => x.castTo parseSome t) ⟨some k2, sampleCtx, .attached⟩ [] (.select sampleQuery false (bs.length + 1))
      (.items (bs.map .block ++ [.ended])) h2 ∧
    answerRows bs = rows.map (·.map .ok) ∧ rows = [[.enum .w8 exMore 1], [.enum .w8 exMore 1]] := by
  obtain ⟨x, n, h', q, ⟨d, ps, hd, hdec⟩, ha, hi, hp, he, hr, hq, hk, hs⟩ := exLots_inserted_checked 2 (by decide) (by decide)
  obtain ⟨k, lg, table, ls, ps', k', hj, -, g0, g1, ⟨j, rest, g2⟩, g3, g4⟩ := C92_round_trip_checked_partial sampleEnv _ parseSome exKept_parse (fun _ => true) _
    "UTC".toList _ _ _ _ _ _ _ 2 _ hi (fun k e => by cases e) hp he hr (by decide) (by decide) hq hk ha
  obtain rfl : exOn x n = k := by
    rcases hj with ⟨e, -⟩ | e
    · cases e; rfl
    · cases e
  obtain rfl : ls = [] := g0
  rw [exOn_bytes] at g2
  obtain rfl := exLots_first [.pong] g1 g2 hdec
  obtain ⟨ht1, ht2, ht3⟩ := exLots_types hd
  obtain ⟨bytes, -, ⟨pieces, hu⟩, hall⟩ := g4 (hs table hd).1 (.inl (by decide)) ht1 (exLots_fits hd)
  obtain ⟨said, y, s1, s2, s3⟩ := exEcho 54450 ht2 ht3 hu
  obtain ⟨n2, bs, h2, hsel⟩ := exEcho_served sampleCtx s1 fun m hm => (s2 m hm).1
  obtain ⟨rows, r1, r2, r3⟩ := hall pieces hu _ _ _ _ _ bs [] (fun _ => said) (fun k e => by cases e; exact exOn_issued _ _) (fun k e => by cases e) rfl hsel
    (fun k e => by
      rcases e with e | e
      · cases e
        exact ⟨rfl, s2, s3, "UTC".toList, y ++ [5], [], rfl, by rw [exOn_bytes, List.append_nil]; rfl, ⟨y, s1, rfl⟩⟩
      · cases e) (fun e => by cases e)
  exact ⟨_, _, h', h2, bs, rows, ha, hsel, r1, exLots_back hd r2 r3⟩

/-- The hypotheses of `C92_one_reading`: bytes that can be read, as pieces that are not empty, for a table of enums. -/
example : ∃ q bytes pieces, Understood sampleEnv (fun _ => .number) "UTC".toList "UTC".toList q uncheckedCtx [.enum .w8 exMore] bytes pieces ∧
    (∀ p', Understood sampleEnv (fun _ => .number) "UTC".toList "UTC".toList q uncheckedCtx [.enum .w8 exMore] bytes p' → p' = pieces) ∧
    (pieceRows pieces).length = 2 := by
  obtain ⟨-, -, -, q, -, -, -, -, -, -, -, hk, -⟩ := exLots_inserted 2 (by decide) (by decide)
  obtain ⟨stmt, -, hst⟩ := stated hk
  obtain ⟨empty, fs0, l1, l2, l3, -⟩ := C76_block_write_partial "UTC".toList 0 Block.new rfl (by decide) (by decide) (by simp [Block.new])
  rw [(List.length_eq_zero_iff.mp l3 : fs0 = [])] at l2
  obtain ⟨chunks, fs, parts, h1, h2, h3, h4, h5⟩ := C78_large_cast_partial parseSome exKept_parse (fun _ => true) "UTC".toList 2 (by decide) (by decide)
    (exLots 2) exLotsTable _ (exLots_rows 2) (exLots_suits (by decide) rfl) (.inl (by decide)) (exLots_castTo 2 rfl)
  have hfs : fs.map (·.type) = [.enum .w8 exMore] := by
    match fs, h3 with
    | [f], h3 => rw [List.map_cons, List.map_nil, (h3.2 0 _ _ f rfl rfl rfl).2.1]; rfl
    | [], h3 => cases h3.1
    | _ :: _ :: _, h3 => cases h3.1
  have hu := understood_rounds (q := q) (ctx := uncheckedCtx) (types := [.enum .w8 exMore]) hst l2 (empty_short l1) (parts := parts)
    (rows := parts.map fun p => [2, 0] ++ p.2.2 ++ ([2, 0] ++ empty)) (by simp) (fun p hp => by
      obtain ⟨i, hi, rfl⟩ := List.mem_iff_getElem.mp hp
      have hi' : i < chunks.length := h2 ▸ hi
      obtain ⟨-, a2, a3, a4, a5⟩ := h5 i _ _ (List.getElem?_eq_getElem hi') (List.getElem?_eq_getElem hi)
      refine ⟨?_, a4, ((exLots_fits rfl).1 _ _ _ _ (exLots_castTo 2 rfl) h1 (List.getElem_mem hi') a3).1, by omega⟩
      rw [← hfs]
      simpa [List.map_map, Function.comp_def] using congrArg (List.map Prod.snd) a5) (fun i p r e1 e2 => by
      rw [List.getElem?_map, e1] at e2
      cases e2
      exact ⟨p.2.2, empty, by simp [Carried, show uncheckedCtx.options.compression = false from rfl],
        by simp [Carried, show uncheckedCtx.options.compression = false from rfl], rfl⟩)
  refine ⟨q, _, _, hu, fun p' hp' => (C92_one_reading _ _ (fun _ => true) _ _ _ _ _ (by simp) (by
    intro t ht
    obtain rfl := List.mem_singleton.mp ht
    exact ⟨trivial, trivial, (exLots_convertible (m := 0) (by decide)).named⟩) _ _ _ hp' hu), ?_⟩
  rw [pieceRows, List.flatMap_map]
  have := h4.2.2
  rw [List.flatMap_map] at this
  rw [this]
  simp [saidRows]

end CH.Props
