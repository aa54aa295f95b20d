import Verif.Lemmas.TripMaps
import Verif.Props.Trip

/-! What is inserted over one socket is what is selected over another, for tables with maps. -/

namespace CH.Props
open CH CH.Spec CH.Socket CH.Outage CH.Pieces CH.WrittenOut CH.Trip

/-- C92. All readings of the bytes of an INSERT, by whichever server, have the same rows, but for the order of the entries of maps. -/
theorem C92_one_reading_maps (env : Env) (kind : String → SettingKind) (known : Tz → Bool) (tz tz' : Tz) (q : Query) (ctx : Context)
    (types : List SqlType) (hne : types ≠ []) (ht : ∀ t ∈ types, Flat t ∧ KeysHash t ∧ Nameable known t) (b : Bytes)
    (p p' : List (Nat × List Field)) (h : Understood env kind tz tz' q ctx types b p) (h' : Understood env kind tz tz' q ctx types b p') :
    AlikeRows (pieceRows p) (pieceRows p') := understood_rows hne ht h h'

/-- Rows that are alike to those of a table. -/
theorem alike_table {parse : IpKind → String → Option Bytes} {tz : Tz} {b table : Block} {n : Nat} {fs : List Field} {rows : List (List Value)}
    (hlen : b.columns.length = table.columns.length) (h : TableHolds parse tz b table n fs)
    (hr : AlikeRows (saidRows (.block BlockInfo.default n fs)) rows) : rows.length = n ∧
      ∀ (j : Nat) row, rows[j]? = some row → row.length = b.columns.length ∧
        ∀ (i : Nat) col tcol, b.columns[i]? = some col → table.columns[i]? = some tcol →
          ∃ v u u', cell col.data j = some v ∧ convert parse tz tcol.data.sqlType v = some u ∧ row[i]? = some u' ∧ Reordered u u' := by
  obtain ⟨m1, m2⟩ := table_rows hlen h
  refine ⟨hr.1.symm.trans m1, fun j row hj => ?_⟩
  have hj' := (List.getElem?_eq_some_iff.mp hj).1
  have e := List.getElem?_eq_getElem (l := saidRows (.block BlockInfo.default n fs)) (i := j) (by rw [hr.1]; exact hj')
  obtain ⟨l1, l2⟩ := m2 j _ e
  obtain ⟨k1, k2⟩ := hr.2 j _ _ e hj
  refine ⟨k1.symm.trans l1, fun i col tcol h1 h2 => ?_⟩
  obtain ⟨v, u, e1, e2, e3⟩ := l2 i col tcol h1 h2
  have hi := (List.getElem?_eq_some_iff.mp e3).1
  have e4 := List.getElem?_eq_getElem (l := row) (i := i) (by rw [← k1]; exact hi)
  exact ⟨v, u, _, e1, e2, e4, k2 i _ _ e3 e4⟩

/-- C92. As `C92_round_trip_partial`, for tables with maps, too: the server may give the rows back with the entries of maps in another order,
and so may they come out. (`_partial`: for the conversions and types of `C91_large_partial` and `C89_whole_partial`; with arrays and maps only
in what is sent as one piece, see `C17_array_chunk_violated`.) -/
theorem C92_round_trip_maps_partial (env : Env) (numeric : Char → Bool) (parse : IpKind → String → Option Bytes)
    (hparse : ∀ k s b, parse k s = some b → b.length = k.size) (known : Tz → Bool) (kind : String → SettingKind) (tz tz' : Tz) (k : Sock)
    (ctx : Context) (bd : Binding) (h' : HandleS) (w : WorldS) (t q : Query) (b : Block) (n : Nat) (log : List Cmd) (hi : Issued env k log)
    (hp : ctx.options.pingBeforeQuery = false) (he : DataEncodes env (fun x t => x.castTo parse t) ctx (.insert t b))
    (hr : b.rowCount = .ok n) (h0 : 0 < n) (hn : n < 2 ^ 56 - 1) (hq : makeQuery numeric t b = .ok q) (hk : QueryOK env kind tz' q ctx)
    (ha : AskS env numeric (fun x t => x.castTo parse t) ⟨some k, ctx, bd⟩ w (.insert t b) (.items []) h') :
    ∃ table ps k', Heads k.t.inconsistent table ps ∧ Delivers env k ps ∧ h'.inner = some k' ∧
      (GoesInto parse known tz n b table → (n ≤ 1048576 ∨ ∀ t ∈ table.columns, ListFree t.data.sqlType) →
        FitsFrames parse env.codec ctx.options.compression b table →
        ∃ bytes, k'.writer.out = cmdBytes env.codec (log ++ cancelFirst k) ++ bytes ∧
          (∃ pieces, Understood env kind tz tz' q ctx (table.columns.map (·.data.sqlType)) bytes pieces) ∧
          ∀ pieces, Understood env kind tz tz' q ctx (table.columns.map (·.data.sqlType)) bytes pieces →
          ∀ (k2 : Sock) (ctx2 : Context) (bd2 : Binding) (w2 : WorldS) (q2 : Query) (skip : Bool) (bs : List Block) (h2 : HandleS) (log2 : List Cmd)
            (tz2 : Tz) (said : List Said) (ans more : Bytes), Issued env k2 log2 → ctx2.options.pingBeforeQuery = false →
            AskS env numeric (fun x t => x.castTo parse t) ⟨some k2, ctx2, bd2⟩ w2 (.select q2 skip (bs.length + 1)) (.items (bs.map .block ++ [.ended])) h2 →
            k2.t.info.timezone = some tz2 → k2.t.rd ++ received k2.revs = ans ++ more →
            AnswerLaid env.codec tz2 k2.t.info.revision k2.t.info.compress said ans → (∀ m ∈ said, Readable env.known m) →
            (skip = true → ∃ before i cols after, said = before ++ .block i 0 cols :: after ∧ ∀ m ∈ before, ∀ i r c, m ≠ .block i r c) →
            AlikeRows (pieceRows pieces) (said.flatMap saidRows) →
            ∃ rows : List (List Value), answerRows bs = rows.map (·.map .ok) ∧ rows.length = n ∧
              ∀ (j : Nat) row, rows[j]? = some row → row.length = b.columns.length ∧
                ∀ (i : Nat) col tcol, b.columns[i]? = some col → table.columns[i]? = some tcol →
                  ∃ v u u', cell col.data j = some v ∧ convert parse tz tcol.data.sqlType v = some u ∧ row[i]? = some u' ∧ Reordered u u') := by
  obtain ⟨h1, w1, k1, k', hpc, hin, hx, ho⟩ := insert_of hq ha
  cases hpc with
  | ok hp' => simp only at hp'; rw [hp] at hp'; cases hp'
  | failed _ _ hn => exact absurd rfl hn
  | off =>
    cases hin
    obtain ⟨d, b', chs, ps, g1, g2, g3, g4, g5⟩ := insert_done hi he hx
    refine ⟨d, ps, k', g1, g2, ho, fun hs hl hfit => ?_⟩
    obtain ⟨bytes, fs, pieces0, t1, t2, t3, t4, t6, t7⟩ := trip_written hparse hr h0 hn hk hs hl hfit g3 g4 g5
    refine ⟨bytes, t1, ⟨_, t4⟩, fun pieces hpc k2 ctx2 bd2 w2 q2 skip bs h2 log2 tz2 said ans more i2 p2 a2 z2 b2 n2 d2 f2 s2 => ?_⟩
    obtain ⟨said', y1, y2⟩ := C89_whole_partial env numeric _ k2 ctx2 bd2 w2 q2 skip bs h2 log2 i2 p2 a2 z2 b2 n2 d2 f2
    obtain ⟨x, hx, -⟩ := id n2
    obtain ⟨m1, m3⟩ := alike_table hs.width t2 (t3 ▸ alikeRows_trans (understood_rows t6 t7 t4 hpc)
      (alikeRows_trans s2 (alike_of_said y1.1 y1.2.1 (laid_block hx))))
    exact ⟨_, y2, m1, m3⟩

/-- C92. The same with the check before both operations, as it is by default, and reconnecting as often as they do. -/
theorem C92_round_trip_maps_checked_partial (env : Env) (numeric : Char → Bool) (parse : IpKind → String → Option Bytes)
    (hparse : ∀ k s b, parse k s = some b → b.length = k.size) (known : Tz → Bool) (kind : String → SettingKind) (tz tz' : Tz)
    (h h' : HandleS) (w : WorldS) (t q : Query) (b : Block) (n : Nat) (log : List Cmd) (hi : IssuedIn env h log) (hw : IssuedWorld env w)
    (hp : h.context.options.pingBeforeQuery = true) (he : DataEncodes env (fun x t => x.castTo parse t) h.context (.insert t b))
    (hr : b.rowCount = .ok n) (h0 : 0 < n) (hn : n < 2 ^ 56 - 1) (hq : makeQuery numeric t b = .ok q) (hk : QueryOK env kind tz' q h.context)
    (ha : AskS env numeric (fun x t => x.castTo parse t) h w (.insert t b) (.items []) h') :
    ∃ k lg table ls ps k', (h.inner = some k ∧ lg = log ∨ some k ∈ w) ∧ Issued env k lg ∧ Cleared k.t.inconsistent ls ∧ Heads false table ps ∧
      Delivers env k (ls ++ [.pong] ++ ps) ∧ h'.inner = some k' ∧
      (GoesInto parse known tz n b table → (n ≤ 1048576 ∨ ∀ t ∈ table.columns, ListFree t.data.sqlType) →
        FitsFrames parse env.codec h.context.options.compression b table →
        ∃ bytes, k'.writer.out = cmdBytes env.codec (lg ++ cancelFirst k ++ [.ping]) ++ bytes ∧
          (∃ pieces, Understood env kind tz tz' q h.context (table.columns.map (·.data.sqlType)) bytes pieces) ∧
          ∀ pieces, Understood env kind tz tz' q h.context (table.columns.map (·.data.sqlType)) bytes pieces →
          ∀ (h2 h2' : HandleS) (w2 : WorldS) (q2 : Query) (skip : Bool) (bs : List Block) (log2 : List Cmd) (said : Sock → List Said),
            IssuedIn env h2 log2 → IssuedWorld env w2 → h2.context.options.pingBeforeQuery = true →
            AskS env numeric (fun x t => x.castTo parse t) h2 w2 (.select q2 skip (bs.length + 1)) (.items (bs.map .block ++ [.ended])) h2' →
            (∀ k, h2.inner = some k ∨ some k ∈ w2 → k.t.inconsistent = false ∧ (∀ m ∈ said k, Readable env.known m) ∧
              AlikeRows (pieceRows pieces) ((said k).flatMap saidRows) ∧
              ∃ tz b more, k.t.info.timezone = some tz ∧ k.t.rd ++ received k.revs = 4 :: (b ++ more) ∧
                AnswerLaid env.codec tz k.t.info.revision k.t.info.compress (said k) b) →
            (skip = true → ∀ k, h2.inner = some k ∨ some k ∈ w2 →
              ∃ before i cols after, said k = before ++ .block i 0 cols :: after ∧ ∀ m ∈ before, ∀ i r c, m ≠ .block i r c) →
            ∃ rows : List (List Value), answerRows bs = rows.map (·.map .ok) ∧ rows.length = n ∧
              ∀ (j : Nat) row, rows[j]? = some row → row.length = b.columns.length ∧
                ∀ (i : Nat) col tcol, b.columns[i]? = some col → table.columns[i]? = some tcol →
                  ∃ v u u', cell col.data j = some v ∧ convert parse tz tcol.data.sqlType v = some u ∧ row[i]? = some u' ∧ Reordered u u') := by
  obtain ⟨h1, w1, k1, k', hpc, hin, hx, ho⟩ := insert_of hq ha
  have hctx := precheck_context hpc
  rw [hctx] at hx
  obtain ⟨k, k1', g1, g2, g3⟩ := precheck_used hpc hp
  rw [hin] at g3
  cases g3
  obtain ⟨lg, hk', hj⟩ : ∃ lg, Issued env k lg ∧ (h.inner = some k ∧ lg = log ∨ some k ∈ w) := by
    rcases g1 with e | e
    · exact ⟨log, hi k e, .inl ⟨e, rfl⟩⟩
    · obtain ⟨lg, hl⟩ := hw k e
      exact ⟨lg, hl, .inr e⟩
  obtain ⟨d, b', chs, ls, ps, m1, m2, m3, m4, m5, m6⟩ := insert_done_checked hk' g2 he hx
  refine ⟨k, lg, d, ls, ps, k', hj, hk', m1, m2, m3, ho, fun hs hl hfit => ?_⟩
  obtain ⟨bytes, fs, pieces0, t1, t2, t3, t4, t6, t7⟩ := trip_written hparse hr h0 hn hk hs hl hfit m4 m5 m6
  refine ⟨bytes, t1, ⟨_, t4⟩, fun pieces hpc h2 h2' w2 q2 skip bs log2 said i2 iw2 p2 a2 hc hh => ?_⟩
  obtain ⟨k2, said', y0, y1, y2⟩ := C89_checked_partial env numeric _ h2 h2' w2 q2 skip bs log2 i2 iw2 p2 a2 said
    (fun k e => ⟨(hc k e).1, (hc k e).2.1, (hc k e).2.2.2⟩) hh
  obtain ⟨_, _, al, _, _, _, _, _, x, hx, _⟩ := hc k2 y0
  obtain ⟨n1, n3⟩ := alike_table hs.width t2 (t3 ▸ alikeRows_trans (understood_rows t6 t7 t4 hpc)
    (alikeRows_trans al (alike_of_said y1.1 y1.2.1 (laid_block hx))))
  exact ⟨_, y2, n1, n3⟩

/-- One row `{'a': 5, 'b': 6}`, and a table with such a column. -/
def exDict : Block := ⟨BlockInfo.default, [⟨"m", .map [2] (.str [[97], [98]]) (.num .u8 [5, 6])⟩]⟩

/-- The header of that table. -/
def exDictTable : Block := ⟨BlockInfo.default, [⟨"m", .map [] (.str []) (.num .u8 [])⟩]⟩

theorem exDict_convertible : Convertible parseSome (fun _ => true) "UTC".toList 1 (.map [2] (.str [[97], [98]]) (.num .u8 [5, 6])) (.map .string (.num .u8)) where
  sound := by simp [Sound, lastOff, NumTy.width]
  sized := by simp [Sized]
  small := by simp [InMemory]
  room := by simp [SpaceFor]
  target := .inr rfl
  times := by simp [TimesFit]
  named := by simp [Nameable, KeyLike]
  cells := fun i hi => by
    obtain rfl : i = 0 := by omega
    exact ⟨_, _, rfl, rfl⟩

/-- The bytes of the header of `exDictTable`. -/
theorem exDict_header : ∃ bs d, bs ≠ [] ∧ header d = header exDictTable ∧
    ∀ rest, parsePacket sampleEnv sampleInfo (bs ++ rest) = .ok (.block d) rest := by
  have hok : BlockOK sampleEnv.known "UTC".toList 0 exDictTable := ⟨rfl, by decide, by decide, by decide, by decide, by
    intro c hc
    obtain rfl := List.mem_singleton.mp hc
    exact ⟨by decide, by decide, by simp [Nameable, KeyLike, Col.sqlType], rfl, by simp [Savable, elemsBefore], by simp [InMemory]⟩⟩
  obtain ⟨bytes, h1, h2⟩ := C07_data_block_partial sampleEnv sampleInfo "UTC".toList rfl rfl 1 (by decide) 0 exDictTable hok
  obtain ⟨d, h3, h4, -⟩ := h2 []
  rw [List.append_nil] at h3
  refine ⟨putUvarint 1 ++ putString "" ++ bytes, d, ?_, h4, fun rest => ?_⟩
  · intro e
    rw [e, parsePacket_nil] at h3
    cases h3
  · have := (C05_answers_are_final sampleEnv sampleInfo _ rest).1 _ _ h3
    simpa using this

theorem exDict_table {d : Block} (h : header d = header exDictTable) : ∃ c, d.columns = [c] ∧ c.data.sqlType = .map .string (.num .u8) := by
  simp only [header] at h
  match hd : d.columns, h with
  | [c], h =>
    simp only [exDictTable, List.map_cons, List.map_nil, List.cons.injEq, Prod.mk.injEq, and_true] at h
    exact ⟨c, rfl, h.2⟩
  | [], h => cases h
  | _ :: _ :: _, h => simp [exDictTable] at h

theorem exDict_suits {d : Block} (h : header d = header exDictTable) : GoesInto parseSome (fun _ => true) "UTC".toList 1 exDict d := by
  obtain ⟨c, h1, h2⟩ := exDict_table h
  refine ⟨by rw [h1]; rfl, fun i c t e1 e2 => ?_⟩
  match i with
  | 0 =>
    rw [h1] at e2
    cases e1; cases e2
    rw [h2]
    exact ⟨exDict_convertible, ⟨trivial, trivial⟩, ⟨trivial, trivial⟩, trivial, trivial⟩
  | i + 1 => simp [exDict] at e1

theorem exDict_castTo {d : Block} (h : header d = header exDictTable) : exDict.castTo parseSome d = .ok exDict := by
  obtain ⟨c, h1, h2⟩ := exDict_table h
  rw [Block.castTo, h1, if_neg (by simp [exDict])]
  simp only [exDict, castColumns, h2]
  rfl

/-- Whatever that column is converted to, it can be written. -/
theorem exDict_casts (t : SqlType) : ∀ {d : Col}, (Col.map [2] (.str [[97], [98]]) (.num .u8 [5, 6])).castTo parseSome t = .ok d →
    d.len = .ok 1 ∧ ∃ x, d.save 0 1 = .ok x := by
  have hself : (Col.map [2] (.str [[97], [98]]) (.num .u8 [5, 6])).len = .ok 1 ∧ ∃ x, (Col.map [2] (.str [[97], [98]]) (.num .u8 [5, 6])).save 0 1 = .ok x :=
    ⟨rfl, _, rfl⟩
  have hnone : ∀ dst d, castData (Col.map [2] (.str [[97], [98]]) (.num .u8 [5, 6])) dst ≠ .ok d := by
    intro dst d
    rw [castData]
    have : (Col.map [2] (.str [[97], [98]]) (.num .u8 [5, 6])).dataCast dst = none := by cases dst <;> simp [Col.dataCast]
    rw [this]; nofun
  induction t with
  | simpleAgg f t ih =>
    intro d h
    rw [Col.castTo] at h
    split at h
    · cases h; exact hself
    · obtain ⟨d', h1, h2⟩ := obind_eq_ok h
      cases h2
      exact ⟨(ih h1).1, (ih h1).2⟩
  | _ =>
    intro d h
    rw [Col.castTo] at h
    · split at h
      · cases h; exact hself
      · simp only [castArm, Col.sqlType, SqlType.lcInner, Bool.false_eq_true, if_false] at h
        first
          | exact absurd h (hnone _ _)
          | (rw [if_neg (by simp)] at h; exact absurd h (hnone _ _))
          | (split at h <;> first | exact absurd h (hnone _ _) | cases h)
    · simp

theorem exDict_encodes (ctx : Context) (h : ctx.options.compression = false) (t : Query) :
    DataEncodes sampleEnv (fun x t => x.castTo parseSome t) ctx (.insert t exDict) := by
  intro d b' chs ch h1 h2 h3
  simp only at h1
  rw [Block.castTo] at h1
  split at h1
  · cases h1
  next hl =>
  obtain ⟨cs, e1, e2⟩ := obind_eq_ok h1
  cases e2
  match hd : d.columns, hl with
  | [c], _ =>
    rw [hd] at e1
    simp only [exDict, castColumns] at e1
    obtain ⟨x, x1, x2⟩ := obind_eq_ok e1
    cases x2
    obtain ⟨l, s, hs⟩ := exDict_casts _ x1
    have hrect : Rect ⟨exDict.info, [⟨"m", x⟩]⟩ 1 := by
      intro y hy
      obtain rfl := List.mem_singleton.mp hy
      exact l
    have hc := one_chunk hrect (by simp) (by decide) (by decide)
    have h2 : insertChunks ⟨exDict.info, [⟨"m", x⟩]⟩ = .ok chs := h2
    rw [hc] at h2
    cases h2
    obtain rfl := List.mem_singleton.mp h3
    have hw : ∃ r, (cut ⟨exDict.info, [⟨"m", x⟩]⟩ 0 1).write = .ok r := by
      rw [cut_write hrect (by simp), Block.write, rect_rowCount (b := ⟨BlockInfo.default, [⟨"m", x⟩]⟩) hrect (by simp)]
      simp only [obind_ok, mapOut, NCol.write, l, hs]
      exact ⟨_, rfl⟩
    obtain ⟨r, hw⟩ := hw
    obtain ⟨body, b1, -⟩ := sent_packet sampleEnv.codec false r _ hw nofun
    rw [Cmd.encode, Cmd.encode, Cmd.encode, h, b1]
    exact ⟨_, rfl⟩
  | [], hl => simp [exDict] at hl
  | _ :: _ :: _, hl => simp [exDict] at hl

theorem exDict_insert {d : Block} (hd : header d = header exDictTable) (ctx : Context) (q : Query) (log : List Cmd) :
    ∃ c', Conn.insert (fun x t => x.castTo parseSome t) ⟨[.packet (.block d), .packet .eof], fun _ => [], false, log⟩ q ctx exDict = .ok c' := by
  obtain ⟨_, _, _, -, -, h, -⟩ := C78_insert_partial sampleEnv.codec parseSome exKept_parse (fun _ => true) "UTC".toList 1 (by decide) (by decide)
    exDict d exDict rfl (exDict_suits hd).width (exDict_suits hd).columns (exDict_castTo hd)
    ⟨[.packet (.block d), .packet .eof], fun _ => [], false, log⟩ q ctx [.packet .eof] rfl (.finished .block)
  exact ⟨_, h .eof [] (.finished .eof)⟩

theorem exDict_query (ctx : Context) (hc : ctx.options.compression = false) (hh : ctx.hostname = "localhost") (hs : ctx.options.settings = []) :
    QueryOK sampleEnv (fun _ => .number) "UTC".toList ⟨"INSERT INTO t (`m`) VALUES", ""⟩ ctx where
  sql := by decide
  id := by decide
  host := by rw [hh]; decide
  settings := by rw [hs]; nofun
  empty := ⟨⟨0, emptyBlock_ok _ _⟩, by simp [hc]⟩

/-- A server that gives back what it has read, maps included. -/
theorem exEcho_maps {env : Env} {kind : String → SettingKind} {tz tz' : Tz} {q : Query} {ctx : Context} {types : List SqlType} (rev : Nat)
    (hne : types ≠ []) (ht : ∀ t ∈ types, Flat t ∧ KeysHash t ∧ Nameable env.known t) {b : Bytes} {p : List (Nat × List Field)}
    (h : Understood env kind tz tz' q ctx types b p) : ∃ said x, InTurn (SaidLaid env.codec tz rev false) said x ∧
      (∀ m ∈ said, Readable env.known m) ∧ said.flatMap saidRows = pieceRows p := by
  induction h with
  | nil => exact ⟨[], [], .nil, by simp, rfl⟩
  | @cons stmt raw empty x y bytes info info' r fs pieces a1 a2 a3 a4 a5 a6 a7 a8 a9 _ ih =>
    obtain ⟨said, z, h1, h2, h3⟩ := ih
    refine ⟨.block info r fs :: said, _, .cons (b := [1] ++ [0] ++ raw) ⟨1, "", [0], raw, raw, .inl rfl, ⟨[0], .last rfl (by decide), rfl⟩, a3, ?_, ?_, a4, by decide, rfl⟩ h1, ?_, ?_⟩
    · rintro rfl
      exact absurd a2.symm hne
    · simp [Carried]
    · intro m hm
      rcases List.mem_cons.mp hm with rfl | hm
      · exact ⟨a5, fun f hf => ht _ (a2 ▸ List.mem_map_of_mem hf)⟩
      · exact h2 m hm
    · rw [List.flatMap_cons, h3]
      rfl

theorem exDict_fits {d : Block} (hd : header d = header exDictTable) : FitsFrames parseSome sampleEnv.codec false exDict d := by
  refine ⟨fun b' chs ch raw h1 h2 h3 h4 => ?_, fun _ _ e => by cases e⟩
  rw [exDict_castTo hd] at h1
  cases h1
  have e : insertChunks exDict = .ok [cut exDict 0 1] := rfl
  rw [e] at h2
  cases h2
  obtain rfl := List.mem_singleton.mp h3
  refine ⟨?_, fun e => by cases e⟩
  have e : ∃ raw, (cut exDict 0 1).write = .ok raw ∧ raw.length < 2 ^ 56 := ⟨_, rfl, by decide +kernel⟩
  obtain ⟨raw', e1, e2⟩ := e
  rw [e1] at h4
  cases h4
  exact e2

/-- `C92_round_trip_maps_partial` in full: the row `{'a': 5, 'b': 6}` inserted over one socket, and given back over another. -/
example : ∃ (k k2 : Sock) (h' h2 : HandleS) (bs : List Block) (rows : List (List Value)),
    AskS sampleEnv (fun c => c.isDigit) (fun x t => x.castTo parseSome t) ⟨some k, uncheckedCtx, .attached⟩ [] (.insert ⟨"t", ""⟩ exDict) (.items []) h' ∧
    AskS sampleEnv (fun c => c.isDigit) (fun x t => x.castTo parseSome t) ⟨some k2, uncheckedCtx, .attached⟩ [] (.select sampleQuery false (bs.length + 1))
      (.items (bs.map .block ++ [.ended])) h2 ∧
    answerRows bs = rows.map (·.map .ok) ∧
    ∃ u, rows = [[u]] ∧ Reordered (.map .string (.num .u8) [.str [97], .str [98]] [.num .u8 5, .num .u8 6]) u := by
  obtain ⟨x, d, -, hd, hpk⟩ := exDict_header
  have hdec : Decodes sampleEnv sampleInfo (x ++ [5]) ([Packet.block d, .eof].map .inl) sampleInfo [] :=
    .packet (hpk [5]) (.other (by simp)) (.packet (eof_parse _ _) (.other (by simp)) .done)
  have he := exDict_encodes uncheckedCtx rfl ⟨"t", ""⟩
  have hq : makeQuery (fun c => c.isDigit) ⟨"t", ""⟩ exDict = .ok ⟨"INSERT INTO t (`m`) VALUES", ""⟩ := rfl
  obtain ⟨c', hx⟩ := exDict_insert (d := d) hd uncheckedCtx ⟨"INSERT INTO t (`m`) VALUES", ""⟩ []
  obtain ⟨n, h', ha⟩ := exOn_asks (numeric := fun c => c.isDigit) (cast := fun x t => x.castTo parseSome t) (bs := x ++ [5])
    (ps := [.block d, .eof]) (a := .insert ⟨"t", ""⟩ exDict) (o := []) (ctx := uncheckedCtx) (c' := c') (by simp) hdec (by
      simp only [ask, Handle.insert, hq, Handle.precheck, show uncheckedCtx.options.pingBeforeQuery = false from rfl, List.map_cons, List.map_nil]
      simp [hx]) (by simp) he
  obtain ⟨table, ps', k', g1, ⟨j, rest, g2⟩, g3, g4⟩ := C92_round_trip_maps_partial sampleEnv _ parseSome exKept_parse (fun _ => true) (fun _ => .number)
    "UTC".toList "UTC".toList _ _ _ _ _ _ _ _ 1 _ (exOn_issued _ _) rfl he rfl (by decide) (by decide) hq (exDict_query _ rfl rfl rfl) ha
  rw [exOn_bytes] at g2
  obtain rfl := exLots_first [] g1 g2 hdec
  obtain ⟨c, hc1, hc2⟩ := exDict_table hd
  obtain ⟨bytes, -, ⟨pieces, hu⟩, hall⟩ := g4 (exDict_suits hd) (.inl (by decide)) (exDict_fits hd)
  obtain ⟨said, y, s1, s2, s3⟩ := exEcho_maps 54450 (by rw [hc1]; simp) (by
    intro t ht
    rw [hc1, List.map_cons, List.map_nil, hc2] at ht
    obtain rfl := List.mem_singleton.mp ht
    exact ⟨⟨trivial, trivial⟩, ⟨trivial, trivial⟩, exDict_convertible.named⟩) hu
  obtain ⟨n2, bs, h2, hsel⟩ := exEcho_served uncheckedCtx s1 s2
  obtain ⟨rows, r1, r2, r3⟩ := hall pieces hu _ _ _ _ _ _ bs h2 [] "UTC".toList said (y ++ [5]) [] (exOn_issued _ _) rfl hsel rfl
    (by rw [exOn_bytes, List.append_nil]; rfl) ⟨y, s1, rfl⟩ s2 (fun e => by cases e) (by rw [s3]; exact alikeRows_refl _)
  refine ⟨_, _, h', h2, bs, rows, ha, hsel, r1, ?_⟩
  match rows, r2, r3 with
  | [row], _, r3 =>
    obtain ⟨l, hcell⟩ := r3 0 row rfl
    obtain ⟨v, u, u', e1, e2, e3, e4⟩ := hcell 0 _ c rfl (by rw [hc1]; rfl)
    rw [hc2] at e2
    cases e1
    cases e2
    match row, l with
    | [a], _ => cases e3; exact ⟨_, rfl, e4⟩

/-- `C92_round_trip_maps_checked_partial` in full, with the check before both: the row `{'a': 5, 'b': 6}` inserted over one socket, and given back over another. -/
example : ∃ (k k2 : Sock) (h' h2 : HandleS) (bs : List Block) (rows : List (List Value)),
    AskS sampleEnv (fun c => c.isDigit) (fun x t => x.castTo parseSome t) ⟨some k, sampleCtx, .attached⟩ [] (.insert ⟨"t", ""⟩ exDict) (.items []) h' ∧
    AskS sampleEnv (fun c => c.isDigit) (fun x t => x.castTo parseSome t) ⟨some k2, sampleCtx, .attached⟩ [] (.select sampleQuery false (bs.length + 1))
      (.items (bs.map .block ++ [.ended])) h2 ∧
    answerRows bs = rows.map (·.map .ok) ∧
    ∃ u, rows = [[u]] ∧ Reordered (.map .string (.num .u8) [.str [97], .str [98]] [.num .u8 5, .num .u8 6]) u := by
  obtain ⟨x, d, -, hd, hpk⟩ := exDict_header
  have hdec : Decodes sampleEnv sampleInfo (4 :: (x ++ [5])) ([Packet.pong, .block d, .eof].map .inl) sampleInfo [] :=
    .packet (pong_parse _ _ _) (.other (by simp)) <| .packet (hpk [5]) (.other (by simp)) (.packet (eof_parse _ _) (.other (by simp)) .done)
  have he := exDict_encodes sampleCtx rfl ⟨"t", ""⟩
  have hq : makeQuery (fun c => c.isDigit) ⟨"t", ""⟩ exDict = .ok ⟨"INSERT INTO t (`m`) VALUES", ""⟩ := rfl
  obtain ⟨c', hx⟩ := exDict_insert (d := d) hd sampleCtx ⟨"INSERT INTO t (`m`) VALUES", ""⟩ [.ping]
  obtain ⟨n, h', ha⟩ := exOn_asks (numeric := fun c => c.isDigit) (cast := fun x t => x.castTo parseSome t) (bs := 4 :: (x ++ [5]))
    (ps := [.pong, .block d, .eof]) (a := .insert ⟨"t", ""⟩ exDict) (o := []) (ctx := sampleCtx) (c' := c') (by simp) hdec (by
      simp only [ask, Handle.insert, hq, List.map_cons, List.map_nil, exOn_precheck, hx]) (by simp) he
  obtain ⟨k, lg, table, ls, ps', k', hj, -, g0, g1, ⟨j, rest, g2⟩, g3, g4⟩ := C92_round_trip_maps_checked_partial sampleEnv _ parseSome exKept_parse
    (fun _ => true) (fun _ => .number) "UTC".toList "UTC".toList _ _ _ _ _ _ 1 [] (fun k e => by cases e; exact exOn_issued _ _) (fun k e => by cases e)
    rfl he rfl (by decide) (by decide) hq (exDict_query _ rfl rfl rfl) ha
  obtain rfl : exOn (4 :: (x ++ [5])) n = k := by
    rcases hj with ⟨e, -⟩ | e
    · cases e; rfl
    · cases e
  obtain rfl : ls = [] := g0
  rw [exOn_bytes] at g2
  obtain rfl := exLots_first [.pong] g1 g2 hdec
  obtain ⟨c, hc1, hc2⟩ := exDict_table hd
  obtain ⟨bytes, -, ⟨pieces, hu⟩, hall⟩ := g4 (exDict_suits hd) (.inl (by decide)) (exDict_fits hd)
  obtain ⟨said, y, s1, s2, s3⟩ := exEcho_maps 54450 (by rw [hc1]; simp) (by
    intro t ht
    rw [hc1, List.map_cons, List.map_nil, hc2] at ht
    obtain rfl := List.mem_singleton.mp ht
    exact ⟨⟨trivial, trivial⟩, ⟨trivial, trivial⟩, exDict_convertible.named⟩) hu
  obtain ⟨n2, bs, h2, hsel⟩ := exEcho_served sampleCtx s1 s2
  obtain ⟨rows, r1, r2, r3⟩ := hall pieces hu _ _ _ _ _ bs [] (fun _ => said) (fun k e => by cases e; exact exOn_issued _ _) (fun k e => by cases e) rfl hsel
    (fun k e => by
      rcases e with e | e
      · cases e
        exact ⟨rfl, s2, by rw [s3]; exact alikeRows_refl _, "UTC".toList, y ++ [5], [], rfl, by rw [exOn_bytes, List.append_nil]; rfl, ⟨y, s1, rfl⟩⟩
      · cases e) (fun e => by cases e)
  refine ⟨_, _, h', h2, bs, rows, ha, hsel, r1, ?_⟩
  match rows, r2, r3 with
  | [row], _, r3 =>
    obtain ⟨l, hcell⟩ := r3 0 row rfl
    obtain ⟨v, u, u', e1, e2, e3, e4⟩ := hcell 0 _ c rfl (by rw [hc1]; rfl)
    rw [hc2] at e2
    cases e1
    cases e2
    match row, l with
    | [a], _ => cases e3; exact ⟨_, rfl, e4⟩

/-- The hypotheses of `C92_one_reading_maps`: bytes that can be read, as one row, for a table of maps. -/
example : ∃ q bytes pieces, Understood sampleEnv (fun _ => .number) "UTC".toList "UTC".toList q uncheckedCtx [.map .string (.num .u8)] bytes pieces ∧
    (pieceRows pieces).length = 1 ∧
    ∀ p', Understood sampleEnv (fun _ => .number) "UTC".toList "UTC".toList q uncheckedCtx [.map .string (.num .u8)] bytes p' →
      AlikeRows (pieceRows pieces) (pieceRows p') := by
  obtain ⟨bytes, fs, pieces, -, -, h1, h2, h3, h4⟩ := trip_written (env := sampleEnv) (known := fun _ => true) (b := exDict) (d := exDictTable) (b' := exDict)
    (n := 1) (before := []) (chs := [cut exDict 0 1]) (tz := "UTC".toList) exKept_parse rfl (by decide) (by decide) (exDict_query uncheckedCtx rfl rfl rfl)
    (exDict_suits rfl) (.inl (by decide)) (exDict_fits rfl) (exDict_castTo rfl) rfl rfl
  exact ⟨_, bytes, pieces, h2, by rw [h1]; simp [saidRows], fun p' hp => C92_one_reading_maps _ _ _ _ _ _ _ _ h3 h4 _ _ _ h2 hp⟩

end CH.Props
