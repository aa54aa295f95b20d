import Verif.Lemmas.Written
import Verif.Props.Answered

/-!
C91: what is on the wire when an INSERT has succeeded.
-/

namespace CH.Props
open CH CH.Spec CH.Socket CH.Outage CH.WrittenOut

theorem stated {env : Env} {kind : String → SettingKind} {tz : Tz} {q : Query} {ctx : Context} (h : QueryOK env kind tz q ctx) :
    ∃ stmt, (Cmd.sendQuery q ctx).encode env.codec = .ok stmt ∧ Stated env kind tz q ctx stmt := C38_query_partial env kind tz q ctx h

/-- The bytes of one piece, after the commands `before`. -/
theorem written_one {env : Env} {parse : IpKind → String → Option Bytes} (hparse : ∀ k s b, parse k s = some b → b.length = k.size)
    {known : Tz → Bool} {kind : String → SettingKind} {tz tz' : Tz} {n : Nat} {b table b' : Block} {chs : List Block} {ctx : Context} {q : Query}
    {before : List Cmd} {out : Bytes} (hk : QueryOK env kind tz' q ctx) (hr : b.rowCount = .ok n) (h0 : 0 < n)
    (hn : n ≤ 1048576) (hs : GoesInto parse known tz n b table) (hb : b.castTo parse table = .ok b') (hch : insertChunks b' = .ok chs)
    (ho : out = cmdBytes env.codec (before ++ pieceCmds q ctx chs)) :
    ∃ fs raw empty, TableHolds parse tz b table n fs ∧ BlockLaid tz BlockInfo.default n fs raw ∧ BlockLaid tz BlockInfo.default 0 [] empty ∧
      ((ctx.options.compression = true → Packs env.codec raw ∧ Packs env.codec empty) → ∃ stmt rows,
        out = cmdBytes env.codec before ++ stmt ++ rows ∧ Stated env kind tz' q ctx stmt ∧
          RowsPackets env.codec ctx.options.compression raw empty rows) := by
  obtain ⟨data, raw, fs, empty, rfl, g2, g3, g4, g5⟩ := one_piece env.codec hparse ctx hr h0 hn hs hb hch
  refine ⟨fs, raw, empty, g3, g2, g4, fun hp => ?_⟩
  obtain ⟨rows, e1, e2⟩ := g5 hp
  obtain ⟨stmt, s1, s2⟩ := stated hk
  refine ⟨stmt, rows, ?_, s2, e2⟩
  rw [ho, cmdBytes_append, cmdBytes_pieces s1 (rows := [rows]) rfl (by
    intro i ch r h1 h2
    match i with
    | 0 => cases h1; cases h2; exact e1), List.flatMap_singleton, List.append_assoc]

theorem insert_of {env : Env} {numeric : Char → Bool} {cast : Block → Block → Out Block} {h h' : HandleS} {w : WorldS} {t q : Query} {b : Block}
    (hq : makeQuery numeric t b = .ok q) (ha : AskS env numeric cast h w (.insert t b) (.items []) h') :
    ∃ h1 w1 k k', PrecheckS env h w (.ok ()) h1 w1 ∧ h1.inner = some k ∧ InsertS env cast k q h1.context b (.ok k') ∧ h'.inner = some k' := by
  cases ha with
  | insert hx =>
    rw [HandleS.insert, hq] at hx
    cases hx with
    | failed _ hn => exact absurd rfl hn
    | done hpc hin hd =>
      cases hd with
      | ok hr => exact ⟨_, _, _, _, hpc, hin, hr, rfl⟩

/-- The bytes of the header of `exKeptTable`. -/
theorem exKept_header : ∃ bs d, bs ≠ [] ∧ header d = header exKeptTable ∧
    ∀ rest, parsePacket sampleEnv sampleInfo (bs ++ rest) = .ok (.block d) rest := by
  have hok : BlockOK sampleEnv.known "UTC".toList 0 exKeptTable := ⟨rfl, by decide, by decide, by decide, by decide, by
    intro c hc
    obtain rfl := List.mem_singleton.mp hc
    exact ⟨by decide, by decide, by simp [Nameable, Col.sqlType], rfl, by simp [Savable, elemsBefore], by simp [InMemory]⟩⟩
  obtain ⟨bytes, h1, h2⟩ := C07_data_block_partial sampleEnv sampleInfo "UTC".toList rfl rfl 1 (by decide) 0 exKeptTable hok
  obtain ⟨d, h3, h4, -⟩ := h2 []
  rw [List.append_nil] at h3
  refine ⟨putUvarint 1 ++ putString "" ++ bytes, d, ?_, h4, fun rest => ?_⟩
  · intro e
    rw [e, parsePacket_nil] at h3
    cases h3
  · have := (C05_answers_are_final sampleEnv sampleInfo _ rest).1 _ _ h3
    simpa using this

theorem exKept_table {d : Block} (h : header d = header exKeptTable) : ∃ c, d.columns = [c] ∧ c.data.sqlType = .array .string := by
  simp only [header] at h
  match hd : d.columns, h with
  | [c], h =>
    simp only [exKeptTable, List.map_cons, List.map_nil, List.cons.injEq, Prod.mk.injEq, and_true] at h
    exact ⟨c, rfl, h.2⟩
  | [], h => cases h
  | _ :: _ :: _, h => simp [exKeptTable] at h

theorem exKept_suits {d : Block} (h : header d = header exKeptTable) : GoesInto parseSome (fun _ => true) "UTC".toList 1 exKept d := by
  obtain ⟨c, h1, h2⟩ := exKept_table h
  refine ⟨by rw [h1]; rfl, fun i c t e1 e2 => ?_⟩
  match i with
  | 0 =>
    rw [h1] at e2
    cases e1; cases e2
    rw [h2]
    exact ⟨exKept_convertible, trivial, trivial, trivial⟩
  | i + 1 => simp [exKept] at e1

theorem exKept_castTo {d : Block} (h : header d = header exKeptTable) : exKept.castTo parseSome d = .ok exKept := by
  obtain ⟨c, h1, h2⟩ := exKept_table h
  rw [Block.castTo, h1, if_neg (by simp [exKept])]
  simp only [exKept, castColumns, h2]
  rfl

/-- Whatever that column is converted to, it can be written. -/
theorem exKept_casts (t : SqlType) : ∀ {d : Col}, (Col.array [2] (.str [[97], [98, 99]])).castTo parseSome t = .ok d →
    d.len = .ok 1 ∧ ∃ x, d.save 0 1 = .ok x := by
  have hself : (Col.array [2] (.str [[97], [98, 99]])).len = .ok 1 ∧ ∃ x, (Col.array [2] (.str [[97], [98, 99]])).save 0 1 = .ok x :=
    ⟨rfl, _, rfl⟩
  have hnone : ∀ dst d, castData (Col.array [2] (.str [[97], [98, 99]])) dst ≠ .ok d := by
    intro dst d
    rw [castData]
    have : (Col.array [2] (.str [[97], [98, 99]])).dataCast dst = none := by cases dst <;> simp [Col.dataCast]
    rw [this]; nofun
  induction t with
  | simpleAgg f t ih =>
    intro d h
    rw [Col.castTo] at h
    split at h
    · cases h; exact hself
    · obtain ⟨d', h1, h2⟩ := obind_eq_ok h
      cases h2
      exact ⟨(ih h1).1, (ih h1).2⟩
  | _ =>
    intro d h
    rw [Col.castTo] at h
    · split at h
      · cases h; exact hself
      · simp only [castArm, Col.sqlType, SqlType.lcInner, Bool.false_eq_true, if_false] at h
        first
          | exact absurd h (hnone _ _)
          | (rw [if_neg (by simp)] at h; exact absurd h (hnone _ _))
          | (split at h <;> first | exact absurd h (hnone _ _) | cases h)
    · simp

theorem exKept_encodes (ctx : Context) (h : ctx.options.compression = false) (t : Query) :
    DataEncodes sampleEnv (fun x t => x.castTo parseSome t) ctx (.insert t exKept) := by
  intro d b' chs ch h1 h2 h3
  simp only at h1
  rw [Block.castTo] at h1
  split at h1
  · cases h1
  next hl =>
  obtain ⟨cs, e1, e2⟩ := obind_eq_ok h1
  cases e2
  match hd : d.columns, hl with
  | [c], _ =>
    rw [hd] at e1
    simp only [exKept, castColumns] at e1
    obtain ⟨x, x1, x2⟩ := obind_eq_ok e1
    cases x2
    obtain ⟨l, s, hs⟩ := exKept_casts _ x1
    have hrect : Rect ⟨exKept.info, [⟨"s", x⟩]⟩ 1 := by
      intro y hy
      obtain rfl := List.mem_singleton.mp hy
      exact l
    have hc := one_chunk hrect (by simp) (by decide) (by decide)
    have h2 : insertChunks ⟨exKept.info, [⟨"s", x⟩]⟩ = .ok chs := h2
    rw [hc] at h2
    cases h2
    obtain rfl := List.mem_singleton.mp h3
    have hw : ∃ r, (cut ⟨exKept.info, [⟨"s", x⟩]⟩ 0 1).write = .ok r := by
      rw [cut_write hrect (by simp), Block.write, rect_rowCount (b := ⟨BlockInfo.default, [⟨"s", x⟩]⟩) hrect (by simp)]
      simp only [obind_ok, mapOut, NCol.write, l, hs]
      exact ⟨_, rfl⟩
    obtain ⟨r, hw⟩ := hw
    obtain ⟨body, b1, -⟩ := sent_packet sampleEnv.codec false r _ hw nofun
    rw [Cmd.encode, Cmd.encode, Cmd.encode, h, b1]
    exact ⟨_, rfl⟩
  | [], hl => simp [exKept] at hl
  | _ :: _ :: _, hl => simp [exKept] at hl

theorem exKept_insert {d : Block} (hd : header d = header exKeptTable) (ctx : Context) (q : Query) (log : List Cmd) :
    ∃ c', Conn.insert (fun x t => x.castTo parseSome t) ⟨[.packet (.block d), .packet .eof], fun _ => [], false, log⟩ q ctx exKept = .ok c' := by
  obtain ⟨_, _, _, -, -, h, -⟩ := C78_insert_partial sampleEnv.codec parseSome exKept_parse (fun _ => true) "UTC".toList 1 (by decide) (by decide)
    exKept d exKept rfl (exKept_suits hd).width (exKept_suits hd).columns (exKept_castTo hd)
    ⟨[.packet (.block d), .packet .eof], fun _ => [], false, log⟩ q ctx [.packet .eof] rfl (.finished .block)
  exact ⟨_, h .eof [] (.finished .eof)⟩

theorem exKept_query (ctx : Context) (hc : ctx.options.compression = false) (hh : ctx.hostname = "localhost") (hs : ctx.options.settings = []) :
    QueryOK sampleEnv (fun _ => .number) "UTC".toList ⟨"INSERT INTO t (`s`) VALUES", ""⟩ ctx where
  sql := by decide
  id := by decide
  host := by rw [hh]; decide
  settings := by rw [hs]; nofun
  empty := ⟨⟨0, emptyBlock_ok _ _⟩, by simp [hc]⟩

theorem exOn_delivers {bs : Bytes} {n : Nat} {ps : List Packet} (h : Decodes sampleEnv sampleInfo bs (ps.map .inl) sampleInfo []) :
    Delivers sampleEnv (exOn bs n) ps := ⟨_, _, by simpa [exOn, received, Transport.new] using h⟩

/-- C91. When an INSERT of at most 1048576 rows is reported as done, the server has named the header of a table (before anything else but
descriptions of columns), and, if the block suits it, the socket has taken, after all it had taken or was to take before and the cancellation
of an abandoned answer, exactly: bytes that the server reads as the statement, then a packet with the rows in the native format of the table,
converted cell by cell, then a packet without rows. (`_partial`: for the types of `C76_cast_partial`; larger blocks, and the empty one, in
`C91_pieces_partial` and `C18_empty_insert_violated`.) -/
theorem C91_inserted_partial (env : Env) (numeric : Char → Bool) (parse : IpKind → String → Option Bytes)
    (hparse : ∀ k s b, parse k s = some b → b.length = k.size) (known : Tz → Bool) (kind : String → SettingKind) (tz tz' : Tz) (k : Sock)
    (ctx : Context) (bd : Binding) (h' : HandleS) (w : WorldS) (t q : Query) (b : Block) (n : Nat) (log : List Cmd) (hi : Issued env k log)
    (hp : ctx.options.pingBeforeQuery = false) (he : DataEncodes env (fun x t => x.castTo parse t) ctx (.insert t b))
    (hr : b.rowCount = .ok n) (h0 : 0 < n) (hn : n ≤ 1048576) (hq : makeQuery numeric t b = .ok q) (hk : QueryOK env kind tz' q ctx)
    (ha : AskS env numeric (fun x t => x.castTo parse t) ⟨some k, ctx, bd⟩ w (.insert t b) (.items []) h') :
    ∃ table ps k', Heads k.t.inconsistent table ps ∧ Delivers env k ps ∧ h'.inner = some k' ∧ (GoesInto parse known tz n b table →
      ∃ fs raw empty, TableHolds parse tz b table n fs ∧ BlockLaid tz BlockInfo.default n fs raw ∧ BlockLaid tz BlockInfo.default 0 [] empty ∧
        ((ctx.options.compression = true → Packs env.codec raw ∧ Packs env.codec empty) → ∃ stmt rows,
          k'.writer.out = cmdBytes env.codec (log ++ cancelFirst k) ++ stmt ++ rows ∧ Stated env kind tz' q ctx stmt ∧
            RowsPackets env.codec ctx.options.compression raw empty rows)) := by
  obtain ⟨h1, w1, k1, k', hpc, hin, hx, ho⟩ := insert_of hq ha
  cases hpc with
  | ok hp' => simp only at hp'; rw [hp] at hp'; cases hp'
  | failed _ _ hn => exact absurd rfl hn
  | off =>
    cases hin
    obtain ⟨d, b', chs, ps, g1, g2, g3, g4, g5⟩ := insert_done hi he hx
    exact ⟨d, ps, k', g1, g2, ho, fun hs => written_one hparse hk hr h0 hn hs g3 g4 g5⟩

/-- The hypotheses of `C91_inserted_partial`: one row `['a', 'bc']` goes into a table of arrays of strings. -/
example : ∃ bs n h' q, AskS sampleEnv (fun c => c.isDigit) (fun x t => x.castTo parseSome t) ⟨some (exOn bs n), uncheckedCtx, .attached⟩ []
        (.insert ⟨"t", ""⟩ exKept) (.items []) h' ∧ Issued sampleEnv (exOn bs n) [] ∧ uncheckedCtx.options.pingBeforeQuery = false ∧
      DataEncodes sampleEnv (fun x t => x.castTo parseSome t) uncheckedCtx (.insert ⟨"t", ""⟩ exKept) ∧ exKept.rowCount = .ok 1 ∧
      makeQuery (fun c => c.isDigit) ⟨"t", ""⟩ exKept = .ok q ∧ QueryOK sampleEnv (fun _ => .number) "UTC".toList q uncheckedCtx ∧
      ∃ d, Delivers sampleEnv (exOn bs n) [.block d, .eof] ∧ GoesInto parseSome (fun _ => true) "UTC".toList 1 exKept d := by
  obtain ⟨bs, d, hb, hd, hp⟩ := exKept_header
  have he := exKept_encodes uncheckedCtx rfl ⟨"t", ""⟩
  have hq : makeQuery (fun c => c.isDigit) ⟨"t", ""⟩ exKept = .ok ⟨"INSERT INTO t (`s`) VALUES", ""⟩ := rfl
  have hdec : Decodes sampleEnv sampleInfo (bs ++ [5]) ([Packet.block d, .eof].map .inl) sampleInfo [] :=
    .packet (hp [5]) (.other (by simp)) (.packet (eof_parse _ _) (.other (by simp)) .done)
  obtain ⟨c', hx⟩ := exKept_insert (d := d) hd uncheckedCtx ⟨"INSERT INTO t (`s`) VALUES", ""⟩ []
  obtain ⟨n, h', g⟩ := exOn_asks (numeric := fun c => c.isDigit) (cast := fun x t => x.castTo parseSome t) (bs := bs ++ [5])
    (ps := [.block d, .eof]) (a := .insert ⟨"t", ""⟩ exKept) (o := []) (ctx := uncheckedCtx) (c' := c') (by simp) hdec (by
      simp only [ask, Handle.insert, hq, Handle.precheck, show uncheckedCtx.options.pingBeforeQuery = false from rfl, List.map_cons, List.map_nil]
      simp [hx]) (by simp) he
  refine ⟨_, n, h', _, g, exOn_issued _ _, rfl, he, rfl, hq, exKept_query _ rfl rfl rfl, d, ?_, exKept_suits hd⟩
  exact exOn_delivers hdec

/-- C91. The same with the check of the connection beforehand: some connection, that of the handle or one that reconnecting gave, has
answered a ping and then named the header; its socket has taken the ping and then the statement and the rows. (`_partial` as
`C91_inserted_partial`.) -/
theorem C91_inserted_checked_partial (env : Env) (numeric : Char → Bool) (parse : IpKind → String → Option Bytes)
    (hparse : ∀ k s b, parse k s = some b → b.length = k.size) (known : Tz → Bool) (kind : String → SettingKind) (tz tz' : Tz)
    (h h' : HandleS) (w : WorldS) (t q : Query) (b : Block) (n : Nat) (log : List Cmd) (hi : IssuedIn env h log) (hw : IssuedWorld env w)
    (hp : h.context.options.pingBeforeQuery = true) (he : DataEncodes env (fun x t => x.castTo parse t) h.context (.insert t b))
    (hr : b.rowCount = .ok n) (h0 : 0 < n) (hn : n ≤ 1048576) (hq : makeQuery numeric t b = .ok q) (hk : QueryOK env kind tz' q h.context)
    (ha : AskS env numeric (fun x t => x.castTo parse t) h w (.insert t b) (.items []) h') :
    ∃ k lg table ls ps k', (h.inner = some k ∧ lg = log ∨ some k ∈ w) ∧ Issued env k lg ∧ Cleared k.t.inconsistent ls ∧ Heads false table ps ∧
      Delivers env k (ls ++ [.pong] ++ ps) ∧ h'.inner = some k' ∧ (GoesInto parse known tz n b table →
      ∃ fs raw empty, TableHolds parse tz b table n fs ∧ BlockLaid tz BlockInfo.default n fs raw ∧ BlockLaid tz BlockInfo.default 0 [] empty ∧
        ((h.context.options.compression = true → Packs env.codec raw ∧ Packs env.codec empty) → ∃ stmt rows,
          k'.writer.out = cmdBytes env.codec (lg ++ cancelFirst k ++ [.ping]) ++ stmt ++ rows ∧ Stated env kind tz' q h.context stmt ∧
            RowsPackets env.codec h.context.options.compression raw empty rows)) := by
  obtain ⟨h1, w1, k1, k', hpc, hin, hx, ho⟩ := insert_of hq ha
  have hctx := precheck_context hpc
  rw [hctx] at hx
  obtain ⟨k, k1', g1, g2, g3⟩ := precheck_used hpc hp
  rw [hin] at g3
  cases g3
  obtain ⟨lg, hk', hj⟩ : ∃ lg, Issued env k lg ∧ (h.inner = some k ∧ lg = log ∨ some k ∈ w) := by
    rcases g1 with e | e
    · exact ⟨log, hi k e, .inl ⟨e, rfl⟩⟩
    · obtain ⟨lg, hl⟩ := hw k e
      exact ⟨lg, hl, .inr e⟩
  obtain ⟨d, b', chs, ls, ps, m1, m2, m3, m4, m5, m6⟩ := insert_done_checked hk' g2 he hx
  exact ⟨k, lg, d, ls, ps, k', hj, hk', m1, m2, m3, ho, fun hs => written_one hparse hk hr h0 hn hs m4 m5 m6⟩

/-- The hypotheses of `C91_inserted_checked_partial`. -/
example : ∃ bs n h' q, AskS sampleEnv (fun c => c.isDigit) (fun x t => x.castTo parseSome t) ⟨some (exOn bs n), sampleCtx, .attached⟩ []
        (.insert ⟨"t", ""⟩ exKept) (.items []) h' ∧ IssuedIn sampleEnv ⟨some (exOn bs n), sampleCtx, .attached⟩ [] ∧ IssuedWorld sampleEnv [] ∧
      sampleCtx.options.pingBeforeQuery = true ∧
      DataEncodes sampleEnv (fun x t => x.castTo parseSome t) sampleCtx (.insert ⟨"t", ""⟩ exKept) ∧ exKept.rowCount = .ok 1 ∧
      makeQuery (fun c => c.isDigit) ⟨"t", ""⟩ exKept = .ok q ∧ QueryOK sampleEnv (fun _ => .number) "UTC".toList q sampleCtx ∧
      ∃ d, Delivers sampleEnv (exOn bs n) [.pong, .block d, .eof] ∧ GoesInto parseSome (fun _ => true) "UTC".toList 1 exKept d := by
  obtain ⟨bs, d, hb, hd, hp⟩ := exKept_header
  have he := exKept_encodes sampleCtx rfl ⟨"t", ""⟩
  have hq : makeQuery (fun c => c.isDigit) ⟨"t", ""⟩ exKept = .ok ⟨"INSERT INTO t (`s`) VALUES", ""⟩ := rfl
  have hdec : Decodes sampleEnv sampleInfo (4 :: (bs ++ [5])) ([Packet.pong, .block d, .eof].map .inl) sampleInfo [] :=
    .packet (pong_parse _ _ _) (.other (by simp)) (.packet (hp [5]) (.other (by simp)) (.packet (eof_parse _ _) (.other (by simp)) .done))
  obtain ⟨c', hx⟩ := exKept_insert (d := d) hd sampleCtx ⟨"INSERT INTO t (`s`) VALUES", ""⟩ [.ping]
  obtain ⟨n, h', g⟩ := exOn_asks (numeric := fun c => c.isDigit) (cast := fun x t => x.castTo parseSome t) (bs := 4 :: (bs ++ [5]))
    (ps := [.pong, .block d, .eof]) (a := .insert ⟨"t", ""⟩ exKept) (o := []) (ctx := sampleCtx) (c' := c') (by simp) hdec (by
      simp only [ask, Handle.insert, hq, List.map_cons, List.map_nil, exOn_precheck, hx]) (by simp) he
  refine ⟨_, n, h', _, g, fun k e => by cases e; exact exOn_issued _ _, nofun, rfl, he, rfl, hq, exKept_query _ rfl rfl rfl, d, ?_, exKept_suits hd⟩
  exact exOn_delivers hdec

/-- C91. An INSERT of any number of rows, whatever the conversion to the table: when it is reported as done, the converted block `b'` is
one whose pieces the socket has taken one after the other, each with the statement before it and the end of the data after it, in the native
format, and the rows of the pieces are, one piece after the other, the rows of `b'`. (`_partial`: without arrays and maps, which are not
sent correctly from the second piece on, see `C17_array_chunk_violated`; that the rows of `b'` are the converted rows is
`C34_column_partial`.) -/
theorem C91_pieces_partial (env : Env) (numeric : Char → Bool) (cast : Block → Block → Out Block) (kind : String → SettingKind) (tz tz' : Tz)
    (k : Sock) (ctx : Context) (bd : Binding) (h' : HandleS) (w : WorldS) (t q : Query) (b : Block) (log : List Cmd) (hi : Issued env k log)
    (hp : ctx.options.pingBeforeQuery = false) (he : DataEncodes env cast ctx (.insert t b)) (hq : makeQuery numeric t b = .ok q)
    (hk : QueryOK env kind tz' q ctx) (ha : AskS env numeric cast ⟨some k, ctx, bd⟩ w (.insert t b) (.items []) h') :
    ∃ table ps k' b', Heads k.t.inconsistent table ps ∧ Delivers env k ps ∧ h'.inner = some k' ∧ cast b table = .ok b' ∧
      ∀ n, b'.rowCount = .ok n → 0 < n → (∀ c ∈ b'.columns, c.data.len = .ok n ∧ Savable tz c.data 0 n ∧ Flat c.data.sqlType ∧
          KeysHash c.data.sqlType ∧ Flagged c.data ∧ ListFree c.data.sqlType) →
        ∃ parts : List (Nat × List Field × Bytes), ∃ empty,
          (∀ p ∈ parts, 0 < p.1 ∧ p.1 ≤ 1048576 ∧ PieceLaid tz b' p.1 p.2.1 p.2.2) ∧ BlockLaid tz BlockInfo.default 0 [] empty ∧
          (parts.flatMap fun p => saidRows (.block BlockInfo.default p.1 p.2.1)).map (·.map Out.ok) = rowsOf b' ∧
          ((ctx.options.compression = true → (∀ p ∈ parts, Packs env.codec p.2.2) ∧ Packs env.codec empty) →
            ∃ stmt, ∃ rows : List Bytes, k'.writer.out = cmdBytes env.codec (log ++ cancelFirst k) ++ rows.flatMap (stmt ++ ·) ∧
              Stated env kind tz' q ctx stmt ∧ rows.length = parts.length ∧
              ∀ (i : Nat) p r, parts[i]? = some p → rows[i]? = some r → RowsPackets env.codec ctx.options.compression p.2.2 empty r) := by
  obtain ⟨h1, w1, k1, k', hpc, hin, hx, ho⟩ := insert_of hq ha
  cases hpc with
  | ok hp' => simp only at hp'; rw [hp] at hp'; cases hp'
  | failed _ _ hn => exact absurd rfl hn
  | off =>
    cases hin
    obtain ⟨d, b', chs, ps, g1, g2, g3, g4, g5⟩ := insert_done hi he hx
    refine ⟨d, ps, k', b', g1, g2, ho, g3, fun n hr h0 hc => ?_⟩
    obtain ⟨chs', parts, w1, w2, w3, w4⟩ := C78_large_partial tz n b' hr h0 hc
    rw [g4] at w1
    cases w1
    obtain ⟨empty, fs0, l1, l2, l3, -⟩ := C76_block_write_partial tz 0 Block.new rfl (by decide) (by decide) (by simp [Block.new])
    rw [(List.length_eq_zero_iff.mp l3 : fs0 = [])] at l2
    refine ⟨parts, empty, fun p hp => ?_, l2, w4, fun hz => ?_⟩
    · obtain ⟨i, hi, rfl⟩ := List.mem_iff_getElem.mp hp
      obtain ⟨a1, a2, -, a4⟩ := w3 i _ _ (List.getElem?_eq_getElem (w2 ▸ hi)) (List.getElem?_eq_getElem hi)
      exact ⟨a1, a2, a4⟩
    obtain ⟨stmt, s1, s2⟩ := stated hk
    have hone : ∀ (r : Bytes) (bl : Block), bl.write = .ok r → (ctx.options.compression = true → Packs env.codec r) →
        ∃ body, bl.sendData env.codec ctx.options.compression = .ok ([2, 0] ++ body) ∧ Carried env.codec ctx.options.compression r body :=
      fun r bl => sent_packet env.codec ctx.options.compression r bl
    obtain ⟨y, y1, y2⟩ := hone empty _ l1 fun hc => (hz hc).2
    have hall : ∃ rows : List Bytes, rows.length = parts.length ∧
        ∀ (i : Nat) p r, parts[i]? = some p → rows[i]? = some r → RowsPackets env.codec ctx.options.compression p.2.2 empty r ∧
          ∀ ch, chs[i]? = some ch → (Cmd.union (.sendData ch ctx) (.sendData Block.new ctx)).encode env.codec = .ok r := by
      refine pick_list (P := fun (i : Nat) (p : Nat × List Field × Bytes) (r : Bytes) => RowsPackets env.codec ctx.options.compression p.2.2 empty r ∧
          ∀ ch, chs[i]? = some ch → (Cmd.union (.sendData ch ctx) (.sendData Block.new ctx)).encode env.codec = .ok r) parts fun i p hp => ?_
      obtain ⟨hi, rfl⟩ := List.getElem?_eq_some_iff.mp hp
      have hi' : i < chs.length := w2 ▸ hi
      obtain ⟨-, -, a3, -⟩ := w3 i _ _ (List.getElem?_eq_getElem hi') hp
      obtain ⟨x, x1, x2⟩ := hone _ _ a3 fun hc => (hz hc).1 _ (List.getElem_mem hi)
      refine ⟨_, ⟨x, y, x2, y2, rfl⟩, fun ch hch => ?_⟩
      rw [List.getElem?_eq_getElem hi'] at hch
      cases hch
      rw [Cmd.encode, Cmd.encode, Cmd.encode, x1, y1]
      rfl
    obtain ⟨rows, r1, r2⟩ := hall
    refine ⟨stmt, rows, ?_, s2, r1, fun i p r h1 h2 => (r2 i p r h1 h2).1⟩
    rw [g5, cmdBytes_append, cmdBytes_pieces s1 (rows := rows) (r1.trans w2) fun i ch r h1 h2 => ?_]
    obtain ⟨hi, rfl⟩ := List.getElem?_eq_some_iff.mp h2
    exact (r2 i _ _ (List.getElem?_eq_getElem (r1 ▸ hi)) h2).2 ch h1

/-- A block of `n` numbers. -/
def exMany (n : Nat) : Block := ⟨BlockInfo.default, [⟨"x", .num .u8 (List.replicate n 7)⟩]⟩

theorem exMany_fine (n : Nat) : ∀ c ∈ (exMany n).columns, c.data.len = .ok n ∧ Savable [] c.data 0 n ∧ Flat c.data.sqlType ∧
    KeysHash c.data.sqlType ∧ Flagged c.data ∧ ListFree c.data.sqlType := by
  intro c hc
  obtain rfl := List.mem_singleton.mp hc
  refine ⟨by simp [Col.len], ⟨by omega, by simp, ?_⟩, trivial, trivial, trivial, trivial⟩
  intro x hx
  rw [(List.mem_replicate.mp hx).2]
  decide

theorem exMany_rows (n : Nat) : (exMany n).rowCount = .ok n := by simp [exMany, Block.rowCount, Col.len]

/-- A round for each of the pieces. -/
def rounds (d : Block) : Nat → List Packet
  | 0 => []
  | m + 1 => .block d :: .eof :: rounds d m

theorem rounds_tail (d : Block) (ctx : Context) (q : Query) (bs : List Block) : ∀ log, ∃ c',
    Conn.insertTail ⟨(rounds d bs.length).map .packet, fun _ => [], false, log⟩ ctx q bs = .ok c' := by
  induction bs with
  | nil => intro log; exact ⟨_, rfl⟩
  | cons b bs ih =>
    intro log
    rw [insertTail_eq]
    have h2 := C71_insert_query ⟨(rounds d (bs.length + 1)).map .packet, fun _ => [], false, log⟩ q ctx
      (.finished (.block d) (.packet .eof :: (rounds d bs.length).map .packet)) (by rw [List.append_nil]; exact .finished .block)
    have h4 := C71_insert_block ⟨.packet .eof :: (rounds d bs.length).map .packet, fun _ => [], false, log ++ [.sendQuery q ctx]⟩ b ctx
      (.finished .eof ((rounds d bs.length).map .packet)) (by rw [List.append_nil]; exact .finished .eof)
    simp only at h2 h4
    rw [List.length_cons, h2]
    simp only [andThen, h4]
    exact ih _

theorem rounds_insert (d b : Block) (ctx : Context) (q : Query) (chs : List Block) (h : insertChunks b = .ok chs) (hne : chs ≠ []) :
    ∃ c', Conn.insert (fun b _ => .ok b) ⟨(rounds d chs.length).map .packet, fun _ => [], false, []⟩ q ctx b = .ok c' := by
  obtain ⟨c', ht⟩ := rounds_tail d ctx q chs []
  match chs, hne with
  | ch :: chs, _ =>
    rw [insertTail_eq] at ht
    rw [insert_eq, show Conn.clear ⟨(rounds d (ch :: chs).length).map .packet, fun _ => [], false, []⟩ =
      .ok ⟨(rounds d (ch :: chs).length).map .packet, fun _ => [], false, []⟩ from rfl]
    simp only [andThen, h] at ht ⊢
    exact ⟨c', ht⟩

theorem eof_then (rest : Bytes) : parsePacket sampleEnv sampleInfo (5 :: rest) = .ok .eof rest :=
  (C05_answers_are_final sampleEnv sampleInfo [5] rest).1 _ _ (eof_parse _ _)

theorem rounds_bytes {bs : Bytes} {d : Block} (hp : ∀ rest, parsePacket sampleEnv sampleInfo (bs ++ rest) = .ok (.block d) rest) (m : Nat) :
    ∃ x, Decodes sampleEnv sampleInfo x ((rounds d m).map .inl) sampleInfo [] ∧ (0 < m → x ≠ []) := by
  induction m with
  | zero => exact ⟨[], .done, by simp⟩
  | succ m ih =>
    obtain ⟨x, h1, -⟩ := ih
    exact ⟨bs ++ (5 :: x), .packet (hp _) (.other (by simp)) (.packet (eof_then x) (.other (by simp)) h1), by simp⟩

/-- The hypotheses of `C91_pieces_partial`: any number of rows, in as many pieces as it takes. -/
example (m : Nat) (hm : 0 < m) : ∃ bs n h' q, AskS sampleEnv (fun c => c.isDigit) (fun b _ => .ok b)
        ⟨some (exOn bs n), uncheckedCtx, .attached⟩ [] (.insert ⟨"t", ""⟩ (exMany m)) (.items []) h' ∧
      Issued sampleEnv (exOn bs n) [] ∧ uncheckedCtx.options.pingBeforeQuery = false ∧
      DataEncodes sampleEnv (fun b _ => .ok b) uncheckedCtx (.insert ⟨"t", ""⟩ (exMany m)) ∧
      makeQuery (fun c => c.isDigit) ⟨"t", ""⟩ (exMany m) = .ok q ∧ QueryOK sampleEnv (fun _ => .number) "UTC".toList q uncheckedCtx ∧
      (exMany m).rowCount = .ok m ∧ ∀ c ∈ (exMany m).columns, c.data.len = .ok m ∧ Savable [] c.data 0 m ∧ Flat c.data.sqlType ∧
        KeysHash c.data.sqlType ∧ Flagged c.data ∧ ListFree c.data.sqlType := by
  obtain ⟨hdr, d, -, -, hp⟩ := exKept_header
  obtain ⟨chs, parts, w1, w2, w3, w4⟩ := C78_large_partial [] m (exMany m) (exMany_rows m) hm (exMany_fine m)
  have hne : chs ≠ [] := by
    rintro rfl
    rw [List.length_eq_zero_iff.mp w2] at w4
    have := congrArg List.length w4
    simp [rowsOf, exMany_rows] at this
    omega
  obtain ⟨x, hdec, hx0⟩ := rounds_bytes hp chs.length
  have hq : makeQuery (fun c => c.isDigit) ⟨"t", ""⟩ (exMany m) = .ok ⟨"INSERT INTO t (`x`) VALUES", ""⟩ :=
    show makeQuery (fun c => c.isDigit) ⟨"t", ""⟩ (exMany 0) = _ from rfl
  obtain ⟨c', hx⟩ := rounds_insert d (exMany m) uncheckedCtx ⟨"INSERT INTO t (`x`) VALUES", ""⟩ chs w1 hne
  have he : DataEncodes sampleEnv (fun b _ => .ok b) uncheckedCtx (.insert ⟨"t", ""⟩ (exMany m)) := by
    intro d b' chs' ch h1 h2 h3
    cases h1
    rw [w1] at h2
    cases h2
    obtain ⟨i, hi, rfl⟩ := List.mem_iff_getElem.mp h3
    obtain ⟨-, -, a3, -⟩ := w3 i _ _ (List.getElem?_eq_getElem hi) (List.getElem?_eq_getElem (w2.symm ▸ hi))
    obtain ⟨body, b1, -⟩ := sent_packet sampleEnv.codec false _ _ a3 nofun
    rw [Cmd.encode, Cmd.encode, Cmd.encode, show uncheckedCtx.options.compression = false from rfl, b1]
    exact ⟨_, rfl⟩
  obtain ⟨n, h', g⟩ := exOn_asks (numeric := fun c => c.isDigit) (cast := fun b _ => .ok b) (bs := x)
    (ps := rounds d chs.length) (a := .insert ⟨"t", ""⟩ (exMany m)) (o := []) (ctx := uncheckedCtx) (c' := c')
    (hx0 (List.length_pos_iff.mpr hne)) hdec (by
      simp only [ask, Handle.insert, hq, Handle.precheck, show uncheckedCtx.options.pingBeforeQuery = false from rfl]
      simp [hx]) (by simp) he
  exact ⟨x, n, h', _, g, exOn_issued _ _, rfl, he, hq, ⟨by decide, by decide, by decide, by nofun, ⟨⟨0, emptyBlock_ok _ _⟩, nofun⟩⟩,
    exMany_rows m, exMany_fine m⟩

end CH.Props
