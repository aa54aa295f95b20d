import Verif.Lemmas.Cmd

/-! Properties C38 and C39: the messages the client sends. -/

namespace CH.Props
open CH CH.Spec

/-- The compressor is lossless (for what is written here) and the frames stay within the limits of the format. -/
structure Lossless (z : Codec) (data : Bytes) : Prop where
  back : z.decompress (z.compress data) data.length = some data
  size : 9 + (z.compress data).length ≤ 0x40000000
  orig : data.length < 2 ^ 32

/-- Same columns, same rows. -/
def SameBlock (b b' : Block) : Prop :=
  b'.info = b.info ∧ header b' = header b ∧ b'.rowCount = b.rowCount ∧ rowsOf b' = rowsOf b

/-- What is needed of a block to send it with or without compression. -/
structure SendOK (env : Env) (tz : Tz) (compress : Bool) (b : Block) : Prop where
  ok : ∃ n, BlockOK env.known tz n b
  lossless : compress = true → ∀ x, b.write = .ok x → Lossless env.codec x

/-- A block sent by the client and read with the same compression setting is the same block. -/
theorem C39_block_sent (env : Env) (tz : Tz) (compress : Bool) (b : Block) (h : SendOK env tz compress b) :
    ∃ bytes, b.writeC env.codec compress = .ok bytes ∧ ∀ rest, ∃ b',
      blockLoad env.known env.codec tz compress (bytes ++ rest) = .ok b' rest ∧ SameBlock b b' := by
  obtain ⟨n, hn⟩ := h.ok
  obtain ⟨x, h1, h2⟩ := C10_block_roundtrip_partial env.known tz n b hn
  have same : ∀ b', b'.info = b.info → header b' = header b → b'.rowCount = .ok n → (∀ i, i < n → rowOf b' i = rowOf b i) →
      SameBlock b b' := by
    intro b' g1 g2 g3 g4
    refine ⟨g1, g2, by rw [g3, hn.rows], ?_⟩
    rw [rowsOf, rowsOf, g3, hn.rows]
    exact List.map_congr_left fun i hi => g4 i (List.mem_range.mp hi)
  cases compress with
  | false =>
    refine ⟨x, by rw [Block.writeC, if_neg (by simp), h1], fun rest => ?_⟩
    obtain ⟨b', g1, g2, g3, g4, _, g6⟩ := h2 rest
    exact ⟨b', by rw [blockLoad, if_neg (by simp)]; exact g1, same b' g2 g3 g4 g6⟩
  | true =>
    have hl := h.lossless rfl x h1
    refine ⟨putFrame env.codec x, by rw [Block.writeC, if_pos rfl, h1]; rfl, fun rest => ?_⟩
    obtain ⟨b', g1, g2, g3, g4, _, g6⟩ := h2 []
    rw [List.append_nil] at g1
    have hne : x ≠ [] := by
      rintro rfl
      rw [rawLoad, readBlockInfo] at g1
      simp [bind_run, loop_run, readBlockInfoStep, readUvarint, readUvarintLoop] at g1
    have := C13_framing_transparent env.known env.codec tz [(putFrame env.codec x, x)]
      (by simpa using ⟨putFrame_isFrame hl.back hl.size hl.orig, hne⟩) b' (by simpa using g1) rest
    exact ⟨b', by simpa using this, same b' g2 g3 g4 g6⟩

theorem emptyBlock_bytes : Block.new.write = .ok [1, 0, 2, 255, 255, 255, 255, 0, 0, 0] := by
  have h : putLE 4 (ofSigned 4 (-1)) = [255, 255, 255, 255] := by decide
  have u0 : putUvarint 0 = [0] := by simp [putUvarint]
  have u1 : putUvarint 1 = [1] := by simp [putUvarint]
  have u2 : putUvarint 2 = [2] := by simp [putUvarint]
  show Out.ok (putUvarint 1 ++ [0] ++ putUvarint 2 ++ putLE 4 (ofSigned 4 (-1)) ++ putUvarint 0 ++ putUvarint 0 ++
    putUvarint 0 ++ []) = _
  rw [u0, u1, u2, h]
  rfl

theorem emptyBlock_ok (known : Tz → Bool) (tz : Tz) : BlockOK known tz 0 Block.new :=
  ⟨rfl, by decide, by decide, by decide, by decide, by intro c hc; cases hc⟩

example : SendOK sampleEnv "UTC".toList false sampleBlock ∧ SendOK sampleEnv "UTC".toList true Block.new := by
  refine ⟨⟨⟨3, sampleBlock_ok _⟩, by simp⟩, ⟨⟨0, emptyBlock_ok _ _⟩, fun _ x hx => ?_⟩⟩
  rw [emptyBlock_bytes, Out.ok.injEq] at hx
  subst hx
  exact ⟨rfl, by decide, by decide⟩

/-- Lengths fit and the settings are ones the format can carry. -/
structure QueryOK (env : Env) (kind : String → SettingKind) (tz : Tz) (q : Query) (c : Context) : Prop where
  sql : (strBytes q.sql).length < 2 ^ 63
  id : (strBytes q.id).length < 2 ^ 63
  host : (strBytes c.hostname).length < 2 ^ 63
  settings : ∀ s ∈ c.options.settings, SettingOK kind (min c.revision 54429) s
  empty : SendOK env tz c.options.compression Block.new

/-- What the server should see of a query. The id should be the id of the query. -/
def seenQuery (q : Query) (c : Context) : QueryMsg where
  queryId := ""
  queryKind := 1
  initialUser := ""
  initialQueryId := q.id
  initialAddress := "[::ffff:127.0.0.1]:0"
  interface := 1
  osUser := c.hostname
  clientHostname := c.hostname
  clientName := "Rust SQLDriver"
  clientVersion := (1, 1, 54429)
  quotaKey := ""
  patch := 0
  settings := c.options.settings.map (seenSetting (min c.revision 54429))
  stage := 2
  compression := if c.options.compression then 1 else 0
  sql := q.sql

/-- C38. A server of any revision decodes a query message to the SQL text, the settings and the compression flag the user
supplied, followed by one empty data block, followed by exactly the bytes sent after it. (`_partial`: the id arrives as
"initial query id", the id of the query itself stays empty, see `C38_query_id_violated`; settings must have non-empty names,
see `C38_unnamed_setting_violated`, and before revision 54429 values of the kind the server expects.) -/
theorem C38_query_partial (env : Env) (kind : String → SettingKind) (tz : Tz) (q : Query) (c : Context)
    (h : QueryOK env kind tz q c) :
    ∃ bytes, encodeQuery env.codec q c = .ok bytes ∧ ∀ rest, ∃ r b,
      readMsg env kind (min c.revision 54429) tz c.options.compression (bytes ++ rest) = .ok (.query (seenQuery q c)) r ∧
      readMsg env kind (min c.revision 54429) tz c.options.compression r = .ok (.data "" b) rest ∧ b.columns = [] := by
  obtain ⟨d, h1, h2⟩ := C39_block_sent env tz c.options.compression Block.new h.empty
  have hd : Block.new.sendData env.codec c.options.compression = .ok (putUvarint 2 ++ putString "" ++ d) := by
    rw [Block.sendData, h1]; rfl
  refine ⟨_, by rw [encodeQuery, hd]; rfl, fun rest => ?_⟩
  obtain ⟨b', g1, _, g3, _, _⟩ := h2 rest
  refine ⟨putUvarint 2 ++ (putString "" ++ (d ++ rest)), b', ?_, ?_, ?_⟩
  · simp only [List.append_assoc]
    rw [readMsg, bind_ok (readUvarint_put (by decide) _), if_neg (by decide), if_pos rfl]
    refine (bind_ok (a := seenQuery q c) ?_).trans rfl
    rw [readQuery, bind_ok (readString_put _ _ (by decide)), show putUvarint 1 = putLE 1 1 by simp [putUvarint, putLE],
      bind_ok (readLE_put (by decide) _), bind_ok (readString_put _ _ (by decide)), bind_ok (readString_put _ _ h.id),
      bind_ok (readString_put _ _ (by decide)), bind_ok (readLE_put (by decide) _), bind_ok (readString_put _ _ h.host),
      bind_ok (readString_put _ _ h.host)]
    have hv : ∀ w, readVersion (clientInfo ++ w) = .ok ("Rust SQLDriver", 1, 1, 54429) w := by
      intro w
      rw [clientInfo]
      simp only [List.append_assoc]
      rw [readVersion, bind_ok (readString_put _ _ (by decide)), bind_ok (readUvarint_put (by decide) _),
        bind_ok (readUvarint_put (by decide) _), bind_ok (readUvarint_put (by decide) _)]
      rfl
    rw [bind_ok (hv _)]
    have hq : ∀ w, fieldIf (54060 ≤ min c.revision 54429) readString ""
        ((if c.revision ≥ 54060 then putString "" else []) ++ w) = .ok "" w := by
      intro w
      by_cases hr : 54060 ≤ c.revision
      · rw [fieldIf, if_pos (by omega), if_pos hr, readString_put _ _ (by decide)]
      · rw [fieldIf, if_neg (by omega), if_neg hr]; rfl
    have hp : ∀ w, fieldIf (54401 ≤ min c.revision 54429) readUvarint 0
        ((if c.revision ≥ 54401 then putUvarint 0 else []) ++ w) = .ok 0 w := by
      intro w
      by_cases hr : 54401 ≤ c.revision
      · rw [fieldIf, if_pos (by omega), if_pos hr, readUvarint_put (by decide)]
      · rw [fieldIf, if_neg (by omega), if_neg hr]; rfl
    rw [bind_ok (hq _), bind_ok (hp _)]
    have hs : ∀ w, readSettings kind (min c.revision 54429) (serializeSettings c.options.settings (c.revision ≥ 54429) ++ w) =
        .ok (c.options.settings.map (seenSetting (min c.revision 54429))) w := by
      intro w
      have := readSettings_put kind (min c.revision 54429) c.options.settings h.settings w
      rwa [show decide (min c.revision 54429 ≥ 54429) = decide (c.revision ≥ 54429) by
        apply decide_eq_decide.mpr; omega] at this
    rw [bind_ok (hs _), bind_ok (readUvarint_put (by decide) _), bind_ok (readUvarint_put (by split <;> decide) _),
      bind_ok (readString_put _ _ h.sql)]
    rfl
  · rw [readMsg, bind_ok (readUvarint_put (by decide) _), if_neg (by decide), if_neg (by decide), if_pos rfl,
      bind_ok (readString_put _ _ (by decide)), bind_ok g1]
    rfl
  · have : b'.columns.map (fun c => (c.name, c.data.sqlType)) = [] := g3
    simpa using this

/-- Options for the examples. -/
def sampleOptions : Options :=
  (Options.default.withSetting "max_block_size" (.uint64 65536) true).withSetting "readonly" (.bool true) false

example : QueryOK sampleEnv (fun _ => .number) "UTC".toList ⟨"SELECT 1", "id-1"⟩ ⟨54200, "host", sampleOptions⟩ ∧
    QueryOK sampleEnv (fun _ => .text) "UTC".toList ⟨"SELECT 1", "id-1"⟩ ⟨54450, "host", sampleOptions⟩ := by
  refine ⟨⟨by decide, by decide, by decide, ?_, ⟨⟨0, emptyBlock_ok _ _⟩, by simp [sampleOptions, Options.default, Options.withSetting]⟩⟩,
    ⟨by decide, by decide, by decide, ?_, ⟨⟨0, emptyBlock_ok _ _⟩, by simp [sampleOptions, Options.default, Options.withSetting]⟩⟩⟩
  all_goals
    intro s hs
    simp only [sampleOptions, Options.default, Options.withSetting, Settings.insert, List.mem_cons, List.not_mem_nil, or_false,
      if_neg (show ("max_block_size" : String) ≠ "readonly" by decide)] at hs
    rcases hs with rfl | rfl
  all_goals exact ⟨by decide, by decide, by rw [text_eq]; decide, by simp, by simp [settingAgrees]⟩

/-- C38 fails for the query id: whatever id the user gives, the query the server decodes has another (empty) query id. -/
theorem C38_query_id_violated (env : Env) (kind : String → SettingKind) (tz : Tz) (q : Query) (c : Context)
    (h : QueryOK env kind tz q c) (hid : q.id ≠ "") :
    ∃ bytes m r, encodeQuery env.codec q c = .ok bytes ∧
      readMsg env kind (min c.revision 54429) tz c.options.compression bytes = .ok (.query m) r ∧ m.queryId ≠ q.id := by
  obtain ⟨bytes, h1, h2⟩ := C38_query_partial env kind tz q c h
  obtain ⟨r, _, h3, _⟩ := h2 []
  rw [List.append_nil] at h3
  exact ⟨bytes, _, r, h1, h3, fun e => hid e.symm⟩

example : (Query.mk "SELECT 1" "id-1").id ≠ "" := by decide

/-- C38 fails for a setting without a name (`with_setting("", ..)` or a URL parameter `?=x`): the server takes it for the end of
the settings, so that it and the settings behind it are lost and their bytes are read as the rest of the message. -/
theorem C38_unnamed_setting_violated (kind : String → SettingKind) (revision : Nat) (v : SettingValue) (ss : Settings) (rest : Bytes) :
    ∃ r, readSettings kind revision (serializeSettings (("", v) :: ss) (revision ≥ 54429) ++ rest) = .ok [] r ∧
      rest.length < r.length := by
  rw [serializeSettings_cons]
  have hs : ∃ w, (if 54429 ≤ revision then putSettingText ("", v) else putSettingOld ("", v)) = putString "" ++ w := by
    split
    · exact ⟨_, by rw [putSettingText, List.append_assoc]⟩
    · exact ⟨_, by rw [putSettingOld]⟩
  obtain ⟨w, hw⟩ := hs
  refine ⟨w ++ (serializeSettings ss (revision ≥ 54429) ++ rest), ?_, ?_⟩
  · rw [hw, readSettings, List.append_assoc]
    refine loop_inr ?_
    rw [bind_ok (readString_put _ _ (by decide)), if_pos rfl]
    rfl
  · have : 0 < (serializeSettings ss (revision ≥ 54429)).length := by
      rw [serializeSettings, List.length_append]
      have : (putString "").length = 1 := by simp [putString, putBytes, putUvarint, strBytes]
      omega
    simp only [List.length_append]; omega

/-- Lengths of the credentials fit. -/
structure HelloSent (c : Context) : Prop where
  db : (strBytes c.options.database).length < 2 ^ 63
  user : (strBytes c.options.username).length < 2 ^ 63
  pass : (strBytes c.options.password).length < 2 ^ 63

/-- A command that can be sent on a connection of a given revision and compression. -/
inductive CmdOK (env : Env) (kind : String → SettingKind) (tz : Tz) (revision : Nat) (compress : Bool) : Cmd → Prop
  | hello {c} : HelloSent c → CmdOK env kind tz revision compress (.hello c)
  | ping : CmdOK env kind tz revision compress .ping
  | cancel : CmdOK env kind tz revision compress .cancel
  | query {q c} : c.revision = revision → c.options.compression = compress → QueryOK env kind tz q c →
      CmdOK env kind tz revision compress (.sendQuery q c)
  | data {b c} : c.options.compression = compress → SendOK env tz compress b → CmdOK env kind tz revision compress (.sendData b c)
  | union {a b} : CmdOK env kind tz revision compress a → CmdOK env kind tz revision compress b →
      CmdOK env kind tz revision compress (.union a b)

/-- The messages that stand for a command. -/
inductive Sees : Cmd → List Msg → Prop
  | hello {c} : Sees (.hello c) [.hello "Rust SQLDriver" (1, 1, 54429) c.options.database c.options.username c.options.password]
  | ping : Sees .ping [.ping]
  | cancel : Sees .cancel [.cancel]
  | query {q c b} : b.columns = [] → Sees (.sendQuery q c) [.query (seenQuery q c), .data "" b]
  | data {b b' c} : SameBlock b b' → Sees (.sendData b c) [.data "" b']
  | union {a b xs ys} : Sees a xs → Sees b ys → Sees (.union a b) (xs ++ ys)

/-- C39. The bytes of any command, alone or combined with others, are decoded by the server as exactly the messages of that
command, in order, and do not disturb what is sent next. -/
theorem C39_commands (env : Env) (kind : String → SettingKind) (tz : Tz) (revision : Nat) (compress : Bool) (cmd : Cmd)
    (h : CmdOK env kind tz revision compress cmd) :
    ∃ bytes, cmd.encode env.codec = .ok bytes ∧ ∀ rest ms,
      Reads (readMsg env kind (min revision 54429) tz compress) rest ms →
      ∃ xs, Sees cmd xs ∧ Reads (readMsg env kind (min revision 54429) tz compress) (bytes ++ rest) (xs ++ ms) := by
  induction h with
  | @hello c hc =>
    refine ⟨_, rfl, fun rest ms hr => ⟨_, .hello, .cons ?_ hr⟩⟩
    rw [encodeHello, clientInfo]
    simp only [List.append_assoc]
    rw [readMsg, bind_ok (readUvarint_put (by decide) _), if_pos rfl]
    have hv : ∀ w, readVersion (putString "Rust SQLDriver" ++ (putUvarint 1 ++ (putUvarint 1 ++ (putUvarint 54429 ++ w)))) =
        .ok ("Rust SQLDriver", 1, 1, 54429) w := by
      intro w
      rw [readVersion, bind_ok (readString_put _ _ (by decide)), bind_ok (readUvarint_put (by decide) _),
        bind_ok (readUvarint_put (by decide) _), bind_ok (readUvarint_put (by decide) _)]
      rfl
    rw [bind_ok (hv _), bind_ok (readString_put _ _ hc.db), bind_ok (readString_put _ _ hc.user), bind_ok (readString_put _ _ hc.pass)]
    rfl
  | ping =>
    refine ⟨_, rfl, fun rest ms hr => ⟨_, .ping, .cons ?_ hr⟩⟩
    rw [encodePing, readMsg, bind_ok (readUvarint_put (by decide) _)]
    rfl
  | cancel =>
    refine ⟨_, rfl, fun rest ms hr => ⟨_, .cancel, .cons ?_ hr⟩⟩
    rw [encodeCancel, readMsg, bind_ok (readUvarint_put (by decide) _)]
    rfl
  | @query q c h1 h2 h3 =>
    obtain ⟨bytes, g1, g2⟩ := C38_query_partial env kind tz q c h3
    subst h1 h2
    refine ⟨bytes, g1, fun rest ms hr => ?_⟩
    obtain ⟨r, b, e1, e2, e3⟩ := g2 rest
    exact ⟨_, .query e3, .cons e1 (.cons e2 hr)⟩
  | @data b c h1 h2 =>
    subst h1
    obtain ⟨d, g1, g2⟩ := C39_block_sent env tz _ b h2
    refine ⟨putUvarint 2 ++ putString "" ++ d, by rw [Cmd.encode, Block.sendData, g1]; rfl, fun rest ms hr => ?_⟩
    obtain ⟨b', e1, e2⟩ := g2 rest
    refine ⟨_, .data e2, .cons ?_ hr⟩
    simp only [List.append_assoc]
    rw [readMsg, bind_ok (readUvarint_put (by decide) _), if_neg (by decide), if_neg (by decide), if_pos rfl,
      bind_ok (readString_put _ _ (by decide)), bind_ok e1]
    rfl
  | union _ _ iha ihb =>
    obtain ⟨x, hx, ha⟩ := iha
    obtain ⟨y, hy, hb⟩ := ihb
    refine ⟨x ++ y, by rw [Cmd.encode, hx, hy]; rfl, fun rest ms hr => ?_⟩
    obtain ⟨ys, s2, r2⟩ := hb rest ms hr
    obtain ⟨xs, s1, r1⟩ := ha _ _ r2
    exact ⟨_, .union s1 s2, by rw [List.append_assoc, List.append_assoc]; exact r1⟩

/-- A byte string is read as at most one sequence of messages. -/
theorem C39_reading_unique {p : Reader Msg} {bs : Bytes} {xs ys : List Msg} (h1 : Reads p bs xs) (h2 : Reads p bs ys)
    (h0 : ∀ m r, p [] ≠ .ok m r) : xs = ys := by
  induction h1 generalizing ys with
  | nil => cases h2 with
    | nil => rfl
    | cons h _ => exact absurd h (h0 _ _)
  | cons h _ ih => cases h2 with
    | nil => exact absurd h (h0 _ _)
    | cons h' h2 => rw [h] at h'; simp only [Res.ok.injEq] at h'; obtain ⟨rfl, rfl⟩ := h'; rw [ih h2]

/-- C39. An uncompressed empty data message, as it ends every INSERT and every query, byte for byte. -/
theorem C39_empty_data_bytes (z : Codec) :
    Block.new.sendData z false = .ok [2, 0, 1, 0, 2, 255, 255, 255, 255, 0, 0, 0] := by
  simp [Block.sendData, Block.writeC, emptyBlock_bytes, putUvarint, putString, putBytes, strBytes]

example : CmdOK sampleEnv (fun _ => .number) "UTC".toList 54450 false
    (.union (.hello ⟨0, "h", Options.default⟩) (.union .ping (.sendData Block.new ⟨54450, "h", Options.default⟩))) :=
  .union (.hello ⟨by decide, by decide, by decide⟩) (.union .ping (.data rfl ⟨⟨0, emptyBlock_ok _ _⟩, by simp⟩))

end CH.Props
