import Verif.Lemmas.Parser
import Verif.Props.Block

/-! Properties C05, C07, C08, C11, C12, C13: server messages and compressed framing. -/

namespace CH.Props
open CH CH.Spec

/-- An environment for the examples: the zone UTC, no compression, the hash of anything is zero. -/
def sampleEnv : Env := ⟨fun z => z = "UTC".toList, ⟨id, fun b _ => some b, fun _ => (0, 0)⟩⟩

/-- A connection that has received the server's hello. -/
def sampleInfo : TransportInfo := ⟨some "UTC".toList, false, 54450⟩

/-- C05. If decoding a message succeeds, fails or panics on some bytes, it does the same when more bytes follow, and leaves the
additional bytes untouched. -/
theorem C05_answers_are_final (env : Env) (info : TransportInfo) (bs ext : Bytes) :
    (∀ p rest, parsePacket env info bs = .ok p rest → parsePacket env info (bs ++ ext) = .ok p (rest ++ ext)) ∧
    (∀ e rest, parsePacket env info bs = .err e rest → parsePacket env info (bs ++ ext) = .err e (rest ++ ext)) ∧
    (parsePacket env info bs = .panic → parsePacket env info (bs ++ ext) = .panic) :=
  have hm := parsePacket_mono env info
  ⟨fun _ _ h => hm.ok h ext, fun _ _ h => hm.err h ext, fun h => hm.panic h ext⟩

example : parsePacket sampleEnv sampleInfo ([11, 1, 97, 0] ++ [200, 4]) = .ok (.tableColumns "a" "") [200, 4] :=
  (C05_answers_are_final sampleEnv sampleInfo [11, 1, 97, 0] [200, 4]).1 (.tableColumns "a" "") [] rfl

/-- C05. A proper beginning of a message asks for more data. -/
theorem C05_prefix_waits (env : Env) (info : TransportInfo) (bs ext : Bytes) (p : Packet) (hne : ext ≠ [])
    (h : parsePacket env info (bs ++ ext) = .ok p []) : parsePacket env info bs = .more :=
  (parsePacket_mono env info).prefix_more h hne

example : parsePacket sampleEnv sampleInfo [11, 1] = .more :=
  C05_prefix_waits sampleEnv sampleInfo [11, 1] [97, 0] (.tableColumns "a" "") (by simp) rfl

/-- C05. What is consumed is a beginning of the bytes received. -/
theorem C05_consumes_prefix (env : Env) (info : TransportInfo) (bs rest : Bytes) (p : Packet)
    (h : parsePacket env info bs = .ok p rest) : ∃ used, used ≠ [] ∧ bs = used ++ rest := by
  obtain ⟨c, hc⟩ := (parsePacket_fwd env info).ok h
  refine ⟨c, ?_, hc⟩
  rintro rfl
  have := parsePacket_progress h
  rw [hc] at this; simp at this

example : ∃ used : Bytes, used ≠ [] ∧ [11, 1, 97, 0, 4] = used ++ [4] :=
  C05_consumes_prefix sampleEnv sampleInfo [11, 1, 97, 0, 4] [4] (.tableColumns "a" "") rfl

example : parsePacket sampleEnv sampleInfo ([4] ++ [1]) = .ok .pong [1] ∧ parsePacket sampleEnv sampleInfo ([11, 1] ++ [97, 0]) =
    .ok (.tableColumns "a" "") [] ∧ parsePacket sampleEnv sampleInfo [11, 1] = .more := by
  refine ⟨rfl, rfl, rfl⟩

/-- C07. Hello: every revision, every combination of fields. -/
theorem C07_hello (env : Env) (info : TransportInfo) (i : ServerInfo) (h : HelloOK env.known i) (rest : Bytes) :
    parsePacket env info (encHello i ++ rest) = .ok (.hello i) rest := by
  rw [encHello]
  simp only [List.append_assoc]
  rw [parsePacket_put (by decide), parseBody, if_pos rfl, parseHello, bind_ok (readString_put _ _ h.name),
    bind_ok (readUvarint_put h.major _), bind_ok (readUvarint_put h.minor _), bind_ok (readUvarint_put h.revision _)]
  have h1 := h.tz
  have h2 := h.display
  have h3 := h.patch
  rw [bind_ok (since_ok (a := i.timezone) ?_ ?_), bind_ok (since_ok (a := i.displayName) ?_ ?_),
    bind_ok (since_ok (a := i.patch) ?_ ?_)]
  · rfl
  · intro hr; rw [if_pos hr] at h3; exact readUvarint_put h3 _
  · intro hr; rw [if_neg hr] at h3; exact h3
  · intro hr; rw [if_pos hr] at h2; exact readString_put _ _ h2
  · intro hr; rw [if_neg hr] at h2; exact h2
  · intro hr; rw [if_pos hr] at h1
    rw [readTz, bind_ok (readString_put _ _ h1.2), String.toList_ofList, if_pos h1.1]; rfl
  · intro hr; rw [if_neg hr] at h1; exact h1

example : HelloOK sampleEnv.known ⟨"ClickHouse", 20, 8, 54405, "UTC".toList, "db1", 7⟩ ∧
    HelloOK sampleEnv.known ⟨"ClickHouse", 1, 1, 54200, "UTC".toList, "", 0⟩ :=
  ⟨⟨by decide, by decide, by decide, by decide, by decide, by decide, by decide⟩,
    ⟨by decide, by decide, by decide, by decide, by decide, by decide, by decide⟩⟩

/-- C07. A hello with a zone the client does not know is an error. -/
theorem C07_hello_bad_zone (env : Env) (info : TransportInfo) (i : ServerInfo) (h1 : (strBytes i.name).length < 2 ^ 63)
    (h2 : i.major < 2 ^ 64) (h3 : i.minor < 2 ^ 64) (h4 : i.revision < 2 ^ 64) (hr : 54058 ≤ i.revision)
    (hz : env.known i.timezone = false) (hl : (strBytes (String.ofList i.timezone)).length < 2 ^ 63) (rest : Bytes) :
    ∃ e r, parsePacket env info (encHello i ++ rest) = .err e r := by
  refine ⟨.other "timezone", fieldSince i.revision 54372 (putString i.displayName) ++
    (fieldSince i.revision 54401 (putUvarint i.patch) ++ rest), ?_⟩
  rw [encHello]
  simp only [List.append_assoc]
  rw [parsePacket_put (by decide), parseBody, if_pos rfl, parseHello, bind_ok (readString_put _ _ h1),
    bind_ok (readUvarint_put h2 _), bind_ok (readUvarint_put h3 _), bind_ok (readUvarint_put h4 _)]
  refine bind_err ?_
  rw [since, if_pos hr, fieldSince, if_pos hr, readTz, bind_ok (readString_put _ _ hl), String.toList_ofList, hz]
  rfl

example : ∃ e r, parsePacket sampleEnv sampleInfo (encHello ⟨"ClickHouse", 20, 8, 54405, "Mars/Base".toList, "db1", 7⟩ ++ [1, 2]) = .err e r :=
  C07_hello_bad_zone sampleEnv sampleInfo ⟨"ClickHouse", 20, 8, 54405, "Mars/Base".toList, "db1", 7⟩ (by decide) (by decide)
    (by decide) (by decide) (by decide) (by decide) (by decide) [1, 2]

/-- C07. Progress: every revision. -/
theorem C07_progress (env : Env) (info : TransportInfo) (p : Progress) (h : ProgressOK info.revision p) (rest : Bytes) :
    parsePacket env info (encProgress info.revision p ++ rest) = .ok (.progress p) rest := by
  rw [encProgress]
  simp only [List.append_assoc]
  have h1 := h.total
  have h2 := h.wrows
  have h3 := h.wbytes
  rw [parsePacket_put (by decide), parseBody, if_neg (by decide), if_neg (by decide), if_pos rfl, parseProgress,
    bind_ok (readUvarint_put h.rows _), bind_ok (readUvarint_put h.bytes _), bind_ok (since_ok (a := p.totalRows) ?_ ?_)]
  · rw [show ∀ x y w : Bytes, fieldSince info.revision 54420 x ++ (fieldSince info.revision 54420 y ++ w) =
      fieldSince info.revision 54420 (x ++ y) ++ w from fun x y w => by simp only [fieldSince]; split <;> simp]
    rw [bind_ok (since_ok (a := (p.writtenRows, p.writtenBytes)) ?_ ?_)]
    · rfl
    · intro hr; rw [if_pos hr] at h2 h3
      rw [List.append_assoc, bind_ok (readUvarint_put h2 _), bind_ok (readUvarint_put h3 _)]; rfl
    · intro hr; rw [if_neg hr] at h2 h3; rw [h2, h3]
  · intro hr; rw [if_pos hr] at h1; exact readUvarint_put h1 _
  · intro hr; rw [if_neg hr] at h1; exact h1

example : ProgressOK 54420 ⟨1, 2, 3, 4, 5⟩ ∧ ProgressOK 54000 ⟨1, 2, 3, 0, 0⟩ ∧ ProgressOK 50000 ⟨1, 2, 0, 0, 0⟩ :=
  ⟨⟨by decide, by decide, by decide, by decide, by decide⟩, ⟨by decide, by decide, by decide, by decide, by decide⟩,
    ⟨by decide, by decide, by decide, by decide, by decide⟩⟩

/-- C07. Profile info. -/
theorem C07_profile_info (env : Env) (info : TransportInfo) (p : ProfileInfo) (h : ProfileOK p) (rest : Bytes) :
    parsePacket env info (encProfileInfo p ++ rest) = .ok (.profileInfo p) rest := by
  rw [encProfileInfo]
  simp only [List.append_assoc]
  rw [parsePacket_put (by decide), parseBody, if_neg (by decide), if_neg (by decide), if_neg (by decide), if_pos rfl,
    parseProfileInfo, bind_ok (readUvarint_put h.rows _), bind_ok (readUvarint_put h.blocks _), bind_ok (readUvarint_put h.bytes _),
    bind_ok (readBool_put _ _), bind_ok (readUvarint_put h.before _), bind_ok (readBool_put _ _)]
  rfl

example : ProfileOK ⟨1, 2, 3, true, 5, false⟩ := ⟨by decide, by decide, by decide, by decide⟩

/-- C07. Table columns. -/
theorem C07_table_columns (env : Env) (info : TransportInfo) (t c : String) (h1 : (strBytes t).length < 2 ^ 63)
    (h2 : (strBytes c).length < 2 ^ 63) (rest : Bytes) :
    parsePacket env info (encTableColumns t c ++ rest) = .ok (.tableColumns t c) rest := by
  rw [encTableColumns]
  simp only [List.append_assoc]
  rw [parsePacket_put (by decide), parseBody, if_neg (by decide), if_neg (by decide), if_neg (by decide), if_neg (by decide),
    if_pos rfl, parseTableColumns, bind_ok (readString_put _ _ h1), bind_ok (readString_put _ _ h2)]
  rfl

example : (strBytes "t").length < 2 ^ 63 := by decide

/-- C07. Pong and end of stream. -/
theorem C07_pong_eof (env : Env) (info : TransportInfo) (rest : Bytes) :
    parsePacket env info (putUvarint 4 ++ rest) = .ok .pong rest ∧ parsePacket env info (putUvarint 5 ++ rest) = .ok .eof rest := by
  refine ⟨?_, ?_⟩
  · rw [parsePacket_put (by decide), parseBody, if_neg (by decide), if_pos rfl]; rfl
  · rw [parsePacket_put (by decide)]; simp [parseBody]

/-- C07. Exception: code, name, message and stack trace are decoded exactly. (`_partial`: the flag behind them is not consumed, see
`C07_exception_violated`.) -/
theorem C07_exception_partial (env : Env) (info : TransportInfo) (e : ServerError) (h : ExceptionOK e) (rest : Bytes) :
    parsePacket env info (encExceptionFields e ++ rest) = .ok (.exception e) rest := by
  rw [encExceptionFields]
  simp only [List.append_assoc]
  rw [parsePacket_put (by decide), parseBody, if_neg (by decide), if_neg (by decide), if_neg (by decide), if_neg (by decide),
    if_neg (by decide), if_pos rfl, parseException, bind_ok (readLE_put h.code _), bind_ok (readString_put _ _ h.name),
    bind_ok (readString_put _ _ h.message), bind_ok (readString_put _ _ h.trace)]
  rfl

example : ExceptionOK ⟨60, "DB::Exception", "Table does not exist", ""⟩ := ⟨by decide, by decide, by decide, by decide⟩

/-- C07 fails for exceptions: the server ends an exception with the flag "nested exception follows"; the client leaves this byte in
its buffer, where it looks like the beginning of another message. -/
theorem C07_exception_violated (env : Env) (info : TransportInfo) (e : ServerError) (h : ExceptionOK e) (rest : Bytes) :
    parsePacket env info (encException e ++ rest) = .ok (.exception e) (0 :: rest) := by
  rw [encException, List.append_assoc, C07_exception_partial env info e h]; rfl

/-- C07. A data, totals or extremes message (temporary table name, then the block) is decoded as its block. -/
theorem C07_data (env : Env) (info : TransportInfo) (tz : Tz) (htz : info.timezone = some tz) (k : Nat) (hk : k = 1 ∨ k = 7 ∨ k = 8)
    (table : Bytes) (ht : table.length < 2 ^ 63) (body rest : Bytes) (b : Block)
    (hb : blockLoad env.known env.codec tz info.compress (body ++ rest) = .ok b rest) :
    parsePacket env info (putUvarint k ++ putBytes table ++ body ++ rest) = .ok (.block b) rest := by
  simp only [List.append_assoc]
  rw [parsePacket_put (by omega), parseBody, if_neg (by omega), if_neg (by omega), if_neg (by omega), if_neg (by omega),
    if_neg (by omega), if_neg (by omega), if_pos hk, parseBlock, htz]
  simp only
  rw [bind_ok (skipString_put _ _ ht), bind_ok hb]
  rfl

/-- C07. In particular a block as the client itself would write it. -/
theorem C07_data_block_partial (env : Env) (info : TransportInfo) (tz : Tz) (htz : info.timezone = some tz)
    (hc : info.compress = false) (k : Nat) (hk : k = 1 ∨ k = 7 ∨ k = 8) (n : Nat) (b : Block) (h : BlockOK env.known tz n b) :
    ∃ bytes, b.write = .ok bytes ∧ ∀ rest, ∃ b',
      parsePacket env info (putUvarint k ++ putString "" ++ bytes ++ rest) = .ok (.block b') rest ∧
      header b' = header b ∧ b'.rowCount = .ok n ∧ ∀ i, i < n → rowOf b' i = rowOf b i := by
  obtain ⟨bytes, h1, h2⟩ := C10_block_roundtrip_partial env.known tz n b h
  refine ⟨bytes, h1, fun rest => ?_⟩
  obtain ⟨b', g1, _, g3, g4, _, g6⟩ := h2 rest
  exact ⟨b', C07_data env info tz htz k hk _ (by decide) bytes rest b' (by rw [hc]; exact g1), g3, g4, g6⟩

example : ∃ bytes, sampleBlock.write = .ok bytes ∧ ∀ rest, ∃ b',
    parsePacket sampleEnv sampleInfo (putUvarint 7 ++ putString "" ++ bytes ++ rest) = .ok (.block b') rest ∧
    header b' = header sampleBlock ∧ b'.rowCount = .ok 3 ∧ ∀ i, i < 3 → rowOf b' i = rowOf sampleBlock i :=
  C07_data_block_partial sampleEnv sampleInfo "UTC".toList rfl rfl 7 (by decide) 3 sampleBlock (sampleBlock_ok _)

/-- C08. A message whose number the client does not know is an error carrying that number. -/
theorem C08_unknown_packet (env : Env) (info : TransportInfo) (k : Nat) (h64 : k < 2 ^ 64) (hk : k ∉ knownPackets) (rest : Bytes) :
    parsePacket env info (putUvarint k ++ rest) = .err (.unknownPacket k) rest := by
  simp only [knownPackets, List.mem_cons, List.not_mem_nil, or_false, not_or] at hk
  rw [parsePacket_put h64, parseBody, if_neg (by omega), if_neg (by omega), if_neg (by omega), if_neg (by omega), if_neg (by omega),
    if_neg (by omega), if_neg (by omega), if_neg (by omega)]
  rfl

example : (10 : Nat) ∉ knownPackets ∧ 999 ∉ knownPackets := by decide

/-- C08. Before the server's hello (no zone known yet) a data, totals or extremes message is an error, whatever its content. -/
theorem C08_premature_data (env : Env) (info : TransportInfo) (h : info.timezone = none) (k : Nat) (hk : k = 1 ∨ k = 7 ∨ k = 8)
    (rest : Bytes) : parsePacket env info (putUvarint k ++ rest) = .err .unexpectedPacket rest := by
  rw [parsePacket_put (by omega), parseBody, if_neg (by omega), if_neg (by omega), if_neg (by omega), if_neg (by omega),
    if_neg (by omega), if_neg (by omega), if_pos hk, parseBlock, h]
  rfl

example : (TransportInfo.mk none false 0).timezone = none := rfl

/-- C08. Whatever the bytes are, a packet is only delivered for a known number, and a block only after the hello. -/
theorem C08_only_known (env : Env) (info : TransportInfo) (bs rest : Bytes) (p : Packet) (h : parsePacket env info bs = .ok p rest) :
    ∃ k r, readUvarint bs = .ok k r ∧ k ∈ knownPackets ∧ ((∃ b, p = .block b) → info.timezone ≠ none) := by
  rw [parsePacket] at h
  obtain ⟨k, r, h1, h2⟩ := bind_eq_ok h
  refine ⟨k, r, h1, ?_, ?_⟩
  · refine Classical.byContradiction fun hk => ?_
    simp only [knownPackets, List.mem_cons, List.not_mem_nil, or_false, not_or] at hk
    rw [parseBody, if_neg (by omega), if_neg (by omega), if_neg (by omega), if_neg (by omega), if_neg (by omega),
      if_neg (by omega), if_neg (by omega), if_neg (by omega)] at h2
    simp at h2
  · rintro ⟨b, rfl⟩ hn
    have notBlock : ∀ {α : Type} {q : Reader α} {f : α → Packet} {s : Bytes}, (∀ a, f a ≠ .block b) →
        (q >>= fun a => Reader.pure (f a)) s ≠ .ok (.block b) rest := by
      intro α q f s hf hc
      obtain ⟨a, r', _, hc⟩ := bind_eq_ok hc
      simp only [rpure_run, Res.ok.injEq] at hc
      exact hf a hc.1
    unfold parseBody at h2
    split at h2
    · rw [parseHello] at h2
      obtain ⟨_, _, _, h2⟩ := bind_eq_ok h2
      obtain ⟨_, _, _, h2⟩ := bind_eq_ok h2
      obtain ⟨_, _, _, h2⟩ := bind_eq_ok h2
      obtain ⟨_, _, _, h2⟩ := bind_eq_ok h2
      obtain ⟨_, _, _, h2⟩ := bind_eq_ok h2
      obtain ⟨_, _, _, h2⟩ := bind_eq_ok h2
      exact notBlock (by simp) h2
    split at h2
    · simp at h2
    split at h2
    · rw [parseProgress] at h2
      obtain ⟨_, _, _, h2⟩ := bind_eq_ok h2
      obtain ⟨_, _, _, h2⟩ := bind_eq_ok h2
      obtain ⟨_, _, _, h2⟩ := bind_eq_ok h2
      exact notBlock (by simp) h2
    split at h2
    · rw [parseProfileInfo] at h2
      obtain ⟨_, _, _, h2⟩ := bind_eq_ok h2
      obtain ⟨_, _, _, h2⟩ := bind_eq_ok h2
      obtain ⟨_, _, _, h2⟩ := bind_eq_ok h2
      obtain ⟨_, _, _, h2⟩ := bind_eq_ok h2
      obtain ⟨_, _, _, h2⟩ := bind_eq_ok h2
      exact notBlock (by simp) h2
    split at h2
    · rw [parseTableColumns] at h2
      obtain ⟨_, _, _, h2⟩ := bind_eq_ok h2
      exact notBlock (by simp) h2
    split at h2
    · rw [parseException] at h2
      obtain ⟨_, _, _, h2⟩ := bind_eq_ok h2
      obtain ⟨_, _, _, h2⟩ := bind_eq_ok h2
      obtain ⟨_, _, _, h2⟩ := bind_eq_ok h2
      exact notBlock (by simp) h2
    split at h2
    · rw [parseBlock, hn] at h2; simp at h2
    split at h2 <;> simp at h2

example : ∃ k r, readUvarint [11, 1, 97, 0] = .ok k r ∧ k ∈ knownPackets :=
  let ⟨k, r, h, hk, _⟩ := C08_only_known sampleEnv sampleInfo [11, 1, 97, 0] [] (.tableColumns "a" "") rfl
  ⟨k, r, h, hk⟩

/-- C13. However the server cut the bytes of a block into (non-empty) frames, reading through the frames gives the block those
bytes decode to, and leaves what follows the frames untouched. -/
theorem C13_framing_transparent (known : Tz → Bool) (z : Codec) (tz : Tz) (frames : List (Bytes × Bytes))
    (hf : ∀ f ∈ frames, IsFrame z f.1 f.2 ∧ f.2 ≠ []) (b : Block)
    (h : rawLoad known tz (frames.map Prod.snd).flatten = .ok b []) (rest : Bytes) :
    blockLoad known z tz true ((frames.map Prod.fst).flatten ++ rest) = .ok b rest := by
  rw [blockLoad, if_pos rfl, readCompressed]
  exact readCompressed_frames (rawLoad_mono known tz) frames hf b rest [] h

/-- C13. Any two ways of cutting give the same block. -/
theorem C13_cut_independent (known : Tz → Bool) (z : Codec) (tz : Tz) (fs gs : List (Bytes × Bytes))
    (hf : ∀ f ∈ fs, IsFrame z f.1 f.2 ∧ f.2 ≠ []) (hg : ∀ g ∈ gs, IsFrame z g.1 g.2 ∧ g.2 ≠ [])
    (heq : (fs.map Prod.snd).flatten = (gs.map Prod.snd).flatten) (b : Block)
    (h : rawLoad known tz (fs.map Prod.snd).flatten = .ok b []) (rest : Bytes) :
    blockLoad known z tz true ((fs.map Prod.fst).flatten ++ rest) =
      blockLoad known z tz true ((gs.map Prod.fst).flatten ++ rest) := by
  rw [C13_framing_transparent known z tz fs hf b h, C13_framing_transparent known z tz gs hg b (heq ▸ h)]

example : IsFrame sampleEnv.codec (putFrame sampleEnv.codec [1, 2, 3]) [1, 2, 3] :=
  putFrame_isFrame rfl (by decide) (by decide)

/-- C11. With compression a block written by the client and read back is the same block, for every checksum function and every
compressor that is lossless on the written bytes; the bytes after the frame are untouched. (`_partial`: as C10; the block
must not exceed the frame limits: 1 GiB compressed, 32-bit original size.) -/
theorem C11_compressed_roundtrip_partial (known : Tz → Bool) (z : Codec) (tz : Tz) (n : Nat) (b : Block)
    (h : BlockOK known tz n b)
    (hs : ∀ x, b.write = .ok x → z.decompress (z.compress x) x.length = some x ∧ x.length < 2 ^ 32 ∧
      9 + (z.compress x).length ≤ 0x40000000) :
    ∃ bytes, b.writeC z true = .ok bytes ∧ ∀ rest, ∃ b', blockLoad known z tz true (bytes ++ rest) = .ok b' rest ∧
      b'.info = b.info ∧ header b' = header b ∧ b'.rowCount = .ok n ∧ ∀ i, i < n → rowOf b' i = rowOf b i := by
  obtain ⟨x, h1, h2⟩ := C10_block_roundtrip_partial known tz n b h
  obtain ⟨hz, s1, s2⟩ := hs x h1
  refine ⟨putFrame z x, by rw [Block.writeC, if_pos rfl, h1]; rfl, fun rest => ?_⟩
  obtain ⟨b', g1, g2, g3, g4, _, g6⟩ := h2 []
  rw [List.append_nil] at g1
  refine ⟨b', ?_, g2, g3, g4, g6⟩
  have hne : x ≠ [] := by
    rintro rfl
    have := rawLoad_mono known tz |>.ok g1 []
    rw [rawLoad] at g1
    rw [readBlockInfo] at g1
    simp [bind_run, loop_run, readBlockInfoStep, readUvarint, readUvarintLoop] at g1
  have := C13_framing_transparent known z tz [(putFrame z x, x)] (by simpa using ⟨putFrame_isFrame hz s2 s1, hne⟩) b'
    (by simpa using g1) rest
  simpa using this

/-- C12. Data is only delivered from a frame whose stored checksum is the checksum of the frame, whose method is LZ4 and whose
announced size is at most 1 GiB (and is the actual size), and the data is what the decompressor returned, extended with
zeros to the announced original size. -/
theorem C12_checked_frame (z : Codec) (bs d rest : Bytes) (h : decompressBuffer z bs = .ok d rest) :
    ∃ lo hi size orig body out, bs = putLE 8 lo ++ putLE 8 hi ++ (0x82 :: (putLE 4 size ++ putLE 4 orig ++ body)) ++ rest ∧
      z.hash (0x82 :: (putLE 4 size ++ putLE 4 orig ++ body)) = (UInt64.ofNat lo, UInt64.ofNat hi) ∧
      9 ≤ size ∧ size ≤ 2 ^ 30 ∧ body.length + 9 = size ∧ z.decompress body orig = some out ∧ d = resizeB out orig := by
  obtain ⟨lo, hi, c, o, body, d', h1, h2, h3, h4, h5, _, h7, h8, h9⟩ := decompressBuffer_inv h
  refine ⟨lo, hi, c, o, body, d', by rw [h1]; simp [frameHeader], ?_, h4, by omega, by omega, h8, h9⟩
  rw [show 0x82 :: (putLE 4 c ++ putLE 4 o ++ body) = frameHeader c o ++ body by simp [frameHeader], ← h2, ← h3]
  simp

example : ∃ d, decompressBuffer sampleEnv.codec (putFrame sampleEnv.codec [1, 2, 3] ++ [9]) = .ok d [9] := ⟨[1, 2, 3], by decide +kernel⟩

/-- C12. No frame panics unless it announces a size below 9 (which no genuine frame does). -/
theorem C12_no_panic_partial (z : Codec) (bs : Bytes) (h : decompressBuffer z bs = .panic) :
    ∃ lo hi size orig rest, size < 9 ∧ bs = putLE 8 lo ++ putLE 8 hi ++ (0x82 :: (putLE 4 size ++ putLE 4 orig)) ++ rest ∧
      z.hash (0x82 :: (putLE 4 size ++ putLE 4 orig)) = (UInt64.ofNat lo, UInt64.ofNat hi) := by
  have inv : ∀ {w v : Nat} {bs r : Bytes}, readLE w bs = .ok v r → bs = putLE w v ++ r ∧ v < 256 ^ w := by
    intro w v bs r h
    rw [readLE] at h
    obtain ⟨b, r', h1, h2⟩ := bind_eq_ok h
    simp only [rpure_run, Res.ok.injEq] at h2
    obtain ⟨g1, g2⟩ := readN_inv h1
    rw [← h2.1, ← h2.2]
    subst g2
    exact ⟨by rw [putLE_getLE, g1], getLE_lt b⟩
  have np : ∀ {w : Nat} {f : Nat → Reader Bytes} {bs : Bytes}, (readLE w >>= f) bs = .panic →
      ∃ v r, readLE w bs = .ok v r ∧ f v r = .panic := by
    intro w f bs h
    rw [bind_run] at h
    cases hw : readLE w bs with
    | ok v r => rw [hw] at h; exact ⟨v, r, rfl, h⟩
    | more => simp [hw] at h
    | err => simp [hw] at h
    | panic =>
      simp only [readLE, bind_run, readN] at hw
      split at hw
      · simp at hw
      · simp at hw
      · simp at hw
      · rename_i h'; split at h' <;> simp at h'
  rw [decompressBuffer] at h
  obtain ⟨lo, r1, h1, h⟩ := np h
  obtain ⟨hi, r2, h2, h⟩ := np h
  obtain ⟨m, r3, h3, h⟩ := np h
  split at h
  · simp at h
  rename_i hm
  simp only [Decidable.not_not] at hm
  obtain ⟨c, r4, h4, h⟩ := np h
  obtain ⟨o, r5, h5, h⟩ := np h
  split at h
  · simp at h
  rw [bind_run] at h
  cases hb : readN (c - 9) r5 with
  | more => simp [hb] at h
  | err => simp [hb] at h
  | panic => simp only [readN] at hb; split at hb <;> simp at hb
  | ok body r6 =>
    rw [hb] at h
    simp only at h
    split at h
    · simp at h
    rename_i hh
    simp only [not_or, Decidable.not_not] at hh
    split at h
    · rename_i hc
      obtain ⟨e6, hl⟩ := readN_inv hb
      have hbody : body = [] := by rw [← List.length_eq_zero_iff, hl]; omega
      subst hbody
      obtain ⟨e1, _⟩ := inv h1
      obtain ⟨e2, _⟩ := inv h2
      obtain ⟨e3, _⟩ := inv h3
      obtain ⟨e4, _⟩ := inv h4
      obtain ⟨e5, _⟩ := inv h5
      refine ⟨lo, hi, c, o, r6, hc, ?_, ?_⟩
      · rw [e1, e2, e3, e4, e5, e6, hm]; simp [putLE]
      · rw [show 0x82 :: (putLE 4 c ++ putLE 4 o) = frameHeader c o ++ [] by simp [frameHeader], ← hh.1, ← hh.2]; simp
    · generalize z.decompress body o = od at h
      cases od <;> simp at h

/-- C12 fails for frames announcing a size below 9: with the right checksum, for every checksum function, the reader panics. -/
theorem C12_small_frame_violated (z : Codec) (size : Nat) (hs : size < 9) (rest : Bytes) :
    ∃ frame, decompressBuffer z (frame ++ rest) = .panic := by
  refine ⟨putLE 8 (z.hash (frameHeader size 0)).1.toNat ++ (putLE 8 (z.hash (frameHeader size 0)).2.toNat ++
    (putLE 1 0x82 ++ (putLE 4 size ++ putLE 4 0))), ?_⟩
  generalize hf : z.hash (frameHeader size 0) = f
  have l1 := f.1.toNat_lt
  have l2 := f.2.toNat_lt
  simp only [List.append_assoc]
  rw [decompressBuffer, bind_ok (readLE_put (by simpa using l1) _), bind_ok (readLE_put (by simpa using l2) _),
    bind_ok (readLE_put (by decide) _), if_neg (by decide), bind_ok (readLE_put (by omega) _), bind_ok (readLE_put (by decide) _),
    if_neg (by omega), show size - 9 = 0 by omega, bind_ok (show readN 0 rest = .ok [] rest from readN_append' [] rest rfl), List.append_nil, hf, if_neg (by simp),
    if_pos hs]
  rfl

/-- C12. Whatever is delivered by the compressed reader comes from checked frames: the consumed bytes are frames each of which
passes the check, and the result is what the reader behind it makes of their data. -/
theorem C12_only_checked_data (z : Codec) (p : Reader α) (bs rest : Bytes) (a : α) (h : readCompressed z p bs = .ok a rest) :
    ∃ frames : List (Bytes × Bytes), (∀ f ∈ frames, decompressBuffer z f.1 = .ok f.2 []) ∧
      bs = (frames.map Prod.fst).flatten ++ rest ∧ ∃ r, p (frames.map Prod.snd).flatten = .ok a r := by
  have key : ∀ k, ∀ (bs buf : Bytes), bs.length ≤ k → Reader.loop (refill z p) buf bs = .ok a rest →
      ∃ frames : List (Bytes × Bytes), (∀ f ∈ frames, decompressBuffer z f.1 = .ok f.2 []) ∧
      bs = (frames.map Prod.fst).flatten ++ rest ∧ ∃ r, p (buf ++ (frames.map Prod.snd).flatten) = .ok a r := by
    intro k
    induction k with
    | zero =>
      intro bs buf hk hl
      have hbs : bs = [] := List.length_eq_zero_iff.mp (by omega)
      subst hbs
      rw [loop_run, refill] at hl
      cases hp : p buf with
      | ok x r => simp [hp] at hl; exact ⟨[], by simp, by simp [hl], r, by simp [hp, hl]⟩
      | err e r => simp [hp] at hl
      | panic => simp [hp] at hl
      | more => simp [hp, decompressBuffer, bind_run, readLE, readN] at hl
    | succ k ih =>
      intro bs buf hk hl
      rw [loop_run, refill] at hl
      cases hp : p buf with
      | ok x r => simp [hp] at hl; exact ⟨[], by simp, by simp [hl], r, by simp [hp, hl]⟩
      | err e r => simp [hp] at hl
      | panic => simp [hp] at hl
      | more =>
        rw [hp] at hl
        simp only [bind_run] at hl
        cases hd : decompressBuffer z bs with
        | more => simp [hd] at hl
        | err => simp [hd] at hl
        | panic => simp [hd] at hl
        | ok d r =>
          rw [hd] at hl
          by_cases hne : d = []
          · simp [hne, Reader.wait] at hl
          · simp only [hne, if_false, rpure_run] at hl
            split at hl
            · obtain ⟨fs, g1, g2, g3⟩ := ih r (buf ++ d) (by omega) hl
              obtain ⟨lo, hi, c, o, body, d', e1, e2, e3, e4, e5, e6, e7, e8, e9⟩ := decompressBuffer_inv hd
              refine ⟨(putLE 8 lo ++ putLE 8 hi ++ (frameHeader c o ++ body), d) :: fs, ?_, ?_, ?_⟩
              · intro f hf
                simp only [List.mem_cons] at hf
                rcases hf with rfl | hf
                · have := decompressBuffer_put (z := z) e4 e5 e6 e7 e8 []
                  rw [← e2, ← e3, e9]
                  simpa using this
                · exact g1 f hf
              · rw [e1, g2]
                simp
              · simpa using g3
            · simp at hl
  exact key _ bs [] (Nat.le_refl _) h

example : readCompressed sampleEnv.codec (readN 4) (putFrame sampleEnv.codec [1, 2, 3] ++ putFrame sampleEnv.codec [4] ++ [9]) =
    .ok [1, 2, 3, 4] [9] := by decide +kernel

/-- A frame without data makes the reader wait for ever, although the frame has arrived completely. -/
theorem C13_empty_frame_violated (z : Codec) (p : Reader α) (f : Bytes) (hf : IsFrame z f []) (hp : p [] = .more) (rest : Bytes) :
    readCompressed z p (f ++ rest) = .more := by
  rw [readCompressed, loop_run, refill, hp]
  simp [bind_run, hf rest, Reader.wait]

example : IsFrame sampleEnv.codec (putFrame sampleEnv.codec []) [] := putFrame_isFrame rfl (by decide) (by decide)

end CH.Props
