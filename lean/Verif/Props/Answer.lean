import Verif.Lemmas.Answer
import Verif.Props.Insert

/-! Property C77: from the bytes of a server's answer to the rows the user gets, and from the user's block to the bytes the server gets. -/

namespace CH.Props

open CH CH.Spec

/-- C77. A complete answer of a server, laid out as the protocol says (blocks in the native format, plain or in compressed frames, and
messages about progress), is decoded message by message, whatever follows it: exactly, but for the order of the entries of maps
(`ReorderedAnswer`; exactly without maps). (`_partial`: for the column types of `Readable`; of the
others the code reads some wrongly, see C76 and C09.) -/
theorem C77_answer_partial (env : Env) (info : TransportInfo) (tz : Tz) (htz : info.timezone = some tz) (said : List Said) (b : Bytes)
    (h : AnswerLaid env.codec tz info.revision info.compress said b) (hr : ∀ m ∈ said, Readable env.known m) :
    ∃ (ps : List Packet) (said' : List Said), ReorderedAnswer said said' ∧ ps.length = said'.length ∧
      (∀ (i : Nat) m p, said'[i]? = some m → ps[i]? = some p → Means m p) ∧
      ∀ rest, Decodes env info (b ++ rest) (ps.map .inl ++ [.inl .eof]) info rest := by
  obtain ⟨ps, said', h1, h2, -, h3⟩ := answer_decodes htz h hr
  exact ⟨ps, said', h2, h1, h3⟩

/-- A connection with compression, after the server's hello. -/
def exAnswerInfo : TransportInfo := ⟨some "UTC".toList, true, 54450⟩

/-- A header, a block with one row, and progress: the column `s Array(String)` with `['a', 'bc']`. -/
def exSaid : List Said :=
  [.block ⟨false, -1⟩ 0 [⟨"s", .array .string, []⟩], .progress ⟨1, 2, 3, 0, 0⟩,
   .block ⟨false, -1⟩ 1 [⟨"s", .array .string, [.array .string [.str [97], .str [98, 99]]]⟩]]

/-- The bytes of the header block. -/
def exHeaderBytes : Bytes :=
  ([1, 0, 2] ++ [255, 255, 255, 255] ++ [0]) ++ [1] ++ [0] ++
    ([1, 115] ++ [13, 65, 114, 114, 97, 121, 40, 83, 116, 114, 105, 110, 103, 41] ++ [] ++ [])

/-- The bytes of the block with one row. -/
def exRowBytes : Bytes :=
  ([1, 0, 2] ++ [255, 255, 255, 255] ++ [0]) ++ [1] ++ [1] ++
    ([1, 115] ++ [13, 65, 114, 114, 97, 121, 40, 83, 116, 114, 105, 110, 103, 41] ++
      ([2, 0, 0, 0, 0, 0, 0, 0] ++ [1, 97, 2, 98, 99]) ++ [])

/-- The answer with each block in one frame. -/
def exAnswerBytes : Bytes :=
  (([1] ++ [0] ++ (putFrame sampleEnv.codec exHeaderBytes ++ [])) ++ (encProgress 54450 ⟨1, 2, 3, 0, 0⟩ ++
    (([1] ++ [0] ++ (putFrame sampleEnv.codec exRowBytes ++ [])) ++ []))) ++ [5]

theorem exCarried (raw : Bytes) (hne : raw ≠ []) (hl : raw.length < 100) : Carried sampleEnv.codec true raw (putFrame sampleEnv.codec raw ++ []) := by
  rw [Carried, if_pos rfl]
  refine ⟨[raw], by simp, by simpa using hne, .cons ⟨frame_put rfl (by omega) (by show 9 + raw.length < _; omega), ?_⟩ .nil⟩
  have : (sampleEnv.codec.compress raw).length = raw.length := rfl
  simp only [putFrame, frameHeader, List.length_append, putLE_length, List.length_cons, this]
  omega

theorem exAnswer_laid : AnswerLaid sampleEnv.codec "UTC".toList exAnswerInfo.revision exAnswerInfo.compress exSaid exAnswerBytes := by
  have named : Lettered "s" [1, 115] := ⟨[1], .last (by decide +kernel) (by decide +kernel), by decide +kernel⟩
  have typed : Lettered (String.ofList (SqlType.array .string).name) [13, 65, 114, 114, 97, 121, 40, 83, 116, 114, 105, 110, 103, 41] :=
    ⟨[13], .last (by decide +kernel) (by decide +kernel), by decide +kernel⟩
  have info : InfoLaid ⟨false, -1⟩ ([1, 0, 2] ++ [255, 255, 255, 255] ++ [0]) := ⟨_, ⟨rfl, .inr ⟨by decide, by decide⟩⟩, rfl⟩
  refine ⟨_, .cons ?_ (.cons ?_ (.cons ?_ .nil)), rfl⟩
  · refine ⟨1, "", [0], exHeaderBytes, _, .inl rfl, ⟨[0], .last rfl (by decide), rfl⟩, ?_, nofun, exCarried _ (by decide) (by decide),
      by decide, by decide, rfl⟩
    exact ⟨_, _, _, _, rfl, info, .last rfl (by decide), .last rfl (by decide), .cons ⟨_, _, _, rfl, named, typed, .none⟩ .nil, by simp⟩
  · exact ⟨⟨by decide, by decide, by decide, by decide, by decide⟩, rfl⟩
  · refine ⟨1, "", [0], exRowBytes, _, .inl rfl, ⟨[0], .last rfl (by decide), rfl⟩, ?_, nofun, exCarried _ (by decide) (by decide),
      by decide, by decide, rfl⟩
    exact ⟨_, _, _, _, rfl, info, .last rfl (by decide), .last rfl (by decide), .cons ⟨_, _, _, rfl, named, typed, exNative⟩ .nil, by simp⟩

theorem exAnswer_readable : ∀ m ∈ exSaid, Readable sampleEnv.known m := by
  intro m hm
  simp only [exSaid, List.mem_cons, List.not_mem_nil, or_false] at hm
  rcases hm with rfl | rfl | rfl
  · exact ⟨by decide, by simp only [List.mem_singleton, forall_eq]; exact ⟨trivial, trivial, trivial⟩⟩
  · trivial
  · exact ⟨by decide, by simp only [List.mem_singleton, forall_eq]; exact ⟨trivial, trivial, trivial⟩⟩

example : ∃ ps : List Packet, ps.length = 3 ∧ ∀ rest, Decodes sampleEnv exAnswerInfo (exAnswerBytes ++ rest)
    (ps.map .inl ++ [.inl .eof]) exAnswerInfo rest := by
  obtain ⟨ps, said', h0, h1, -, h2⟩ := C77_answer_partial sampleEnv exAnswerInfo "UTC".toList rfl _ _ exAnswer_laid exAnswer_readable
  exact ⟨ps, h1.trans h0.1, h2⟩

/-- An answer with a map: one row `{1: 'a', 2: 'b'}`, without compression. -/
def exMapSaid : List Said :=
  [.block ⟨false, -1⟩ 1 [⟨"m", .map (.num .u8) .string, [.map (.num .u8) .string [.num .u8 1, .num .u8 2] [.str [97], .str [98]]]⟩]]

/-- Its bytes. -/
def exMapBytes : Bytes :=
  (([1] ++ [0] ++ (([1, 0, 2] ++ [255, 255, 255, 255] ++ [0]) ++ [1] ++ [1] ++
    ([1, 109] ++ [18, 77, 97, 112, 40, 85, 73, 110, 116, 56, 44, 32, 83, 116, 114, 105, 110, 103, 41] ++
      ([2, 0, 0, 0, 0, 0, 0, 0] ++ [1, 2] ++ [1, 97, 1, 98]) ++ []))) ++ []) ++ [5]

theorem exMapSaid_laid (z : Codec) (tz : Tz) (rev : Nat) : AnswerLaid z tz rev false exMapSaid exMapBytes := by
  have named : Lettered "m" [1, 109] := ⟨[1], .last (by decide +kernel) (by decide +kernel), by decide +kernel⟩
  have typed : Lettered (String.ofList (SqlType.map (.num .u8) .string).name)
      [18, 77, 97, 112, 40, 85, 73, 110, 116, 56, 44, 32, 83, 116, 114, 105, 110, 103, 41] :=
    ⟨[18], .last (by decide +kernel) (by decide +kernel), by decide +kernel⟩
  have info : InfoLaid ⟨false, -1⟩ ([1, 0, 2] ++ [255, 255, 255, 255] ++ [0]) := ⟨_, ⟨rfl, .inr ⟨by decide, by decide⟩⟩, rfl⟩
  refine ⟨_, .cons ⟨1, "", [0], _, _, .inl rfl, ⟨[0], .last rfl (by decide), rfl⟩, ?_, nofun, rfl, by decide, by decide, rfl⟩ .nil, rfl⟩
  exact ⟨_, _, _, _, rfl, info, .last rfl (by decide), .last rfl (by decide), .cons ⟨_, _, _, rfl, named, typed, exMapNative⟩ .nil, by simp⟩

/-- The message decoded holds that map. -/
example : ∃ (c : NCol) (v : Value), (∀ rest, Decodes sampleEnv ⟨some "UTC".toList, false, 54450⟩ (exMapBytes ++ rest)
      [.inl (.block ⟨⟨false, -1⟩, [c]⟩), .inl .eof] ⟨some "UTC".toList, false, 54450⟩ rest) ∧ c.data.at 0 = .ok v ∧
    Reordered (.map (.num .u8) .string [.num .u8 1, .num .u8 2] [.str [97], .str [98]]) v := by
  obtain ⟨ps, said', ⟨a1, a2, -⟩, h1, h2, h3⟩ := C77_answer_partial sampleEnv ⟨some "UTC".toList, false, 54450⟩ "UTC".toList rfl
    exMapSaid exMapBytes (exMapSaid_laid _ _ _) (by
      intro m hm
      obtain rfl := List.mem_singleton.mp hm
      refine ⟨by decide, fun f hf => ?_⟩
      obtain rfl := List.mem_singleton.mp hf
      exact ⟨⟨trivial, trivial⟩, ⟨by simp, trivial⟩, trivial, by simp [KeyLike], trivial⟩)
  match ps, said', (show said'.length = 1 from a1), (show ps.length = 1 from h1.trans a1) with
  | [p], [m], _, _ =>
    have ha := a2 0 _ m rfl rfl
    have hm := h2 0 m p rfl rfl
    cases m with
    | progress => exact ha.elim
    | profile => exact ha.elim
    | block i r cols =>
      obtain ⟨rfl, rfl, b1, b2⟩ := ha
      obtain ⟨cs, rfl, c1, -, c2⟩ := hm
      match cols, cs, (show cols.length = 1 from b1), (show cs.length = 1 from c1.trans b1) with
      | [f], [c], _, _ =>
        have q := (b2 0 _ f rfl rfl).2.2
        have hc := (c2 0 c f rfl rfl).2.2
        have e := List.getElem?_eq_getElem (l := f.cells) (i := 0) (by rw [← q.1]; decide)
        exact ⟨c, _, h3, hc 0 _ e, q.2 0 _ _ rfl e⟩

/-- C77. `fetch_all` on a connection whose socket delivers such an answer, in whatever parts, gives exactly the rows of the answer (but for the order of
the entries of maps), under the names of its first block with columns; the handle has its connection back. (`_partial` as above.) -/
theorem C77_fetch_all_partial {env : Env} {t : Transport} {revs : List ReadEv} {c : Conn} {tz : Tz} {said : List Said} {h h1 : Handle}
    {q : Query} {w w1 : World} (hc : Carries env t revs c) (htz : t.info.timezone = some tz)
    (ha : AnswerLaid env.codec tz t.info.revision t.info.compress said (t.rd ++ received revs)) (hr : ∀ m ∈ said, Readable env.known m)
    (hs : SameColumns said) (hne : ∃ i r cols, .block i r cols ∈ said ∧ cols ≠ [])
    (ho : h.openStream q false w = (.ok (BStream.new ⟨some c, false, false⟩ false), h1, w1)) :
    ∃ cb said', h.fetchAll q w = (.ok cb, ⟨some { c with incoming := [] }, h1.context, .attached⟩, w1) ∧
      ReorderedAnswer said said' ∧ cblockRows cb = (said'.flatMap saidRows).map (·.map .ok) ∧
      ∃ before i r cols after, said = before ++ .block i r cols :: after ∧ cols ≠ [] ∧ (∀ m ∈ before, ∀ i r c, m = .block i r c → c = []) ∧
        cb.columns.map Prod.fst = cols.map (·.name) := by
  obtain ⟨ps, said', p1, hre, ⟨x, hx, -⟩, p2, p3, p4⟩ := answer_incoming hc htz ha hr
  have hw := laid_block hx
  have hu : Uniform (resultBlocks false (ps.map .packet)) := by
    have hin : ∀ b ∈ resultBlocks false (ps.map .packet), b ∈ blocksOf (ps.map .packet) := fun b hb => (List.mem_filter.1 hb).1
    refine ⟨fun b hb => ?_, fun b hb d hd => ?_⟩
    · obtain ⟨i, r, cols, -, hm⟩ := block_said p1 p2 (hin b hb)
      exact ⟨r, (means_types hm).2.2⟩
    · obtain ⟨i, r, cols, h3, hm⟩ := block_said p1 p2 (hin b hb)
      obtain ⟨i', r', cols', h3', hm'⟩ := block_said p1 p2 (hin d hd)
      rw [(means_types hm).1, (means_types hm').1]
      obtain ⟨q, q1, q2⟩ := reordered_types hre h3
      obtain ⟨q', q1', q2'⟩ := reordered_types hre h3'
      have e : ∀ {a a' : List Field}, a.map (fun f => (f.name, f.type)) = a'.map (fun f => (f.name, f.type)) →
          a.map (·.type) = a'.map (·.type) := fun h => by
        have := congrArg (List.map Prod.snd) h
        simpa [List.map_map, Function.comp_def] using this
      rw [← e q2, ← e q2']
      refine hs _ _ _ _ _ _ q1 q1' ?_ ?_
      · rintro rfl
        refine resultBlocks_columns b hb (List.map_eq_nil_iff.mp ((means_types hm).1.trans ?_))
        rw [← e q2]; rfl
      · rintro rfl
        refine resultBlocks_columns d hd (List.map_eq_nil_iff.mp ((means_types hm').1.trans ?_))
        rw [← e q2']; rfl
  have hne' : resultBlocks false (ps.map .packet) ≠ [] := by
    obtain ⟨i, r, cols, h3, h4⟩ := hne
    obtain ⟨cols', h3', hlen⟩ := reordered_block hre h3
    obtain ⟨b, hb, hm⟩ := said_block p1 p2 h3'
    apply List.ne_nil_of_mem (a := b)
    refine List.mem_filter.2 ⟨hb, ?_⟩
    simp only [decide_eq_true_eq]
    intro e
    have := (means_types hm).1
    rw [e] at this
    have := List.map_eq_nil_iff.mp this.symm
    rw [this] at hlen
    exact h4 (List.length_eq_zero_iff.mp hlen.symm)
  obtain ⟨cb, g1, g2, g3⟩ := C65_fetch_all ho p3 p4 hu hne'
  refine ⟨cb, said', g1, hre, g2.trans (all_means_rows p1 p2 hw), ?_⟩
  cases hh : resultBlocks false (ps.map .packet) with
  | nil => exact absurd hh hne'
  | cons b0 bs =>
    have e0 : (resultBlocks false (ps.map .packet)).head? = some b0 := by rw [hh]; rfl
    obtain ⟨before, i, r, cols, after, k1, k2, k3, hm⟩ := first_block p1 p2 e0
    obtain ⟨pre, c, post, s1, s2, s3, s4⟩ := reordered_split hre k1
    refine ⟨pre, i, r, c, post, s1, ?_, fun m hm i r c' e => ?_, by rw [g3 b0 e0, s2, ← (means_types hm).2.1]⟩
    · rintro rfl
      exact k2 (List.map_eq_nil_iff.mp s2.symm)
    · subst e
      obtain ⟨k, hk⟩ := List.mem_iff_getElem?.mp hm
      have hk' := (List.getElem?_eq_some_iff.mp hk).1
      have e := List.getElem?_eq_getElem (l := before) (i := k) (by omega)
      have ha := s4 k _ _ hk e
      have hmem := List.mem_of_getElem? e
      generalize before[k]'(by omega) = m at ha hmem
      cases m with
      | progress => exact ha.elim
      | profile => exact ha.elim
      | block i' r' d =>
        have := k3 _ hmem _ _ _ rfl
        rw [this] at ha
        exact List.length_eq_zero_iff.mp ha.2.2.1.symm

theorem exSaid_same : SameColumns exSaid := by
  intro i r c i' r' c' h h' _ _
  simp only [exSaid, List.mem_cons, List.not_mem_nil, or_false, Said.block.injEq, reduceCtorEq, false_or] at h h'
  rcases h with ⟨-, -, rfl⟩ | ⟨-, -, rfl⟩ <;> rcases h' with ⟨-, -, rfl⟩ | ⟨-, -, rfl⟩ <;> rfl

theorem exSaid_mapless : ∀ m ∈ exSaid, Mapless m := by
  intro m hm
  simp only [exSaid, List.mem_cons, List.not_mem_nil, or_false] at hm
  rcases hm with rfl | rfl | rfl
  · intro f hf; obtain rfl := List.mem_singleton.mp hf; exact trivial
  · exact trivial
  · intro f hf; obtain rfl := List.mem_singleton.mp hf; exact trivial

/-- A handle whose connection gives that answer to the next query, in two parts; and the rows `fetch_all` gives. -/
theorem exAnswer_conn : ∃ (t : Transport) (revs : List ReadEv) (c : Conn) (h h1 : Handle) (w1 : World), Carries sampleEnv t revs c ∧
    t.info = exAnswerInfo ∧ t.rd ++ received revs = exAnswerBytes ∧
    h.openStream sampleQuery false [] = (.ok (BStream.new ⟨some c, false, false⟩ false), h1, w1) ∧
    ∃ s, h.openRows sampleQuery [] = (.ok s, h1, w1) ∧ s.blocks.inner.conn = some c := by
  obtain ⟨ps, -, -, -, -, h2⟩ := C77_answer_partial sampleEnv exAnswerInfo "UTC".toList rfl _ _ exAnswer_laid exAnswer_readable
  have h3 := h2 []
  have e : [1] ++ received [.ready (exAnswerBytes.drop 1)] = exAnswerBytes ++ [] := by
    show [1] ++ (exAnswerBytes.drop 1 ++ []) = _
    rw [List.append_nil, List.append_nil]; rfl
  refine ⟨{ Transport.new true with rd := [1], info := exAnswerInfo }, [.ready (exAnswerBytes.drop 1)], _,
    ⟨some (sampleConn ((ps.map Sum.inl ++ [Sum.inl Packet.eof]).map incOf)), exHandle.context, .attached⟩, _, _,
    ⟨rfl, rfl, ps.map .inl ++ [.inl .eof], exAnswerInfo, [], rfl, ?_, parsePacket_nil _ _⟩, rfl, ?_, rfl, _, rfl, rfl⟩
  · show Decodes _ _ ([1] ++ received [.ready (exAnswerBytes.drop 1)]) _ _ _
    rw [e]
    exact h3
  · rw [e, List.append_nil]

example : ∃ (h h' : Handle) (cb : CBlock) (w1 : World), h.fetchAll sampleQuery [] = (.ok cb, h', w1) ∧
    cblockRows cb = [[.ok (.array .string [.str [97], .str [98, 99]])]] := by
  obtain ⟨t, revs, c, h, h1, w1, hc, hi, hb, ho, -⟩ := exAnswer_conn
  obtain ⟨cb, said', g1, g3, g2, -⟩ := C77_fetch_all_partial (said := exSaid) (tz := "UTC".toList) hc (by rw [hi]; rfl)
    (by rw [hi, hb]; exact exAnswer_laid) exAnswer_readable exSaid_same ⟨_, _, _, .head _, by simp⟩ ho
  rw [g3.2.2 exSaid_mapless] at g2
  exact ⟨h, _, cb, w1, g1, g2⟩

/-- C77. `stream` on such a connection gives the rows of an answer whose first block is a header without rows, one by one in order, then
the end. (`_partial` as above.) -/
theorem C77_stream_partial {env : Env} {t : Transport} {revs : List ReadEv} {c : Conn} {tz : Tz} {said before after : List Said}
    {h h1 : Handle} {q : Query} {w w1 : World} {s : RStream} {i : BlockInfo} {cols : List Field} (n : Nat) (hc : Carries env t revs c)
    (htz : t.info.timezone = some tz)
    (ha : AnswerLaid env.codec tz t.info.revision t.info.compress said (t.rd ++ received revs)) (hr : ∀ m ∈ said, Readable env.known m)
    (hh : said = before ++ .block i 0 cols :: after) (hq : ∀ m ∈ before, ∀ i r c, m ≠ .block i r c)
    (ho : h.openRows q w = (.ok s, h1, w1)) (hsc : s.blocks.inner.conn = some c) :
    ∃ items s' said', ReorderedAnswer said said' ∧ runRows ((said.flatMap saidRows).length + (n + 1)) s h1 =
        (items ++ List.replicate (n + 1) .ended, s', ⟨some { c with incoming := [] }, h1.context, .attached⟩) ∧
      items.length = (said.flatMap saidRows).length ∧ rowsGot items = (said'.flatMap saidRows).map (·.map .ok) := by
  obtain ⟨ps, said', p1, hre, ⟨x, hx, -⟩, p2, p3, p4⟩ := answer_incoming hc htz ha hr
  have hw := laid_block hx
  obtain ⟨items, s', g1, g2, g3⟩ := C66_rows n ho hsc p3 p4 (fun b hb => by
    obtain ⟨i, r, cols, -, hm⟩ := block_said p1 p2 hb
    exact ⟨r, (means_types hm).2.2⟩)
  have key : answerRows ((blocksOf (ps.map .packet)).drop 1) = (said'.flatMap saidRows).map (·.map .ok) := by
    rw [← all_means_rows p1 p2 hw]
    obtain ⟨before', c', after', e1, e2⟩ := reordered_head hre hh hq
    exact first_header p1 p2 e1 e2
  rw [key] at g1 g2 g3
  rw [List.length_map, reordered_rows hre] at g1 g2
  exact ⟨items, s', said', hre, g1, g2, g3⟩

example : ∃ (s s' : RStream) (h1 h' : Handle) (items : List RItem), runRows 2 s h1 = (items ++ [.ended], s', h') ∧
    rowsGot items = [[.ok (.array .string [.str [97], .str [98, 99]])]] := by
  obtain ⟨t, revs, c, h, h1, w1, hc, hi, hb, -, s, ho, hs⟩ := exAnswer_conn
  obtain ⟨items, s', said', g3, g1, -, g2⟩ := C77_stream_partial (said := exSaid) (tz := "UTC".toList) (before := []) 0 hc (by rw [hi]; rfl)
    (by rw [hi, hb]; exact exAnswer_laid) exAnswer_readable rfl (by simp) ho hs
  rw [g3.2.2 exSaid_mapless] at g2
  exact ⟨s, s', h1, _, items, g1, g2⟩

/-- C77. What the client sends for a block: message 2, no table name, and the block's bytes, plain or in one frame. -/
theorem C77_sent (z : Codec) (compress : Bool) (b : Block) (raw : Bytes) (hw : b.write = .ok raw)
    (hz : z.decompress (z.compress raw) raw.length = some raw) (hl : raw.length < 2 ^ 32) (hf : 9 + (z.compress raw).length ≤ 2 ^ 30) :
    ∃ body, b.sendData z compress = .ok ([2, 0] ++ body) ∧ Carried z compress raw body := by
  have e : putUvarint 2 ++ putString "" = [2, 0] := by
    rw [uvarint_two, show putString "" = putUvarint 0 ++ [] from rfl, uvarint_zero]
    rfl
  have hne : raw ≠ [] := write_nonempty hw
  cases compress with
  | false => exact ⟨raw, by rw [Block.sendData, Block.writeC, if_neg (by simp), hw]; simp only [obind_ok]; rw [e]; rfl, rfl⟩
  | true =>
    refine ⟨putFrame z raw, by rw [Block.sendData, Block.writeC, if_pos rfl, hw]; simp only [obind_ok]; rw [← e]; rfl, ?_⟩
    rw [Carried, if_pos rfl]
    have hfl := frame_put (z := z) (data := raw) hz hl (by omega)
    refine ⟨[raw], by simp, by simpa using hne, ?_⟩
    have := InTurn.cons (R := fun d f => FrameLaid z d f ∧ f.length ≤ 16 + 2 ^ 30) (x := raw) (b := putFrame z raw) (bs := [])
      ⟨hfl, by
        simp only [putFrame, frameHeader, List.length_append, putLE_length, List.length_cons]
        omega⟩ .nil
    simpa using this

/-- The empty block that ends a query or an INSERT, compressed. -/
example : ∃ body, Block.new.sendData sampleEnv.codec true = .ok ([2, 0] ++ body) ∧
    ∃ raw, Block.new.write = .ok raw ∧ Carried sampleEnv.codec true raw body := by
  obtain ⟨raw, _, hw, -⟩ := C76_block_write_partial [] 0 Block.new rfl (by decide) (by decide) (by simp [Block.new])
  have hl : raw.length < 100 := by
    injection hw with hw
    rw [← hw]
    show (putBlockInfo _ ++ putUvarint 0 ++ putUvarint 0 ++ []).length < 100
    rw [putBlockInfo, uvarint_one, uvarint_two, uvarint_zero]
    decide
  obtain ⟨body, h1, h2⟩ := C77_sent sampleEnv.codec true Block.new raw hw rfl (by omega) (by show 9 + raw.length ≤ _; omega)
  exact ⟨body, h1, raw, hw, h2⟩

end CH.Props
