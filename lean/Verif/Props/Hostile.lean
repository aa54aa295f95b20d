import Verif.Lemmas.Hostile

/-! Property C63: what a peer may send without bringing the client down. -/

namespace CH.Props
open CH CH.Spec

/-- Surroundings for the examples. -/
def calm : Env := ⟨fun z => z = "UTC".toList, ⟨id, fun b _ => some b, fun _ => (0, 0)⟩⟩

/-! ### What brings the reader down -/

/-- **C63** (the full claim, that no bytes of the peer make the reader panic, is false: see the `_violated` theorems below)
A message without a block brings the reader down only with a number of more than ten bytes or with a length of at least 2^63
announced somewhere in it. -/
theorem C63_message_partial (env : Env) (info : TransportInfo) (k : Nat) (hk : k < 2 ^ 64) (hb : k ≠ 1 ∧ k ≠ 7 ∧ k ≠ 8) (bs : Bytes)
    (h : parsePacket env info (putUvarint k ++ bs) = .panic) : Somewhere (fun b => TooLong b ∨ Announces (2 ^ 63) b) bs := by
  rw [parsePacket_put hk] at h
  exact parseBody_wild env info hb bs h

example : parsePacket calm ⟨none, false, 54429⟩ (putUvarint 3 ++ List.replicate 11 0x80) = .panic := by
  rw [parsePacket_put (by decide)]; rfl

/-- **C63** (partial as above) The data of a column of any type brings the reader down only with such a number, with a size of at
least 2^56 or with low-cardinality flags the client itself would not write; however the types are nested. -/
theorem C63_data_partial (p : Plan) (hp : Parsed p) (rows : Nat) (hr : rows < 2 ^ 56) (bs : Bytes) (h : p.load rows bs = .panic) :
    Somewhere (fun b => TooLong b ∨ Announces (2 ^ 56) b ∨ BigWord (2 ^ 56) b ∨ OddFlags b) bs := p.load_blame hp rows hr bs h

example : Parsed (.array (.lowCard (.nullable (.fixed 5)))) ∧
    (Plan.array (.num .u16)).load 1 (List.replicate 8 0xff) = .panic := ⟨⟨by decide, by decide⟩, rfl⟩

/-- **C63** (partial as above) A block that arrives uncompressed brings the reader down only with one of these or with the name of a
type that is outside `Parsed` and `OwnRows`. -/
theorem C63_block_partial (env : Env) (info : TransportInfo) (tz : Tz) (htz : info.timezone = some tz) (hc : info.compress = false)
    (k : Nat) (hk : k = 1 ∨ k = 7 ∨ k = 8) (bs : Bytes) (h : parsePacket env info (putUvarint k ++ bs) = .panic) :
    Somewhere (fun b => WildData b ∨ OddType env.known tz b) bs := by
  rw [parsePacket_put (by omega)] at h
  refine parseBlock_blame env info tz htz hc bs ?_
  rcases hk with rfl | rfl | rfl <;> exact h

example : parsePacket calm ⟨some "UTC".toList, false, 54429⟩ (putUvarint 7 ++ List.replicate 11 0x80) = .panic := by
  rw [parsePacket_put (by decide)]; rfl

/-- **C63** (partial as above) A block that arrives compressed brings the reader down only with one of these in the data its frames
hold, with a wild length of the table name in front, or with a frame that claims to be shorter than its header. -/
theorem C63_compressed_partial (env : Env) (info : TransportInfo) (tz : Tz) (htz : info.timezone = some tz) (hc : info.compress = true)
    (k : Nat) (hk : k = 1 ∨ k = 7 ∨ k = 8) (bs : Bytes) (h : parsePacket env info (putUvarint k ++ bs) = .panic) :
    Somewhere (fun b => Wild b ∨ ShortFrame b) bs ∨
    ∃ table frames data, bs = table ++ frames ∧ Inflates env.codec frames data ∧ Somewhere (fun b => WildData b ∨ OddType env.known tz b) data := by
  rw [parsePacket_put (by omega)] at h
  have h : parseBlock env info bs = .panic := by rcases hk with rfl | rfl | rfl <;> exact h
  unfold parseBlock at h
  rw [htz, hc] at h
  rcases panic_bind h with h | ⟨_, r, h1, h3⟩
  · exact .inl ((skipString_wild.mono fun _ => .inl) bs h)
  · obtain ⟨c, rfl⟩ := skipString_fwd.ok h1
    rcases panic_bind h3 with h | ⟨_, _, _, h⟩
    · have h : readCompressed env.codec (rawLoad env.known tz) r = .panic := h
      rcases readCompressed_blame h with ⟨data, g1, g2⟩ | g
      · exact .inr ⟨c, r, data, rfl, g1, rawLoad_blame data g2⟩
      · obtain ⟨pre, rest, rfl, g⟩ := g
        exact .inl ⟨c ++ pre, rest, by simp, .inr g⟩
    · cases h

example : parsePacket calm ⟨some "UTC".toList, true, 54429⟩ (putUvarint 1 ++ ([0] ++ List.replicate 16 0 ++ [0x82] ++ List.replicate 8 0)) = .panic := by
  rw [parsePacket_put (by decide)]
  have h : parseBody calm ⟨some "UTC".toList, true, 54429⟩ 1 = parseBlock calm ⟨some "UTC".toList, true, 54429⟩ := rfl
  have hs : skipString ([0] ++ List.replicate 16 0 ++ [0x82] ++ List.replicate 8 0) = .ok () (List.replicate 16 0 ++ [0x82] ++ List.replicate 8 0) := rfl
  have hl : blockLoad calm.known calm.codec "UTC".toList true (List.replicate 16 0 ++ [0x82] ++ List.replicate 8 0) = .panic := by
    show readCompressed _ _ _ = _
    have hm : rawLoad calm.known "UTC".toList [] = .more := by rw [rawLoad, bind_run, readBlockInfo, loop_run]; rfl
    rw [readCompressed, loop_run, refill]
    simp only [hm]
    rfl
  rw [h]
  simp only [parseBlock]
  rw [bind_ok hs, bind_run, hl]

/-! ### How a peer brings it down -/

/-- **C63 is violated** A length of 2^63 or more brings every reader of a text down before any byte of the text arrived: the memory
is asked for first. -/
theorem C63_length_violated (n chunk : Nat) (h1 : 2 ^ 63 ≤ n) (h2 : n < 2 ^ 64) (rest : Bytes) :
    readString (putUvarint n ++ rest) = .panic ∧ skipString (putUvarint n ++ rest) = .panic ∧
    readBytesLP chunk (putUvarint n ++ rest) = .panic := by
  have ha : ∀ m, n ≤ m → alloc m rest = .panic := by
    intro m hm; unfold alloc; rw [if_neg (by unfold isizeMax; omega)]
  refine ⟨?_, ?_, ?_⟩
  · rw [readString, bind_ok (readUvarint_put h2 _), bind_run, ha n (Nat.le_refl _)]
  · rw [skipString, bind_ok (readUvarint_put h2 _), if_neg (by omega), bind_run, ha n (Nat.le_refl _)]
  · rw [readBytesLP, bind_ok (readUvarint_put h2 _), bind_run, ha _ (Nat.le_max_right _ _)]

example : readString (putUvarint (2 ^ 63) ++ [65, 66]) = .panic := (C63_length_violated _ 0 (by decide) (by decide) _).1

/-- **C63 is violated** Eleven bytes of whoever answers the socket bring the client down, before anything was checked: a hello whose
server name is announced with 2^63 bytes or more; and so does an exception with such a name. -/
theorem C63_hello_violated (env : Env) (info : TransportInfo) (n : Nat) (h1 : 2 ^ 63 ≤ n) (h2 : n < 2 ^ 64) (rest : Bytes) :
    parsePacket env info (putUvarint 0 ++ (putUvarint n ++ rest)) = .panic ∧
    ∀ code : Bytes, code.length = 4 → parsePacket env info (putUvarint 2 ++ (code ++ (putUvarint n ++ rest))) = .panic := by
  obtain ⟨hs, _, _⟩ := C63_length_violated n 0 h1 h2 rest
  constructor
  · rw [parsePacket_put (by decide)]
    show parseHello env _ = _
    rw [parseHello, bind_run, hs]
  · intro code hc
    rw [parsePacket_put (by decide)]
    show parseException _ = _
    rw [parseException, readLE, bind_ok (show (readN 4 >>= fun b => Reader.pure (getLE b)) (code ++ (putUvarint n ++ rest)) =
      .ok (getLE code) (putUvarint n ++ rest) by rw [bind_ok (readN_append' _ _ hc)]; rfl), bind_run, hs]

example : parsePacket calm ⟨none, false, 0⟩ (putUvarint 0 ++ (putUvarint (2 ^ 64 - 1) ++ [])) = .panic ∧
    (putUvarint 0 ++ putUvarint (2 ^ 64 - 1)).length = 11 :=
  ⟨(C63_hello_violated _ _ _ (by decide) (by decide) _).1, by simp [putUvarint]⟩

/-- **C63 is violated** A column of 2^63 rows or more, of any type the client supports that does not carry its own number of rows,
brings the reader down whatever its bytes. -/
theorem C63_rows_violated (p : Plan) (hp : Parsed p) (ho : OwnRows p) (hs : ∃ c, p.load 0 [] = .ok c []) (n : Nat) (hn : 2 ^ 63 ≤ n)
    (bs : Bytes) : p.load n bs = .panic := by
  have ha : ∀ w, 0 < w → alloc (n * w) bs = .panic := by
    intro w hw
    have : n * 1 ≤ n * w := Nat.mul_le_mul_left _ hw
    unfold alloc; rw [if_neg (by unfold isizeMax; omega)]
  have hl : ∀ w, 0 < w → loadNums w n bs = .panic := by
    intro w hw
    rw [loadNums, bind_run, ha w hw]
  induction p with
  | num t => rw [Plan.load, bind_run, hl _ (by cases t <;> decide)]
  | string => rw [Plan.load, bind_run, ha _ (by decide)]
  | fixed k => rw [Plan.load, bind_run, ha _ hp.1]
  | date tz => rw [Plan.load, bind_run, hl _ (by decide)]
  | datetime tz => rw [Plan.load, bind_run, hl _ (by decide)]
  | dt64 q tz => rw [Plan.load, bind_run, hl _ (by decide)]
  | ip k => rw [Plan.load, bind_run, ha _ (by cases k <;> decide)]
  | nullable q _ =>
    have h1 := ha 1 (by decide)
    rw [Nat.mul_one] at h1
    rw [Plan.load, bind_run, h1]
  | array q _ => rw [Plan.load, bind_run, hl _ (by decide)]
  | map k v _ _ => rw [Plan.load, bind_run, hl _ (by decide)]
  | decimal q sc nb => rw [Plan.load, bind_run, hl _ (by cases nb <;> decide)]
  | enum w items => rw [Plan.load, bind_run, hl _ (by cases w <;> decide)]
  | simpleAgg f q ih =>
    obtain ⟨c, h⟩ := hs
    rw [Plan.load] at h
    obtain ⟨d, r, h1, h2⟩ := bind_eq_ok h
    injection h2 with _ h2; subst h2
    rw [Plan.load, bind_run, ih hp ho ⟨d, h1⟩]
  | lowCard q _ => exact ho.elim
  | bad e => obtain ⟨c, h⟩ := hs; cases h
  | crash => exact hp.elim

example : (Plan.simpleAgg .any (.nullable .string)).load (2 ^ 63) [1, 2, 3] = .panic :=
  C63_rows_violated (.simpleAgg .any (.nullable .string)) trivial trivial ⟨_, rfl⟩ _ (by decide) _

/-- **C63 is violated** So does a column of arrays of numbers with a single row that announces more numbers than a vector may hold. -/
theorem C63_offset_violated (t : NumTy) (n : Nat) (h1 : 2 ^ 63 ≤ n * t.width) (h2 : n < 2 ^ 64) (rest : Bytes) :
    (Plan.array (.num t)).load 1 (putLE 8 n ++ rest) = .panic := by
  have h : loadNums 8 1 (numsBytes 8 [n] ++ rest) = .ok [n] rest :=
    loadNums_put (by simpa using h2) rest rfl (by decide)
  rw [show numsBytes 8 [n] = putLE 8 n by simp [numsBytes]] at h
  rw [Plan.load, bind_ok h, show lastOff [n] = n from rfl, bind_run, Plan.load, bind_run, loadNums, bind_run]
  have : alloc (n * t.width) rest = .panic := by unfold alloc; rw [if_neg (by unfold isizeMax; omega)]
  rw [this]

example : (Plan.array (.num .u64)).load 1 (putLE 8 (2 ^ 60) ++ [1]) = .panic := C63_offset_violated .u64 _ (by decide) (by decide) _

/-- **C63 is violated** Low-cardinality flags that pass every check but are not the ones the client itself writes (say, without the
bit that asks for an update of the dictionary) bring the reader down instead of being refused. -/
theorem C63_flags_violated (t : NumTy) (flags n : Nat) (hn : 0 < n) (hf : flags < 2 ^ 64) (hi : flags % 256 ≤ 3)
    (h8 : flags / 2 ^ 8 % 2 = 0) (h9 : flags / 2 ^ 9 % 2 = 1) (ho : flags ∉ [0x600, 0x601, 0x602, 0x603]) (rest : Bytes) :
    (Plan.lowCard (.num t)).load n (putLE 8 1 ++ (putLE 8 flags ++ (putLE 8 0 ++ (putLE 8 0 ++ rest)))) = .panic := by
  have hk : ∃ ity, IdxTy.fromFlags flags = some ity := by
    have : flags % 256 = 0 ∨ flags % 256 = 1 ∨ flags % 256 = 2 ∨ flags % 256 = 3 := by omega
    unfold IdxTy.fromFlags
    rcases this with h | h | h | h <;> rw [h] <;> exact ⟨_, rfl⟩
  obtain ⟨ity, hk⟩ := hk
  rw [Plan.load, if_neg (by omega), bind_ok (readLE_put (by decide) _), if_neg (by decide), bind_ok (readLE_put (by omega) _)]
  simp only [hk]
  rw [if_neg (by omega), if_neg (by omega), bind_ok (readLE_put (by decide) _)]
  have e : ∀ w (bs : Bytes), loadNums w 0 bs = .ok [] bs := fun w bs => loadNums_put (xs := []) (by simp) bs rfl (by simp)
  rw [Plan.load, bind_ok (show (loadNums t.width 0 >>= fun xs => Reader.pure (Col.num t xs)) _ = .ok (Col.num t []) _ by
    rw [bind_ok (e _ _)]; rfl), bind_ok (readLE_put (by decide) _), bind_ok (e _ _), if_neg]
  · rfl
  · intro h; subst h
    cases ity <;> exact ho (by decide)

example : (Plan.lowCard (.num .u8)).load 3 (putLE 8 1 ++ (putLE 8 0x200 ++ (putLE 8 0 ++ (putLE 8 0 ++ [])))) = .panic :=
  C63_flags_violated .u8 _ _ (by decide) (by decide) (by decide) (by decide) (by decide) (by decide) _

/-- **C63 is violated** A block that announces one row and then brings a low-cardinality column of no rows, or of two, brings the reader
down with an assertion, although nothing in it is too big. -/
theorem C63_uneven_violated (known : Tz → Bool) (tz : Tz) (x : UInt8) (m : Nat) (hm : m = 0 ∨ m = 2) (rest : Bytes) :
    rawLoad known tz (putBlockInfo .default ++ (putUvarint 2 ++ (putUvarint 1 ++
      (putString "a" ++ (putString "UInt8" ++ ([x] ++
      (putString "b" ++ (putString "LowCardinality(UInt8)" ++
        (putLE 8 1 ++ (putLE 8 0x600 ++ (putLE 8 1 ++ ([7] ++ (putLE 8 m ++ (List.replicate m 0 ++ rest)))))))))))))) = .panic := by
  have hu : resolve known tz "UInt8".toList = .num .u8 := resolve_name tz (t := .num .u8) trivial
  have hlc : resolve known tz "LowCardinality(UInt8)".toList = .lowCard (.num .u8) :=
    resolve_name tz (t := .lowCard (.num .u8)) trivial
  have ha : ∀ r, readColumn known tz 1 (putString "a" ++ (putString "UInt8" ++ ([x] ++ r))) = .ok ⟨"a", .num .u8 [x.toNat]⟩ r := by
    intro r
    have e : loadNums NumTy.u8.width 1 ([x] ++ r) = .ok [x.toNat] r := by
      have := loadNums_put (w := 1) (xs := [x.toNat]) (by simpa using x.toNat_lt) r (n := 1) rfl (by decide)
      simpa [numsBytes, putLE, NumTy.width] using this
    rw [readColumn, bind_ok (readString_put _ _ (by decide)), bind_ok (readString_put _ _ (by decide)), loadData, hu, Plan.load, bind_run,
      bind_ok e]
    rfl
  have hd : ∀ r, (Plan.num .u8).load 1 ([7] ++ r) = .ok (.num .u8 [7]) r := by
    intro r
    have e : loadNums NumTy.u8.width 1 ([7] ++ r) = .ok [7] r := by
      have := loadNums_put (w := 1) (xs := [7]) (by simp) r rfl (by decide)
      simpa [numsBytes, putLE, NumTy.width] using this
    rw [Plan.load, bind_ok e]; rfl
  have hix : loadNums IdxTy.u8.width m (List.replicate m 0 ++ rest) = .ok (List.replicate m 0) rest := by
    have := loadNums_put (w := 1) (xs := List.replicate m 0) (by simp) rest (n := m) (by simp) (by omega)
    rw [show numsBytes 1 (List.replicate m 0) = List.replicate m 0 by rcases hm with rfl | rfl <;> decide] at this
    exact this
  have hb : readColumn known tz 1 (putString "b" ++ (putString "LowCardinality(UInt8)" ++
        (putLE 8 1 ++ (putLE 8 0x600 ++ (putLE 8 1 ++ ([7] ++ (putLE 8 m ++ (List.replicate m 0 ++ rest)))))))) =
      .ok ⟨"b", .lowCard .u8 (List.replicate m 0) (.num .u8 [7]) none⟩ rest := by
    rw [readColumn, bind_ok (readString_put _ _ (by decide)), bind_ok (readString_put _ _ (by decide)), loadData, hlc, Plan.load, bind_run,
      if_neg (by decide), bind_ok (readLE_put (by decide) _), if_neg (by decide), bind_ok (readLE_put (by decide) _)]
    simp only [show IdxTy.fromFlags 0x600 = some .u8 from rfl]
    rw [if_neg (by decide), if_neg (by decide), bind_ok (readLE_put (by decide) _), bind_ok (hd _),
      bind_ok (readLE_put (by omega) _), bind_ok hix, if_pos (by decide)]
    rfl
  rw [rawLoad, bind_ok (readBlockInfo_put _ (by decide) (by decide) _), bind_ok (readUvarint_put (by decide) _),
    bind_ok (readUvarint_put (by decide) _), readColumns, bind_ok (ha _)]
  show (readColumns known tz 1 1 ⟨BlockInfo.default, [⟨"a", .num .u8 [x.toNat]⟩]⟩) _ = _
  rw [readColumns, bind_ok hb, bind_run]
  rcases hm with rfl | rfl <;> rfl

example : (rawLoad (fun _ => true) "UTC".toList) (putBlockInfo .default ++ (putUvarint 2 ++ (putUvarint 1 ++
      (putString "a" ++ (putString "UInt8" ++ ([9] ++
      (putString "b" ++ (putString "LowCardinality(UInt8)" ++
        (putLE 8 1 ++ (putLE 8 0x600 ++ (putLE 8 1 ++ ([7] ++ (putLE 8 2 ++ (List.replicate 2 0 ++ [])))))))))))))) = .panic :=
  C63_uneven_violated _ _ _ _ (.inr rfl) _

/-- `FixedString(0)` is taken for a type. -/
theorem resolve_zero (known : Tz → Bool) (tz : Tz) : resolve known tz "FixedString(0)".toList = .fixed 0 := by
  have h := resolve_name tz (known := known) (t := .fixedString 0) (show 0 < 2 ^ 64 by decide)
  have e : SqlType.name (.fixedString 0) = "FixedString(0)".toList := by decide +kernel
  rw [e] at h
  exact h

/-- **C63 is violated** The type name `FixedString(0)` in a block brings the reader down, whatever the number of rows: the length of the
column is computed by dividing by the width. -/
theorem C63_zero_width_violated (known : Tz → Bool) (tz : Tz) (rows : Nat) (hr : rows < 2 ^ 64) (rest : Bytes) :
    rawLoad known tz (putBlockInfo .default ++ (putUvarint 1 ++ (putUvarint rows ++
      (putString "a" ++ (putString "FixedString(0)" ++ rest))))) = .panic := by
  have hm : readMany (readN 0) rows rest = .ok (List.replicate rows []) rest := by
    induction rows with
    | zero => rfl
    | succ n ih =>
      rw [readMany, bind_ok (show readN 0 rest = .ok [] rest from readN_append' (n := 0) [] rest rfl), bind_ok (ih (by omega))]
      rfl
  have hl : (Plan.fixed 0).load rows rest = .ok (.fixed 0 []) rest := by
    rw [Plan.load, bind_ok (alloc_ok (by omega) _), bind_ok hm]
    simp [Reader.pure]
  have hc : readColumn known tz rows (putString "a" ++ (putString "FixedString(0)" ++ rest)) = .ok ⟨"a", .fixed 0 []⟩ rest := by
    rw [readColumn, bind_ok (readString_put _ _ (by decide)), bind_ok (readString_put _ _ (by decide)), loadData, resolve_zero, bind_run, hl]
    rfl
  rw [rawLoad, bind_ok (readBlockInfo_put _ (by decide) (by decide) _), bind_ok (readUvarint_put (by decide) _),
    bind_ok (readUvarint_put hr _), readColumns, bind_ok hc]
  rfl

example : rawLoad (fun _ => true) "UTC".toList (putBlockInfo .default ++ (putUvarint 1 ++ (putUvarint 0 ++
      (putString "a" ++ (putString "FixedString(0)" ++ []))))) = .panic := C63_zero_width_violated _ _ _ (by decide) _

end CH.Props
