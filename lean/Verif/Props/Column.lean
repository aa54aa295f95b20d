import Verif.Lemmas.Send
import Verif.Lemmas.Types

/-! Properties C09, C17, C21, C22, C25, C26: column data. -/

namespace CH.Props
open CH CH.Spec

/-- C09. Writing all rows of a column and reading them back under its own type name with the same row count gives a column of
the same type with the same rows, and the bytes after it are untouched. (`_partial`: `Savable` excludes DateTime64 and
local date-time columns, whose `save` is unimplemented, see `C09_datetime64_violated`; `Nameable` excludes the types
whose names are misread, see C14.) -/
theorem C09_column_roundtrip_partial (known : Tz → Bool) (tz : Tz) (c : Col) (n : Nat) (hn : Nameable known c.sqlType)
    (h : Savable tz c 0 n) (hm : InMemory c) :
    ∃ bytes, c.save 0 n = .ok bytes ∧ ∀ rest, ∃ c', loadData known tz c.sqlType.name n (bytes ++ rest) = .ok c' rest ∧
      c'.sqlType = c.sqlType ∧ c'.len = .ok n ∧ ∀ i, i < n → c'.at i = c.at i := by
  obtain ⟨b, hb, hl⟩ := save_load h hm
  refine ⟨b, hb, fun rest => ⟨c.sub tz 0 n, ?_, sub_sqlType h, sub_len h, fun i hi => ?_⟩⟩
  · rw [loadData, resolve_name tz hn]; exact hl rest
  · rw [sub_at h (by omega), Nat.zero_add]

/-- A map of arrays of nullable strings with two rows: `{1: ["a", NULL]}` and `{}`. -/
def sampleMap : Col :=
  .map [1, 1] (.num .i32 [1]) (.array [2] (.nullable [0, 1] (.str [[97], []])))

example : Savable "UTC".toList sampleMap 0 2 ∧ InMemory sampleMap ∧ Nameable (fun _ => false) sampleMap.sqlType := by
  simp [sampleMap, Savable, InMemory, elemsBefore, Nameable, Col.sqlType, KeyLike, NumTy.width]
example : sampleMap.at 0 = .ok (.map (.num .i32) (.array (.nullable .string)) [.num .i32 1]
    [.array (.nullable .string) [.some (.str [97]), .null .string]]) := rfl

/-- C09. End to end: values of a type, put into a column, written, and read back by name, are the same values in the same
order. -/
theorem C09_values_roundtrip_partial (known : Tz → Bool) (tz : Tz) (t : SqlType) (hp : PlainType t) (hn : Nameable known t)
    (vs : List Value) (hf : ∀ v ∈ vs, Fits t v) :
    ∃ c0 c, emptyCol tz t = .ok c0 ∧ pushList c0 vs = .ok c ∧ (Sendable tz c → InMemory c →
      ∃ bytes, c.save 0 vs.length = .ok bytes ∧ ∀ rest, ∃ c', loadData known tz t.name vs.length (bytes ++ rest) = .ok c' rest ∧
        c'.sqlType = t ∧ c'.len = .ok vs.length ∧ ∀ i (h : i < vs.length), c'.at i = .ok vs[i]) := by
  obtain ⟨c0, c, h0, h1, h2, h3, h4, h5⟩ := build_spec tz hp hf
  refine ⟨c0, c, h0, h1, fun hsend hm => ?_⟩
  obtain ⟨b, hb, hl⟩ := C09_column_roundtrip_partial known tz c vs.length (by rw [h2]; exact hn) (sound_savable h3 hsend) hm
  refine ⟨b, hb, fun rest => ?_⟩
  obtain ⟨c', g1, g2, g3, g4⟩ := hl rest
  exact ⟨c', by rw [← h2]; exact g1, g2.trans h2, g3, fun i hi => by rw [g4 i hi, h5 i hi]⟩

example : PlainType (.array (.nullable .string)) ∧ Nameable (fun _ => false) (.array (.nullable .string)) ∧
    Fits (.array (.nullable .string)) (.array (.nullable .string) [.some (.str [1, 2]), .null .string]) := by
  simp [PlainType, Nameable, Fits]

/-- C09 fails for sub-second times: a DateTime64 column received from the server cannot be written back, `save` panics. -/
theorem C09_datetime64_violated :
    (∃ c, loadData (fun _ => true) "UTC".toList (SqlType.dt64 3 "UTC".toList).name 1 [1, 0, 0, 0, 0, 0, 0, 0] = .ok c [] ∧
      c.sqlType = .dt64 3 "UTC".toList ∧ c.len = .ok 1 ∧ c.save 0 1 = .panic) := by
  refine ⟨.dt64 3 "UTC".toList [1], ?_, rfl, rfl, rfl⟩
  rw [loadData, resolve_name "UTC".toList (t := .dt64 3 "UTC".toList) (by simp [Nameable, plainText])]
  rfl

/-- C17. The bytes written for the rows `s..e` of a column, read back, give exactly these rows. (`_partial`: besides the
exclusions of C09, `Savable` demands that arrays and maps before row `s` are empty, see `C17_array_chunk_violated`.) -/
theorem C17_chunk_roundtrip_partial (known : Tz → Bool) (tz : Tz) (c : Col) (s e : Nat) (hn : Nameable known c.sqlType)
    (h : Savable tz c s e) (hm : InMemory c) :
    ∃ bytes, c.save s e = .ok bytes ∧ ∀ rest, ∃ c', loadData known tz c.sqlType.name (e - s) (bytes ++ rest) = .ok c' rest ∧
      c'.sqlType = c.sqlType ∧ c'.len = .ok (e - s) ∧ ∀ i, i < e - s → c'.at i = c.at (s + i) := by
  obtain ⟨b, hb, hl⟩ := save_load h hm
  refine ⟨b, hb, fun rest => ⟨c.sub tz s e, ?_, sub_sqlType h, sub_len h, fun i hi => sub_at h hi⟩⟩
  rw [loadData, resolve_name tz hn]; exact hl rest

example : Savable "UTC".toList (.nullable [0, 1, 0] (.lowCard .u8 [0, 1, 0] (.str [[120], [121]]) none)) 1 3 ∧
    InMemory (.nullable [0, 1, 0] (.lowCard .u8 [0, 1, 0] (.str [[120], [121]]) none)) := by
  refine ⟨⟨by decide, by decide, by decide, by decide, 2, rfl, by decide, by decide, by decide, by decide, by decide⟩, ?_⟩
  simp [InMemory]

/-- C17. The same for a chunk column (`ChunkColumnData`), whose rows are the rows `cs..ce` of the column it is cut from. -/
theorem C17_chunk_column_partial (known : Tz → Bool) (tz : Tz) (c : Col) (cs ce : Nat) (hn : Nameable known c.sqlType)
    (h : Savable tz c cs ce) (hm : InMemory c) :
    ∃ bytes, (Col.chunk c cs ce).save 0 (ce - cs) = .ok bytes ∧ ∀ rest, ∃ c',
      loadData known tz c.sqlType.name (ce - cs) (bytes ++ rest) = .ok c' rest ∧
      c'.len = .ok (ce - cs) ∧ ∀ i, i < ce - cs → c'.at i = c.at (cs + i) ∧ c'.at i = (Col.chunk c cs ce).at i := by
  have hle := h.le
  have h' : Savable tz (.chunk c cs ce) 0 (ce - cs) := ⟨by omega, by rw [Nat.add_zero, Nat.add_sub_cancel' hle]; exact h⟩
  obtain ⟨b, hb, hl⟩ := C17_chunk_roundtrip_partial known tz (.chunk c cs ce) 0 (ce - cs) hn h' hm
  refine ⟨b, hb, fun rest => ?_⟩
  obtain ⟨c', h1, h2, h3, h4⟩ := hl rest
  refine ⟨c', h1, h3, fun i hi => ?_⟩
  have := h4 i hi
  rw [Nat.zero_add] at this
  refine ⟨?_, this⟩
  rw [this, Col.at, if_neg (by omega), Nat.add_comm]

example : Savable "UTC".toList (.fixed 2 [1, 2, 3, 4, 5, 6]) 1 3 ∧ InMemory (.fixed 2 [1, 2, 3, 4, 5, 6]) := by simp [Savable, InMemory]

/-- C17 fails for arrays: the second row `[8]` of the rows `[7], [8]` is written as the row `[7, 8]`. -/
theorem C17_array_chunk_violated :
    ∃ (c : Col) (bytes : Bytes) (c' : Col), c.at 1 = .ok (.array (.num .u8) [.num .u8 8]) ∧ c.save 1 2 = .ok bytes ∧
      loadData (fun _ => true) "UTC".toList c.sqlType.name 1 bytes = .ok c' [] ∧
      c'.at 0 = .ok (.array (.num .u8) [.num .u8 7, .num .u8 8]) := by
  refine ⟨.array [1, 2] (.num .u8 [7, 8]), _, .array [2] (.num .u8 [7, 8]), rfl, rfl, ?_, rfl⟩
  rw [loadData, resolve_name "UTC".toList (t := Col.sqlType (.array [1, 2] (.num .u8 [7, 8]))) (by simp [Nameable, Col.sqlType])]
  rfl

/-- C25 (and C22 for nullable types). Any sequence of values of a type, however nested, pushed to a new column of that type:
no push fails, and row `i` reads as the `i`-th pushed value, empty arrays and maps included. -/
theorem C25_pushed_values_read_back (tz : Tz) (t : SqlType) (hp : PlainType t) (vs : List Value) (hf : ∀ v ∈ vs, Fits t v) :
    ∃ c0 c, emptyCol tz t = .ok c0 ∧ pushList c0 vs = .ok c ∧ c.sqlType = t ∧ c.len = .ok vs.length ∧
      ∀ i (h : i < vs.length), c.at i = .ok vs[i] := by
  obtain ⟨c0, c, h0, h1, h2, _, h4, h5⟩ := build_spec tz hp hf
  exact ⟨c0, c, h0, h1, h2, h4, h5⟩

example : Fits (.map .string (.array (.num .u8))) (.map .string (.array (.num .u8)) [.str [1], .str []]
    [.array (.num .u8) [], .array (.num .u8) [.num .u8 255]]) := by
  simp [Fits, Value.refHashable, Value.keyEq, NumTy.width]

/-- C25. Pushing more rows to a sound column (built or received) appends them and leaves the earlier rows as they were. -/
theorem C25_push_appends (t : SqlType) (hp : PlainType t) (c : Col) (n : Nat) (ht : c.sqlType = t) (hs : Sound c n)
    (vs : List Value) (hf : ∀ v ∈ vs, Fits t v) :
    ∃ c', pushList c vs = .ok c' ∧ c'.len = .ok (n + vs.length) ∧ (∀ i, i < n → c'.at i = c.at i) ∧
      ∀ i (h : i < vs.length), c'.at (n + i) = .ok vs[i] := by
  obtain ⟨c', h⟩ := pushList_ok hp ht hs hf
  have p := pushList_spec hs (fun v hv => fits_genuine (hf v hv)) h
  exact ⟨c', h, p.sound.len, p.old, fun i hi => by rw [p.new i hi, readBack_fits ht hs (hf _ (List.getElem_mem hi))]⟩

example : Sound (.array [0, 2] (.nullable [0, 1] (.str [[97], []]))) 2 := by
  simp [Sound, lastOff]

/-- C25. For every type, low cardinality at any depth included: whenever pushing values of the type succeeds, the rows are the
old rows followed by the pushed values. -/
theorem C25_successful_pushes (t : SqlType) (c : Col) (n : Nat) (ht : c.sqlType = t) (hs : Sound c n) (vs : List Value)
    (hf : ∀ v ∈ vs, Fits t v) (c' : Col) (h : pushList c vs = .ok c') :
    c'.sqlType = t ∧ c'.len = .ok (n + vs.length) ∧ (∀ i, i < n → c'.at i = c.at i) ∧
      ∀ i (h : i < vs.length), c'.at (n + i) = .ok vs[i] := by
  have p := pushList_spec hs (fun v hv => fits_genuine (hf v hv)) h
  exact ⟨p.type.trans ht, p.sound.len, p.old,
    fun i hi => by rw [p.new i hi, readBack_fits ht hs (hf _ (List.getElem_mem hi))]⟩

example : Sound (.array [1] (.lowCard .u8 [0] (.str [[97]]) none)) 1 ∧
    Fits (.array (.lowCard .string)) (.array (.lowCard .string) [.str [97], .str [98]]) ∧
    ∃ c', pushList (.array [1] (.lowCard .u8 [0] (.str [[97]]) none)) [.array (.lowCard .string) [.str [97], .str [98]]] = .ok c' :=
  ⟨⟨rfl, by simp, rfl, by decide, trivial, 1, rfl, by decide, by decide, trivial⟩, by simp [Fits], _, rfl⟩

/-- C22. After any sequence of pushes of values and NULLs to a new nullable column, row `i` reads as NULL exactly if the `i`-th
push was NULL and otherwise as the pushed value. -/
theorem C22_nullable_rows (tz : Tz) (t : SqlType) (hp : PlainType t) (os : List (Option Value))
    (hf : ∀ w, some w ∈ os → Fits t w) :
    ∃ c0 c, emptyCol tz (.nullable t) = .ok c0 ∧
      pushList c0 (os.map fun o => match o with | none => Value.null t | some w => Value.some w) = .ok c ∧
      c.len = .ok os.length ∧ ∀ i (h : i < os.length),
        (os[i] = none ↔ c.at i = .ok (.null t)) ∧ ∀ w, os[i] = some w ↔ c.at i = .ok (.some w) := by
  obtain ⟨c0, c, h0, h1, _, h3, h4⟩ := C25_pushed_values_read_back tz (.nullable t) hp
    (os.map fun o => match o with | none => Value.null t | some w => Value.some w) (by
      intro v hv
      obtain ⟨o, ho, rfl⟩ := List.mem_map.mp hv
      cases o with
      | none => simp [Fits]
      | some w => exact hf w ho)
  refine ⟨c0, c, h0, h1, by simpa using h3, fun i hi => ?_⟩
  have := h4 i (by simpa using hi)
  rw [List.getElem_map] at this
  rw [this]
  cases os[i] with
  | none => simp
  | some w => simp

example : PlainType (.array .string) ∧ ∀ w, some w ∈ [none, some (Value.array .string [.str [1]])] → Fits (.array .string) w := by
  refine ⟨by simp [PlainType], fun w hw => ?_⟩
  simp at hw; subst hw; simp [Fits]

/-- C22. A bare value (not wrapped in `Some`) pushed to a nullable column reads back as `Some` of the value. -/
theorem C22_nullable_bare (t : SqlType) (c : Col) (n : Nat) (ht : c.sqlType = .nullable t) (hs : Sound c n)
    (v : Value) (hf : Fits t v) (hb : (∀ t', v ≠ .null t') ∧ ∀ w, v ≠ .some w) (c' : Col) (h : c.push v = .ok c') :
    c'.at n = .ok (.some v) ∧ ∀ i, i < n → c'.at i = c.at i := by
  have p := push_spec hs (fits_genuine hf) h
  refine ⟨?_, p.old⟩
  rw [p.new]
  cases c <;> simp [Col.sqlType] at ht <;> try exact False.elim hs
  have := readBack_fits ht hs.2.2 hf
  cases v with
  | null t' => exact absurd rfl (hb.1 t')
  | some w => exact absurd rfl (hb.2 w)
  | _ => simp [readBack, this]

example : ∃ c', (Col.nullable [1] (.num .u8 [0])).push (.num .u8 7) = .ok c' := ⟨_, rfl⟩

/-- C26. Byte strings of any lengths pushed to a new `FixedString(n)` column: row `i` reads as the first `n` bytes of the
`i`-th string, padded with zeros to exactly `n` bytes, whatever the other rows are.
(`_partial`: width 0 is excluded, see `C26_zero_width_violated`.) -/
theorem C26_fixed_string_rows_partial (tz : Tz) (n : Nat) (hn : 0 < n) (bs : List Bytes) :
    ∃ c0 c, emptyCol tz (.fixedString n) = .ok c0 ∧ pushList c0 (bs.map Value.str) = .ok c ∧ c.len = .ok bs.length ∧
      ∀ i (h : i < bs.length), ∃ r, c.at i = .ok (.str r) ∧ r.length = n ∧ ∀ k, k < n → r[k]? = some ((bs[i][k]?).getD 0) := by
  have hok : ∀ (bs : List Bytes) (buf : Bytes), ∃ c, pushList (.fixed n buf) (bs.map Value.str) = .ok c := by
    intro bs
    induction bs with
    | nil => exact fun buf => ⟨_, rfl⟩
    | cons b bs ih => exact fun buf => ih _
  obtain ⟨c, hc⟩ := hok bs []
  have p := pushList_spec (c := .fixed n []) (n := 0) ⟨hn, by simp⟩ (by
    intro v hv
    obtain ⟨b, _, rfl⟩ := List.mem_map.mp hv
    simp [Genuine]) hc
  have hl := p.sound.len
  rw [Nat.zero_add, List.length_map] at hl
  refine ⟨_, c, rfl, hc, hl, fun i hi => ?_⟩
  have := p.new i (by simpa using hi)
  rw [Nat.zero_add, List.getElem_map, readBack, Value.toBytes, obind_ok] at this
  refine ⟨_, this, by simp; omega, fun k hk => ?_⟩
  rw [List.getElem?_append]
  split
  · rename_i h
    have h : k < bs[i].length := by rw [List.length_take] at h; omega
    rw [List.getElem?_take_of_lt hk, List.getElem?_eq_getElem h]; rfl
  · rename_i h
    rw [List.length_take] at h
    rw [List.getElem?_replicate, if_pos (by simp; omega), List.getElem?_eq_none (by omega)]; rfl

example : (do let c ← pushList (.fixed 3 []) [.str [1], .str [1, 2, 3, 4]]; c.at 1) = .ok (.str [1, 2, 3]) := rfl

/-- C26 needs a positive width: asking for the length of a `FixedString(0)` column divides by zero. -/
theorem C26_zero_width_violated : (do let c ← emptyCol [] (.fixedString 0); let c ← c.push (.str []); c.len) = .panic := rfl

/-- C21. Any number of values (below 2^64) pushed to a new low-cardinality column read back in order, whatever the repetitions and
however often the index had to be widened. -/
theorem C21_low_cardinality_rows (tz : Tz) (t : SqlType) (ht : HashType t) (vs : List Value) (hn : vs.length < 2 ^ 64)
    (hf : ∀ v ∈ vs, Fits t v) :
    ∃ c0 c, emptyCol tz (.lowCard t) = .ok c0 ∧ pushList c0 vs = .ok c ∧ c.len = .ok vs.length ∧
      ∀ i (h : i < vs.length), c.at i = .ok vs[i] := by
  obtain ⟨d, h1, h2, h3, h4⟩ := emptyCol_dict tz ht
  have hs : Sound (.lowCard .u8 [] d none) 0 := ⟨rfl, by decide, h4, 0, h3, by omega, by simp, trivial⟩
  obtain ⟨c, g1, g2, g3, g4, g5⟩ := lc_extend ht (by rw [Col.sqlType, h2]) hs (vs := vs) (by omega) hf
  refine ⟨_, c, by rw [emptyCol, h1]; rfl, g1, by rw [g3, Nat.zero_add], fun i hi => ?_⟩
  have := g5 i hi
  rwa [Nat.zero_add] at this

example : ∀ v ∈ List.replicate 300 (Value.str [1]) ++ [.str [2]], Fits .string v := by
  intro v hv
  rcases List.mem_append.mp hv with hv | hv
  · obtain rfl := (List.mem_replicate.mp hv).2; trivial
  · obtain rfl := List.mem_singleton.mp hv; trivial

/-- C21. The same when pushing to a received column, provided its index vector is consistent with its dictionary and the
dictionary has at most one entry more than there are rows (`Sound`); old rows stay. (`_partial`: see
`C21_received_violated` for larger dictionaries and `C21_nullable_violated` for nullable dictionaries.) -/
theorem C21_received_extend_partial (t : SqlType) (ht : HashType t) (c : Col) (n : Nat) (hc : c.sqlType = .lowCard t)
    (hs : Sound c n) (vs : List Value) (hn : n + vs.length < 2 ^ 64) (hf : ∀ v ∈ vs, Fits t v) :
    ∃ c', pushList c vs = .ok c' ∧ c'.len = .ok (n + vs.length) ∧ (∀ i, i < n → c'.at i = c.at i) ∧
      ∀ i (h : i < vs.length), c'.at (n + i) = .ok vs[i] := by
  obtain ⟨c', h1, _, h3, h4, h5⟩ := lc_extend ht hc hs hn hf
  exact ⟨c', h1, h3, h4, h5⟩

example : Sound (.lowCard .u8 [1, 2, 1] (.str [[], [97], [98]]) none) 3 :=
  ⟨rfl, by decide, trivial, 3, rfl, by decide, by decide, trivial⟩

/-- C21. The dictionary of a locally built column never holds the same value twice (for types stored without loss). -/
theorem C21_dictionary_distinct (tz : Tz) (t : SqlType) (ht : ExactType t) (vs : List Value) (hn : vs.length < 2 ^ 64)
    (hf : ∀ v ∈ vs, Fits t v) :
    ∃ c0 ity index d vmap, emptyCol tz (.lowCard t) = .ok c0 ∧ pushList c0 vs = .ok (.lowCard ity index d vmap) ∧
      ∃ m, d.len = .ok m ∧ ∀ i j, i < m → j < m → d.at i = d.at j → i = j := by
  obtain ⟨d, h1, h2, h3, h4⟩ := emptyCol_dict tz (exact_hash ht)
  have hs : Sound (.lowCard .u8 [] d none) 0 := ⟨rfl, by decide, h4, 0, h3, by omega, by simp, trivial⟩
  have hc : (Col.lowCard .u8 [] d none).sqlType = .lowCard t := by rw [Col.sqlType, h2]
  obtain ⟨c, g1, g2, _⟩ := lc_extend (exact_hash ht) hc hs (vs := vs) (by omega) hf
  have hfull : LcFull (.lowCard .u8 [] d none) := ⟨0, h3.len, fun i _ hi => absurd hi (by omega), rfl⟩
  have p := pushList_spec hs (fun v hv => fits_genuine (hf v hv)) g1
  have hfin := lcFull_pushList ht hc hs (fun v hv => fits_genuine (hf v hv)) hfull g1
  obtain ⟨ity, index, d', vmap, rfl, _⟩ := sound_lowCard_shape p.sound g2
  obtain ⟨m, hm, hinj, _⟩ := hfin
  exact ⟨_, ity, index, d', vmap, by rw [emptyCol, h1]; rfl, g1, m, hm, hinj⟩

example : ExactType (.num .u16) ∧ Fits (.num .u16) (.num .u16 65535) := by simp [ExactType, Fits, NumTy.width]

/-- C21 fails for a received column with a larger dictionary: with 256 entries and an 8-bit index, a new value gets number 256,
is stored as 0 and reads as the first dictionary entry. -/
theorem C21_received_violated :
    (do let c ← (Col.lowCard .u8 [5] (.num .u16 (List.range 256)) none).push (.num .u16 999); c.at 1) = .ok (.num .u16 0) := by
  have h5 : idx (List.range 256) 5 = .ok 5 := by rw [idx_ok (by simp)]; simp
  have h0 : idx (List.range 256 ++ [999]) 0 = .ok 0 := by rw [idx_append_left (by simp), idx_ok (by simp)]; simp
  simp [Col.push, Col.sqlType, pushT, lcValueMap, mapOut, Col.at, h5, vmapCollect, Value.valHashable, vmapGet, Value.valKeyEq,
    Col.len, Value.toNum, lcIndexPush, IdxTy.maxLen, IdxTy.width]
  simp [idx, h0]

/-- C21 fails for nullable dictionaries: pushing NULL, or a value wrapped in `Some`, panics (`Hash for Value` is unimplemented). -/
theorem C21_nullable_violated :
    (do let c ← emptyCol [] (.lowCard (.nullable .string)); c.push (.null .string)) = .panic ∧
    (do let c ← emptyCol [] (.lowCard (.nullable .string)); c.push (.some (.str [1]))) = .panic := by
  exact ⟨rfl, rfl⟩

/-- C21: in a `FixedString` dictionary values that become equal when cut to the width are stored twice. -/
theorem C21_fixed_string_duplicates_violated :
    ∃ ity index d vmap, (do let c ← emptyCol [] (.lowCard (.fixedString 1)); pushList c [.str [1, 2], .str [1, 3]])
      = .ok (.lowCard ity index d vmap) ∧ d.at 0 = d.at 1 ∧ d.at 0 = .ok (.str [1]) :=
  ⟨.u8, [0, 1], .fixed 1 [1, 1], some [(.str [1, 3], 1), (.str [1, 2], 0)], rfl, rfl, rfl⟩

end CH.Props
