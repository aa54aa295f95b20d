import Verif.Lemmas.Cast

/-! Property C34: converting a block to the column types of the table. -/

namespace CH.Props
open CH CH.Spec

/-- What is asked of a column with `n` rows and of the target type: the parts of the column agree, it and the target fit into memory (fewer than `2^56` rows at every level, `InMemory`; strings of
fixed length below `2^63` bytes, `SpaceFor`), its times fit the target, the
target is a type in the scope of these theorems (or the type the column has), and every cell has a counterpart there. -/
structure Convertible (parse : IpKind → String → Option Bytes) (known : Tz → Bool) (tz : Tz) (n : Nat) (c : Col) (t : SqlType) : Prop where
  sound : Sound c n
  sized : Sized tz c
  small : InMemory c
  room : SpaceFor t n
  target : Insertable t ∨ t = c.sqlType
  times : TimesFit t c
  named : Nameable known t
  cells : ∀ i, i < n → ∃ v w, cell c i = some v ∧ convert parse tz t v = some w

/-- C34, one column. Conversion never panics: it is refused, or gives a column of the target type with as many rows, whose bytes
the receiver reads, under the target's name, as the converted cells in their order. (`_partial`: `Insertable` leaves out
`Map` targets other than the column's own type and `LowCardinality(DateTime64)`, `C34_lowcard_time_violated`; cells without a counterpart are the
subject of the theorems below. `parse` stands for the standard library's address parsers.) -/
theorem C34_column_partial (parse : IpKind → String → Option Bytes) (hparse : ∀ k s b, parse k s = some b → b.length = k.size)
    (known : Tz → Bool) (tz : Tz) (n : Nat) (hn : n < 2 ^ 56 - 1) (c : Col) (t : SqlType) (h : Convertible parse known tz n c t) :
    c.castTo parse t = .err typeError ∨ ∃ d, c.castTo parse t = .ok d ∧ d.sqlType = t ∧ d.len = .ok n ∧
      ∃ bytes, d.save 0 n = .ok bytes ∧ ∀ rest, ∃ c', loadData known tz t.name n (bytes ++ rest) = .ok c' rest ∧
        c'.sqlType = t ∧ c'.len = .ok n ∧
        ∀ i, i < n → ∃ v w, cell c i = some v ∧ convert parse tz t v = some w ∧ c'.at i = .ok w := by
  rcases castTo_done h.sound h.sized h.small h.room h.target h.times known h.named hn hparse h.cells with h1 | ⟨d, h1, h2⟩
  · exact .inl h1
  · obtain ⟨bytes, c', g1, g2, g3, g4, g5⟩ := h2.wire
    refine .inr ⟨d, h1, h2.type, h2.len, bytes, g1, fun rest => ⟨c', ?_, g3, g4, fun i hi => ?_⟩⟩
    · rw [loadData, resolve_name tz h.named]; exact g2 rest
    · obtain ⟨v, w, e1, e2⟩ := h.cells i hi
      exact ⟨v, w, e1, e2, g5 i v w hi e1 e2⟩

/-- C34, a block. If the block has as many columns as the table, conversion never panics: it is refused as a whole, or gives a
block with the same header and column names, the table's types and the same number of rows; written, it is received as
the converted cells. (`_partial` as `C34_column_partial`.) -/
theorem C34_block_partial (parse : IpKind → String → Option Bytes) (hparse : ∀ k s b, parse k s = some b → b.length = k.size)
    (known : Tz → Bool) (tz : Tz) (n : Nat) (hn : n < 2 ^ 56 - 1) (b table : Block) (hr : b.rowCount = .ok n)
    (hlen : b.columns.length = table.columns.length) (h64 : b.columns.length < 2 ^ 64)
    (hlo : -(2 ^ 31 : Nat) ≤ b.info.bucketNum) (hhi : b.info.bucketNum < (2 ^ 31 : Nat))
    (hname : ∀ c ∈ b.columns, (strBytes c.name).length < 2 ^ 63)
    (htype : ∀ c ∈ table.columns, (strBytes (String.ofList c.data.sqlType.name)).length < 2 ^ 63)
    (h : ∀ i (h1 : i < b.columns.length) (h2 : i < table.columns.length),
      Convertible parse known tz n b.columns[i].data table.columns[i].data.sqlType) :
    b.castTo parse table = .err typeError ∨ ∃ b', b.castTo parse table = .ok b' ∧ b'.info = b.info ∧
      b'.rowCount = .ok n ∧ Rect b' n ∧ b'.columns.map (·.name) = b.columns.map (·.name) ∧
      b'.columns.map (·.data.sqlType) = table.columns.map (·.data.sqlType) ∧
      ∃ bytes, b'.write = .ok bytes ∧ ∀ rest, ∃ r, rawLoad known tz (bytes ++ rest) = .ok r rest ∧ r.info = b.info ∧
        header r = header b' ∧ Rect r n ∧
        ∀ i (h1 : i < b.columns.length) (h2 : i < table.columns.length) (h3 : i < r.columns.length) j, j < n →
          ∃ v w, cell b.columns[i].data j = some v ∧ convert parse tz table.columns[i].data.sqlType v = some w ∧
            r.columns[i].data.at j = .ok w := by
  have hdone : ∀ i (h1 : i < b.columns.length) (h2 : i < table.columns.length),
      Done parse tz b.columns[i].data table.columns[i].data.sqlType (b.columns[i].data.castTo parse table.columns[i].data.sqlType) n :=
    fun i h1 h2 => castTo_done (h i h1 h2).sound (h i h1 h2).sized (h i h1 h2).small (h i h1 h2).room (h i h1 h2).target (h i h1 h2).times known (h i h1 h2).named hn hparse
      (h i h1 h2).cells
  rcases castColumns_all hlen (fun i h1 h2 => by
    rcases hdone i h1 h2 with e | ⟨d, e, _⟩
    · exact .inl e
    · exact .inr ⟨d, e⟩) with e | ⟨ds, e⟩
  · exact .inl (by rw [Block.castTo, if_neg (by omega), e]; rfl)
  right
  obtain ⟨hdl, hd⟩ := castColumns_ok hlen e
  have hsent : ∀ i (h1 : i < b.columns.length) (h2 : i < table.columns.length) (h3 : i < ds.length),
      Sent parse tz b.columns[i].data table.columns[i].data.sqlType ds[i].data n := by
    intro i h1 h2 h3
    rcases hdone i h1 h2 with e | ⟨d, e, s⟩
    · rw [(hd i h1 h2 h3).2] at e; cases e
    · rw [(hd i h1 h2 h3).2] at e; injection e with e; rw [e]; exact s
  have hrect : Rect ⟨b.info, ds⟩ n := by
    intro c hc
    obtain ⟨i, hi, rfl⟩ := List.getElem_of_mem hc
    exact (hsent i (by simp at hi; omega) (by simp at hi; omega) hi).len
  have hrow : Block.rowCount ⟨b.info, ds⟩ = .ok n := by
    cases ds with
    | nil =>
      have : b.columns = [] := by cases hb : b.columns with
        | nil => rfl
        | cons => rw [hb] at hdl; simp at hdl
      rw [Block.rowCount, this] at hr
      exact hr
    | cons d ds => exact hrect d (by simp)
  obtain ⟨es, hel, he⟩ : ∃ es : List NCol, es.length = ds.length ∧ ∀ i (hi : i < es.length),
      ∀ (h1 : i < b.columns.length) (h2 : i < table.columns.length) (h3 : i < ds.length), Arrives known tz n ds[i] es[i] ∧
        ∀ j v w, j < n → cell b.columns[i].data j = some v → convert parse tz table.columns[i].data.sqlType v = some w →
          es[i].data.at j = .ok w := by
    refine choose_list (P := fun i (c' : NCol) => ∀ (h1 : i < b.columns.length) (h2 : i < table.columns.length) (h3 : i < ds.length),
      Arrives known tz n ds[i] c' ∧
        ∀ j v w, j < n → cell b.columns[i].data j = some v → convert parse tz table.columns[i].data.sqlType v = some w →
          c'.data.at j = .ok w) (n := ds.length) fun i hi => ?_
    obtain ⟨c', g1, g2⟩ := sent_arrives (known := known) (hsent i (by omega) (by omega) hi)
      (by rw [(hd i (by omega) (by omega) hi).1]; exact hname _ (List.getElem_mem _)) (htype _ (List.getElem_mem _))
      (h i (by omega) (by omega)).named
    exact ⟨⟨ds[i].name, c'⟩, fun _ _ _ => ⟨g1, g2⟩⟩
  obtain ⟨bss, w1, w2⟩ := readColumns_arrives (ds := ds) hel (fun i h1 h2 => (he i h2 (by omega) (by omega) h1).1)
  refine ⟨⟨b.info, ds⟩, by rw [Block.castTo, if_neg (by omega), e]; rfl, rfl, hrow, hrect, ?_, ?_, _,
    by rw [Block.write, hrow]; simp only [obind_ok]; rw [w1]; rfl, fun rest => ⟨⟨b.info, es⟩, ?_, rfl, ?_, ?_, ?_⟩⟩
  · apply List.ext_getElem (by simpa using hdl)
    intro i h1 h2
    simp only [List.length_map] at h1 h2
    simpa using (hd i h2 (by omega) h1).1
  · apply List.ext_getElem (by simp; omega)
    intro i h1 h2
    simp only [List.length_map] at h1 h2
    simpa using (hsent i (by omega) h2 h1).type
  · rw [rawLoad]
    simp only [List.append_assoc]
    rw [bind_ok (readBlockInfo_put _ hlo hhi _), bind_ok (readUvarint_put (by omega) _), bind_ok (readUvarint_put (by omega) _),
      w2 _ (by simp [Block.new])]
    simp [Block.new]
  · apply List.ext_getElem (by simpa [header] using hel)
    intro i h1 h2
    simp only [header, List.length_map] at h1 h2
    have g := (he i h1 (by omega) (by omega) h2).1
    simp [header, g.name, g.type]
  · intro c hc
    obtain ⟨i, hi, rfl⟩ := List.getElem_of_mem hc
    simp only at hi
    exact (he i hi (by omega) (by omega) (by omega)).1.len
  · intro i h1 h2 h3 j hj
    obtain ⟨v, w, c1, c2⟩ := (h i h1 h2).cells j hj
    exact ⟨v, w, c1, c2, (he i h3 h1 h2 (by simp at h3; omega)).2 j v w hj c1 c2⟩

/-- C34. For all blocks: the conversion succeeds only if the block has exactly as many columns as the table and every one of its
columns converts; the result then consists of the converted columns under their old names. -/
theorem C34_whole (parse : IpKind → String → Option Bytes) (b table b' : Block) (h : b.castTo parse table = .ok b') :
    table.columns.length = b.columns.length ∧ b'.columns.length = b.columns.length ∧ b'.info = b.info ∧
    ∀ i (h1 : i < b.columns.length) (h2 : i < table.columns.length) (h3 : i < b'.columns.length),
      b'.columns[i].name = b.columns[i].name ∧
      b.columns[i].data.castTo parse table.columns[i].data.sqlType = .ok b'.columns[i].data := by
  rw [Block.castTo] at h
  split at h
  · cases h
  rename_i hl
  obtain ⟨ds, h1, h2⟩ := obind_eq_ok h
  injection h2 with h2; subst h2
  have hl' : b.columns.length = table.columns.length := by omega
  obtain ⟨g1, g2⟩ := castColumns_ok hl' h1
  exact ⟨hl'.symm, g1, rfl, g2⟩

/-- C34. A block with another number of columns is refused. -/
theorem C34_column_count (parse : IpKind → String → Option Bytes) (b table : Block) (h : table.columns.length ≠ b.columns.length) :
    b.castTo parse table = .err outOfRange := by
  rw [Block.castTo, if_pos h]

example : (Block.mk BlockInfo.default [⟨"a", .num .u8 [1]⟩]).castTo (fun _ _ => none) Block.new = .err outOfRange :=
  C34_column_count _ _ _ (by decide)

/-- Conversions made by rewriting the stored parts: local times to the types of times, enums to enums of the same width, also inside
arrays and nullables. -/
def Adjusts : SqlType → SqlType → Prop
  | .chrono, .datetime => True
  | .chrono, .dt64 _ _ => True
  | .enum w _, .enum w' _ => w' = w
  | .array s, .array t => Adjusts s t
  | .nullable s, .nullable t => Adjusts s t
  | _, _ => False

/-- The conversions on offer, source first, besides that of a type to itself. -/
def Offered : SqlType → SqlType → Prop
  | .string, .fixedString _ => True
  | .nullable .string, .nullable (.fixedString _) => True
  | .array (.num .u8), .string => True
  | .array (.num .u8), .fixedString _ => True
  | .decimal _ _, .decimal _ _ => True
  | .nullable (.decimal _ _), .nullable (.decimal _ _) => True
  | .string, .ip k => k ≠ .uuid
  | s, .lowCard _ => s = .string ∨ (∃ n, s = .fixedString n) ∨ s = .date ∨ s = .datetime ∨ s = .chrono ∨ ∃ t, s = .num t ∧ t ∈ [.u8, .u16, .u32, .u64, .i8, .i16, .i32, .i64]
  | s, .simpleAgg _ t => s = t
  | s, t => Adjusts s t

theorem adjusts_cast {c : Col} {n : Nat} {t : SqlType} (hs : Sound c n) (h : Adjusts c.sqlType t) : ∃ d, c.dataCast t = some d := by
  induction c generalizing n t with
  | nullable nulls c ih =>
    cases t <;> simp only [Col.sqlType, Adjusts] at h
    obtain ⟨d, hd⟩ := ih hs.2.2 h
    exact ⟨_, by rw [Col.dataCast, hd]; rfl⟩
  | array offs c ih =>
    cases t <;> simp only [Col.sqlType, Adjusts] at h
    obtain ⟨d, hd⟩ := ih hs.2.2 h
    exact ⟨_, by rw [Col.dataCast, hd]; rfl⟩
  | chrono z xs =>
    cases t <;> simp only [Col.sqlType, Adjusts] at h
    all_goals exact ⟨_, by simp [Col.dataCast, SqlType.isDatetime]; rfl⟩
  | enum w items xs =>
    cases t <;> simp only [Col.sqlType, Adjusts] at h
    subst h
    exact ⟨_, by simp [Col.dataCast]; rfl⟩
  | chronoAd => exact False.elim hs
  | stringAd => exact False.elim hs
  | fixedAd => exact False.elim hs
  | nullFixedAd => exact False.elim hs
  | decAd => exact False.elim hs
  | nullDecAd => exact False.elim hs
  | enumAd => exact False.elim hs
  | nullEnumAd => exact False.elim hs
  | chunk => exact False.elim hs
  | _ => simp [Col.sqlType, Adjusts] at h

/-- C34. The conversions on offer are made. (`_partial` as `C34_column_partial`.) -/
theorem C34_offered_partial (parse : IpKind → String → Option Bytes) (hparse : ∀ k s b, parse k s = some b → b.length = k.size)
    (known : Tz → Bool) (tz : Tz) (n : Nat) (hn : n < 2 ^ 56 - 1) (c : Col) (t : SqlType) (h : Convertible parse known tz n c t)
    (ho : t = c.sqlType ∨ Offered c.sqlType t) : ∃ d, c.castTo parse t = .ok d := by
  rcases castTo_done h.sound h.sized h.small h.room h.target h.times known h.named hn hparse h.cells with he | ⟨d, h1, _⟩
  case inr => exact ⟨d, h1⟩
  exfalso
  rcases ho with ho | ho
  · cases t <;> simp [Col.castTo, ho] at he
  by_cases hne : t = c.sqlType
  · cases t <;> simp [Col.castTo, hne] at he
  generalize hs : c.sqlType = s at ho
  unfold Offered at ho
  split at ho
  case h_1 => simp [Col.castTo, hs, castArm] at he
  case h_2 => simp [Col.castTo, hs, castArm] at he
  case h_3 => simp [Col.castTo, hs, castArm] at he
  case h_4 => simp [Col.castTo, hs, castArm] at he
  case h_5 => rw [Col.castTo, if_neg hne, hs, castArm, fromPrecision_ok h.named.2] at he; cases he; simp
  case h_6 => rw [Col.castTo, if_neg hne, hs, castArm, fromPrecision_ok h.named.1.2] at he; cases he; simp
  case h_7 =>
    rename_i k
    rcases castTo_done h.sound h.sized h.small h.room h.target h.times known h.named hn hparse h.cells with _ | ⟨d, h1, _⟩
    · obtain ⟨d, h2, _⟩ := sent_ip (by omega) ho hparse h.sound hs h.cells
      cases k
      · rw [Col.castTo, if_neg hne, hs, castArm, h2] at he; cases he; simp
      · rw [Col.castTo, if_neg hne, hs, castArm, h2] at he; cases he; simp
      · exact ho rfl
    · rw [h1] at he; cases he
  case h_8 =>
    rename_i t
    have hl : c.sqlType.lcInner = true := by
      rw [hs]
      rcases ho with rfl | ⟨n, rfl⟩ | rfl | rfl | rfl | ⟨t, rfl, h1⟩ <;> try rfl
      cases t <;> first | rfl | simp at h1
    have : ∃ d, lcCast c t = .ok d := by
      rcases h.target.resolve_right hne with ht | rfl
      · have hcf : 0 < n → ChronoFree c.sqlType := by
          intro h0
          obtain ⟨v, w, h1, h2⟩ := h.cells 0 h0
          exact lcInner_chronoFree h.sound hl (fun x n z e => by
            rw [e] at h1; injection h1 with h1; subst h1
            exact convert_hash_chrono ht h2) h0
        obtain ⟨d, h2, _⟩ := sent_lc h.sound hl hcf h.sized hn (by simpa only [SpaceFor] using h.room) ht h.cells
        exact ⟨d, h2⟩
      · obtain ⟨d, h2, _⟩ := sent_lcTime h.sound hl hn h.cells
        exact ⟨d, h2⟩
    obtain ⟨d, h2⟩ := this
    rw [Col.castTo, if_neg hne, castArm, if_pos hl, h2] at he
    · cases he
    · simp
  case h_9 =>
    rename_i f t
    rw [Col.castTo, if_neg hne] at he
    have : c.castTo parse t = .ok c := by
      have e : t = c.sqlType := by rw [← ho, ← hs]
      cases t <;> simp [Col.castTo, e]
    rw [this] at he; cases he
  case h_10 =>
    subst hs
    obtain ⟨d, hd⟩ := adjusts_cast h.sound ho
    have hcd : castData c t = .ok d := by rw [castData, hd]
    have he' : castArm parse c t c.sqlType = .err typeError := by
      cases t <;> first | (simpa only [Col.castTo, if_neg hne] using he) | skip
      rename_i f t _ _ _ _ _ _ _ _ _
      cases hc : c.sqlType <;> rw [hc] at ho <;> exact False.elim ho
    generalize hs : c.sqlType = src at he' ho
    unfold castArm at he'
    split at he'
    case h_1 => cases src <;> exact False.elim ho
    case h_6 => exact False.elim ho
    case h_7 => split at he' <;> (try rw [hcd] at he') <;> cases he'
    case h_8 => split at he' <;> (try rw [hcd] at he') <;> cases he'
    case h_9 => exact False.elim ho
    case h_10 => exact False.elim ho
    case h_11 => exact False.elim ho
    case h_12 => rw [hcd] at he'; cases he'
    all_goals cases he'

/-! ### Cases meeting the hypotheses -/

/-- An address parser that knows one address of each kind. -/
def parseSome : IpKind → String → Option Bytes
  | .v4, "1.2.3.4" => some [1, 2, 3, 4]
  | .v6, "::1" => some (List.replicate 15 0 ++ [1])
  | _, _ => none

example : ∀ k s b, parseSome k s = some b → b.length = k.size := by
  intro k s b h
  unfold parseSome at h
  split at h <;> simp at h <;> subst h <;> rfl

/-- Text is converted to fixed strings, with padding. -/
example : Convertible parseSome (fun _ => true) "UTC".toList 2 (.str [[97, 98], []]) (.fixedString 3) where
  sound := by simp [Sound]
  sized := by simp [Sized]
  small := by simp [InMemory]
  room := by simp [SpaceFor]
  target := .inl (by simp [Insertable])
  times := by simp [TimesFit]
  named := by simp [Nameable]
  cells := fun i hi => by
    match i with
    | 0 => exact ⟨.str [97, 98], .str [97, 98, 0], rfl, rfl⟩
    | 1 => exact ⟨.str [], .str [0, 0, 0], rfl, rfl⟩

example : (do let d ← (Col.str [[97, 98], []]).castTo parseSome (.fixedString 3); d.save 0 2) = .ok [97, 98, 0, 0, 0, 0] := rfl

/-- Optional times are converted to `DateTime64`, one before 1970. -/
example : Convertible parseSome (fun _ => true) "UTC".toList 2 (.nullable [0, 1] (.chrono "UTC".toList [(-1, 250000000, []), (0, 0, [])]))
    (.nullable (.dt64 3 "UTC".toList)) where
  sound := by simp [Sound]
  sized := by simp [Sized]
  small := by simp [InMemory]
  room := by simp [SpaceFor]
  target := .inl (by simp [Insertable])
  times := by simp [TimesFit, fitsBytes]
  named := by simp [Nameable, plainText]
  cells := fun i hi => by
    match i with
    | 0 => exact ⟨.some (.chrono (-1) 250000000 []), .some (.dt64 (-750) 3 "UTC".toList), rfl, rfl⟩
    | 1 => exact ⟨.null .chrono, .null (.dt64 3 "UTC".toList), rfl, rfl⟩

/-- Decimals are rescaled. -/
example : Convertible parseSome (fun _ => true) "UTC".toList 1 (.decimal 18 4 .n64 [123456]) (.decimal 9 2) where
  sound := by simp [Sound, NoBits.width]
  sized := by simp [Sized]
  small := by simp [InMemory]
  room := by simp [SpaceFor]
  target := .inl (by simp [Insertable])
  times := by simp [TimesFit]
  named := by simp [Nameable]
  cells := fun i hi => by
    match i with
    | 0 => exact ⟨.decimal ⟨123456, .n64, 18, 4⟩, .decimal ⟨1234, .n32, 9, 2⟩, rfl, by
        simp [convert, rescale, decimalBytes, fitsBytes]⟩

/-- Low cardinality. -/
example : Convertible parseSome (fun _ => true) "UTC".toList 3 (.str [[97], [98], [97]]) (.lowCard .string) ∧
    Offered .string (.lowCard .string) where
  left := {
    sound := by simp [Sound]
    sized := by simp [Sized]
    small := by simp [InMemory]
    room := by simp [SpaceFor]
    target := .inl (by simp [Insertable, HashType])
    times := by simp [TimesFit]
    named := by simp [Nameable]
    cells := fun i hi => by
      match i with
      | 0 => exact ⟨.str [97], .str [97], rfl, rfl⟩
      | 1 => exact ⟨.str [98], .str [98], rfl, rfl⟩
      | 2 => exact ⟨.str [97], .str [97], rfl, rfl⟩ }
  right := .inl rfl

/-- Low cardinality of times: the same second in two zones is one entry of the dictionary. -/
example : Convertible parseSome (fun _ => true) "UTC".toList 2
    (.chrono "UTC".toList [(5, 7, "UTC".toList), (5, 0, "Europe/Berlin".toList)]) (.lowCard .datetime) ∧
    Offered .chrono (.lowCard .datetime) where
  left := {
    sound := by simp [Sound]
    sized := by simp [Sized]
    small := by simp [InMemory]
    room := by simp [SpaceFor]
    target := .inl (.inr rfl)
    times := by simp [TimesFit]
    named := by simp [Nameable]
    cells := fun i hi => by
      match i with
      | 0 => exact ⟨.chrono 5 7 _, .datetime 5 _, rfl, rfl⟩
      | 1 => exact ⟨.chrono 5 0 _, .datetime 5 _, rfl, rfl⟩ }
  right := .inr (.inr (.inr (.inr (.inl rfl))))

/-- A block of two columns and the table it goes to. -/
def castBlock : Block := ⟨BlockInfo.default, [⟨"a", .str [[97]]⟩, ⟨"ip", .str [strBytes "1.2.3.4"]⟩]⟩
/-- The table for `castBlock`. -/
def castTable : Block := ⟨BlockInfo.default, [⟨"x", .fixed 2 []⟩, ⟨"y", .ip .v4 []⟩]⟩

example : castBlock.rowCount = .ok 1 ∧ castBlock.columns.length = castTable.columns.length := ⟨rfl, rfl⟩
example : ∀ i (h1 : i < castBlock.columns.length) (h2 : i < castTable.columns.length),
    Convertible parseSome (fun _ => true) "UTC".toList 1 castBlock.columns[i].data castTable.columns[i].data.sqlType := by
  intro i h1 h2
  match i with
  | 0 =>
    exact { sound := by simp [castBlock, Sound], sized := by simp [castBlock, Sized], small := by simp [castBlock, InMemory],
            room := by simp [castTable, SpaceFor, Col.sqlType], target := .inl (by simp [castTable, Insertable, Col.sqlType]),
            times := by simp [castTable, TimesFit, Col.sqlType], named := by simp [castTable, Nameable, Col.sqlType],
            cells := fun i hi => by
              match i with
              | 0 => exact ⟨.str [97], .str [97, 0], rfl, rfl⟩ }
  | 1 =>
    exact { sound := by simp [castBlock, Sound], sized := by simp only [castBlock, List.getElem_cons_succ, List.getElem_cons_zero, Sized]; decide +kernel,
            small := by simp [castBlock, InMemory], room := by simp [castTable, SpaceFor, Col.sqlType],
            target := .inl (by simp [castTable, Insertable, Col.sqlType]),
            times := by simp [castTable, TimesFit, Col.sqlType], named := by simp [castTable, Nameable, Col.sqlType],
            cells := fun i hi => by
              match i with
              | 0 => exact ⟨.str (strBytes "1.2.3.4"), .ip .v4 [4, 3, 2, 1], rfl, by
                  change convert _ _ (.ip .v4) _ = _
                  rw [convert, if_neg (by decide), strOfBytes_strBytes]; rfl⟩ }
example : ∃ b', castBlock.castTo parseSome castTable = .ok b' ∧ b'.columns.length = 2 := ⟨_, rfl, rfl⟩

/-! ### Where the claim fails -/

/-- C34 fails for addresses that do not parse: instead of an error, the conversion panics, whatever the parser. -/
theorem C34_bad_address_violated (parse : IpKind → String → Option Bytes) (k : IpKind) (hk : k ≠ .uuid) (s : String) (h : parse k s = none) :
    (Col.str [strBytes s]).castTo parse (.ip k) = .panic := by
  have : ipCast parse k (.str [strBytes s]) = .panic := by
    simp [ipCast, Col.len, rangeOut, mapOut, Col.at, idx, ipOfText, strOfBytes_strBytes, h, List.range']
  cases k
  · simpa [Col.castTo, Col.sqlType, castArm] using this
  · simpa [Col.castTo, Col.sqlType, castArm] using this
  · exact absurd rfl hk

example : parseSome .v4 "256.0.0.1" = none := rfl

/-- C34 fails for long strings: they are silently cut to fit a `FixedString`. -/
theorem C34_long_string_violated : ∃ d bytes, (Col.str [[97, 98, 99, 100]]).castTo parseSome (.fixedString 2) = .ok d ∧
    d.save 0 1 = .ok bytes ∧ bytes = [97, 98] ∧ convert parseSome [] (.fixedString 2) (.str [97, 98, 99, 100]) = none :=
  ⟨_, _, rfl, rfl, rfl, rfl⟩

/-- C34 fails for decimals too large for the target: 100000000.00 sent to a `Decimal(9, 2)` column arrives as 14100654.08. -/
theorem C34_narrow_decimal_violated : ∃ d bytes c, (Col.decimal 18 2 .n64 [10 ^ 10]).castTo parseSome (.decimal 9 2) = .ok d ∧
    d.save 0 1 = .ok bytes ∧ (planOf [] (.decimal 9 2)).load 1 bytes = .ok c [] ∧
    c.at 0 = .ok (.decimal ⟨1410065408, .n32, 9, 2⟩) ∧
    (Col.decimal 18 2 .n64 [10 ^ 10]).at 0 = .ok (.decimal ⟨10 ^ 10, .n64, 18, 2⟩) :=
  ⟨_, _, _, rfl, rfl, rfl, rfl, rfl⟩

/-- C34 fails for decimals that overflow when more digits after the point are asked for: writing the block panics. -/
theorem C34_scale_overflow_violated : ∃ d, (Col.decimal 18 0 .n64 [10 ^ 17]).castTo parseSome (.decimal 18 5) = .ok d ∧ d.save 0 1 = .panic :=
  ⟨_, rfl, rfl⟩

/-- C34 fails for enums: only the numbers are sent. A cell named `a` arrives as `b` if the table numbers its names differently, and
numbers the table does not have are sent too. -/
theorem C34_enum_names_violated : ∃ d bytes c,
    (Col.enum .w8 [("a".toList, 1), ("b".toList, 2)] [1]).castTo parseSome (.enum .w8 [("a".toList, 2), ("b".toList, 1)]) = .ok d ∧
    d.save 0 1 = .ok bytes ∧
    (planOf [] (.enum .w8 [("a".toList, 2), ("b".toList, 1)])).load 1 bytes = .ok c [] ∧
    c.at 0 = .ok (.enum .w8 [("a".toList, 2), ("b".toList, 1)] 1) ∧
    (Col.enum .w8 [("a".toList, 1), ("b".toList, 2)] [1]).at 0 = .ok (.enum .w8 [("a".toList, 1), ("b".toList, 2)] 1) :=
  ⟨_, _, _, rfl, rfl, rfl, rfl, rfl⟩

/-- C34 fails for low-cardinality targets of another type: text sent to `LowCardinality(UInt8)` panics instead of being refused. -/
theorem C34_lowcard_type_violated : (Col.str [[97]]).castTo parseSome (.lowCard (.num .u8)) = .panic := rfl

/-- C34 fails for `LowCardinality(DateTime64)`: the conversion succeeds but writing the block panics. -/
theorem C34_lowcard_time_violated : ∃ d, (Col.chrono "UTC".toList [(1, 500000000, "UTC".toList)]).castTo parseSome
    (.lowCard (.dt64 3 "UTC".toList)) = .ok d ∧ d.save 0 1 = .panic := ⟨_, rfl, rfl⟩

/-- C34 fails for maps: a column built locally from maps with times as values cannot be sent to a table of that very type; the
conversion is refused because the keys need none. -/
theorem C34_map_refused : (do
    let c ← emptyCol "UTC".toList (.map .string .datetime)
    let c ← c.push (.map .string .datetime [.str [97]] [.datetime 5 "UTC".toList])
    c.castTo parseSome (.map .string .datetime)) = .err typeError := rfl

/-- C34, maps whose keys and values both need conversion (where only one does, the conversion is refused: `C34_map_refused`). The
receiver gets the same offsets, the converted keys and the converted values. (`_partial`: maps standing alone.) -/
theorem C34_map_partial (parse : IpKind → String → Option Bytes) (known : Tz → Bool) (tz : Tz) (n : Nat) (offs : List Nat)
    (k v d : Col) (kt vt : SqlType) (hs : Sound (.map offs k v) n) (hz : Sized tz (.map offs k v))
    (hi : InMemory (.map offs k v)) (hk : Insertable kt) (hv : Insertable vt)
    (hfk : TimesFit kt k) (hfv : TimesFit vt v) (hn : Nameable known (.map kt vt)) (hne : SqlType.map kt vt ≠ (Col.map offs k v).sqlType)
    (h : (Col.map offs k v).castTo parse (.map kt vt) = .ok d) :
    d.sqlType = .map kt vt ∧ d.len = .ok n ∧ ∃ bytes, d.save 0 n = .ok bytes ∧ ∀ rest, ∃ k' v',
      loadData known tz (SqlType.map kt vt).name n (bytes ++ rest) = .ok (.map offs k' v') rest ∧
      k'.sqlType = kt ∧ v'.sqlType = vt ∧
      (∀ i x w, i < elemsBefore offs n → cell k i = some x → convert parse tz kt x = some w → k'.at i = .ok w) ∧
      (∀ i x w, i < elemsBefore offs n → cell v i = some x → convert parse tz vt x = some w → v'.at i = .ok w) := by
  obtain ⟨rfl, hp, hsk, hsv⟩ := hs
  rw [lastOff_eq]
  rw [Col.castTo, if_neg hne] at h
  have h : castData (.map offs k v) (.map kt vt) = .ok d := h
  unfold castData at h
  cases ek : k.dataCast kt with
  | none => simp [Col.dataCast, ek] at h
  | some dk =>
    cases ev : v.dataCast vt with
    | none => simp [Col.dataCast, ek, ev] at h
    | some dv =>
      simp only [Col.dataCast, ek, ev] at h
      injection h with h
      subst h
      have sk := dataCast_sent (parse := parse) hsk hz.2.1 hi.2.1 hk hfk known hn.1 ek
      have sv := dataCast_sent (parse := parse) hsv hz.2.2 hi.2.2 hv hfv known hn.2.2 ev
      obtain ⟨bk, k', a1, a2, a3, _, a5⟩ := sk.wire
      obtain ⟨bv, v', b1, b2, b3, _, b5⟩ := sv.wire
      refine ⟨by rw [Col.sqlType, sk.type, sv.type], by rw [Col.len], numsBytes 8 offs ++ bk ++ bv, ?_,
        fun rest => ⟨k', v', ?_, a3, b3, a5, b5⟩⟩
      · rw [Col.save, rangeOut_idx (Nat.le_refl _)]
        simp only [List.drop_zero, Nat.sub_zero, List.take_length, obind_ok]
        rw [show (offs.getLast?).getD 0 = lastOff offs from rfl, a1, obind_ok, b1]
        rfl
      · rw [loadData, resolve_name tz hn]
        show (Plan.map (planOf tz kt) (planOf tz vt)).load _ _ = _
        rw [Plan.load, List.append_assoc, List.append_assoc, bind_ok (loadNums_put hz.1 _ rfl (room hi.1 (by decide))), bind_ok (a2 _), bind_ok (b2 rest)]
        rfl
  intro f t e
  cases e

/-- Times as keys and as values, sent to `Map(DateTime, DateTime)`. -/
example : Sound (.map [1, 1] (.chrono [] [(5, 0, [])]) (.chrono [] [(7, 250000000, [])])) 2 ∧
    Sized "UTC".toList (.map [1, 1] (.chrono [] [(5, 0, [])]) (.chrono [] [(7, 250000000, [])])) ∧
    InMemory (.map [1, 1] (.chrono [] [(5, 0, [])]) (.chrono [] [(7, 250000000, [])])) ∧
    Nameable (fun _ => true) (.map .datetime .datetime) ∧
    SqlType.map .datetime .datetime ≠ (Col.map [1, 1] (.chrono [] [(5, 0, [])]) (.chrono [] [(7, 250000000, [])])).sqlType ∧
    ∃ d, (Col.map [1, 1] (.chrono [] [(5, 0, [])]) (.chrono [] [(7, 250000000, [])])).castTo parseSome (.map .datetime .datetime) = .ok d := by
  refine ⟨?_, ?_, ?_, ⟨trivial, trivial, trivial⟩, by simp [Col.sqlType], _, rfl⟩
  · simp [Sound, lastOff]
  · simp [Sized]
  · simp [InMemory]

/-- C34, what is left out of `C34_column_partial` and `C34_map_partial` — maps inside other types — concerns no row with an entry: where
the library converts a column of maps at all, the only cells that can be read from the original are empty maps (reading any other
panics, C76), so there is no other row to arrive changed. -/
theorem C34_map_unreadable (parse : IpKind → String → Option Bytes) (offs : List Nat) (k v d : Col) (kt vt : SqlType)
    (hne : SqlType.map kt vt ≠ (Col.map offs k v).sqlType) (h : (Col.map offs k v).castTo parse (.map kt vt) = .ok d)
    (i : Nat) (x : Value) (hx : (Col.map offs k v).at i = .ok x) : x = .map k.sqlType v.sqlType [] [] := by
  rw [Col.castTo, if_neg hne] at h
  have h : castData (.map offs k v) (.map kt vt) = .ok d := h
  unfold castData at h
  cases ek : k.dataCast kt with
  | none => simp [Col.dataCast, ek] at h
  | some dk =>
    rw [at_map] at hx
    obtain ⟨s, _, hx⟩ := obind_eq_ok hx
    obtain ⟨e, _, hx⟩ := obind_eq_ok hx
    split at hx
    · cases hx
    · obtain ⟨ks, hks, hx⟩ := obind_eq_ok hx
      obtain ⟨vs, hvs, hx⟩ := obind_eq_ok hx
      obtain ⟨m, hm, hx⟩ := obind_eq_ok hx
      obtain ⟨l1, c1⟩ := mapOut_cells hks
      obtain ⟨l2, -⟩ := mapOut_cells hvs
      cases ks with
      | nil =>
        cases hm
        cases hx
        rfl
      | cons q qs =>
        cases vs with
        | nil => rw [← l1] at l2; cases l2
        | cons w ws =>
          obtain ⟨j, hj⟩ := c1 q (by simp)
          rw [mapBuild, dataCast_unhashed ek hj] at hm
          cases hm
  · intro f t e; cases e

-- a column of two maps from times to times, sent to a table of that type: the first row is empty, the second is not
example : ∃ d, (Col.map [0, 1] (.chrono "UTC".toList [(1, 0, "UTC".toList)]) (.chrono "UTC".toList [(2, 0, "UTC".toList)])).castTo parseSome
    (.map (.dt64 3 "UTC".toList) (.dt64 3 "UTC".toList)) = .ok d ∧
    (Col.map [0, 1] (.chrono "UTC".toList [(1, 0, "UTC".toList)]) (.chrono "UTC".toList [(2, 0, "UTC".toList)])).at 0 =
      .ok (.map .chrono .chrono [] []) ∧
    (Col.map [0, 1] (.chrono "UTC".toList [(1, 0, "UTC".toList)]) (.chrono "UTC".toList [(2, 0, "UTC".toList)])).at 1 = .panic :=
  ⟨_, rfl, rfl, rfl⟩
end CH.Props
