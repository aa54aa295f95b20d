import Verif.Lemmas.Names4

/-! Properties C68 and C15: the spellings of type names. -/

namespace CH.Props
open CH CH.Spec

/-- C68. The client takes exactly the texts of the grammar `Spells` for type names, and each in the meaning the grammar gives it:
aliases, letter case, blanks, leading zeros, escapes and zone arguments included. Every other text leads to an error or a
panic somewhere in the analysis. -/
theorem C68_spellings_exact (known : Tz → Bool) (tz : Tz) (s : Str) (p : Plan) :
    Spells known tz s p ↔ resolve known tz s = p ∧ Complete p := by
  constructor
  · exact spells_resolve
  · rintro ⟨rfl, hc⟩
    exact resolve_spells known tz _ s rfl hc

/-- C68. A text means at most one type. -/
theorem C68_meaning_unique (known : Tz → Bool) (tz : Tz) (s : Str) (p q : Plan) (hp : Spells known tz s p)
    (hq : Spells known tz s q) : p = q := by
  rw [← (spells_resolve hp).1, ← (spells_resolve hq).1]

/-- C68. Two spellings of one type read any bytes the same way. -/
theorem C68_spelling_irrelevant (known : Tz → Bool) (tz : Tz) (s s' : Str) (p : Plan) (hs : Spells known tz s p)
    (hs' : Spells known tz s' p) (size : Nat) (bs : Bytes) : loadData known tz s size bs = loadData known tz s' size bs := by
  rw [loadData, loadData, (spells_resolve hs).1, (spells_resolve hs').1]

/-- The pieces of the sample below. -/
theorem numeral_nine : Numeral "09".toList 9 := .more (.digit (d := 0) (by decide)) (d := 9) (by decide)
theorem numeral_two : Numeral "2".toList 2 := .digit (d := 2) (by decide)

theorem sample_decimal (known : Tz → Bool) (tz : Tz) :
    Spells known tz "Decimal( 09 ,+2)".toList (.decimal 9 2 .n32) :=
  .decimal (x := "09".toList) (xs := " 09 ".toList) (y := "+2".toList) (ys := "+2".toList) (junk := []) (p := 9) (s := 2)
    ⟨[' '], [' '], by unfold Blank; decide, by unfold Blank; decide, rfl, by decide, by decide⟩
    ⟨[], [], by unfold Blank; decide, by unfold Blank; decide, rfl, by decide, by decide⟩
    ⟨.inl numeral_nine, by decide⟩ ⟨.inr ⟨_, rfl, numeral_two⟩, by decide⟩ (by decide) (by decide) (by decide)

theorem sample_time (known : Tz → Bool) (tz : Tz) (h : known "UTC".toList = true) :
    Spells known tz "Timestamp ('UTC')".toList (.datetime "UTC".toList) :=
  .datetime (b := []) (kw := "Timestamp".toList) (arg := " ('UTC')".toList) blank_nil (.inr rfl)
    (.given (b1 := [' ']) (b2 := []) (b3 := []) (b4 := []) (q := "UTC".toList) (by unfold Blank; decide) blank_nil blank_nil
      blank_nil (.plain _ (by decide) (by decide) (.plain _ (by decide) (by decide) (.plain _ (by decide) (by decide) .nil))))
    (.given h)

/-- A map with blanks, an alias in another letter case, a decimal with a leading zero and a plus sign, as a value. -/
theorem sample_map (known : Tz → Bool) (tz : Tz) :
    Spells known tz "Map( vARCHAR ,Array(Decimal( 09 ,+2)))".toList (.map .string (.array (.decimal 9 2 .n32))) :=
  .map (c := '(') (d := ')') (x := ',') (a := " vARCHAR ".toList) (b := "Array(Decimal( 09 ,+2))".toList)
    (key' := " vARCHAR ".toList) (val' := "Array(Decimal( 09 ,+2))".toList) (key := "vARCHAR".toList)
    (val := "Array(Decimal( 09 ,+2))".toList) (by unfold Ascii; decide) (by unfold Ascii; decide) (by unfold Ascii; decide)
    (by decide) rfl (by decide)
    ⟨[' '], [' '], by unfold Blank; decide, by unfold Blank; decide, rfl, by decide, by decide⟩
    ⟨[], [], by unfold Blank; decide, by unfold Blank; decide, rfl, by decide, by decide⟩
    (.plain (n := "Varchar") (by simp [plainNames]) (by unfold SameLetters; decide))
    (.array (c := '(') (d := ')') (by unfold Ascii; decide) (by unfold Ascii; decide) (sample_decimal known tz))

example (tz : Tz) : resolve (fun _ => false) tz "Map( vARCHAR ,Array(Decimal( 09 ,+2)))".toList =
    .map .string (.array (.decimal 9 2 .n32)) := (spells_resolve (sample_map _ tz)).1
example (tz : Tz) : resolve (fun z => z == "UTC".toList) tz "Timestamp ('UTC')".toList = .datetime "UTC".toList :=
  (spells_resolve (sample_time _ tz (by decide))).1
example : ∃ p, Spells (fun _ => false) "UTC".toList "TEXT".toList p ∧ Spells (fun _ => false) "UTC".toList "String".toList p :=
  ⟨.string, .plain (n := "Text") (by simp [plainNames]) (by unfold SameLetters; decide),
    .plain (n := "String") (by simp [plainNames]) (by unfold SameLetters; decide)⟩

/-- C68. A nullable type directly inside a nullable type is refused, whatever it contains. -/
theorem C68_nested_nullable_refused (known : Tz → Bool) (tz : Tz) (r : Str) (p : Plan) :
    ¬ Spells known tz ("Nullable(Nullable".toList ++ r ++ [')']) p := by
  intro h
  obtain ⟨h1, h2⟩ := spells_resolve h
  have hs : "Nullable(Nullable".toList ++ r ++ [')'] = "Nullable".toList ++ ('(' :: (("Nullable".toList ++ r) ++ [')'])) := by
    simp
  have hl := lookupSimple_kw (s := "Nullable(Nullable".toList ++ r ++ [')']) (kw := "Nullable".toList) (by decide)
    (by rw [hs]; exact (List.prefix_append _ _).isInfix)
  have hn : parseNullable ("Nullable(Nullable".toList ++ r ++ [')']) = .ok none := by
    rw [hs]
    unfold parseNullable
    rw [if_pos (startsWith_append _ _), (sliceBytes_iff (kw := "Nullable".toList) (n := 8) (by decide)).mpr
      ⟨'(', ')', by unfold Ascii; decide, by unfold Ascii; decide, rfl⟩]
    dsimp only
    rw [if_pos (startsWith_append _ _)]
  have hd : dispatch ("Nullable(Nullable".toList ++ r ++ [')']) = .ok .unsupported := by
    unfold dispatch
    rw [hl, hn, parseFixedString_none rfl, parseArray_none rfl, parseMap_none rfl, parseDecimal_none rfl,
      parseEnum8_none (c := 'N') rfl (by decide) (by decide), parseEnum16_none (c := 'N') rfl (by decide) (by decide),
      parseDateTime_none (c := 'N') rfl (by decide) (by decide) (by decide),
      parseDateTime64_none (c := 'N') rfl (by decide) (by decide), parseSimpleAgg_none rfl, parseLowCard_none rfl]
  rw [resolve_of hd] at h1
  rw [← h1] at h2
  exact h2

example : "Nullable(Nullable(UInt8))".toList = "Nullable(Nullable".toList ++ "(UInt8)".toList ++ [')'] := by decide

/-- C68 read as "only well-formed names are accepted" is violated: the brackets are not looked at, text after a closing
parenthesis is dropped, and a scale far above the precision is taken. -/
theorem C68_malformed_accepted_violated (known : Tz → Bool) (tz : Tz) :
    resolve known tz "Nullable?UInt8!".toList = .nullable (.num .u8) ∧
    resolve known tz "FixedString[16>".toList = .fixed 16 ∧
    resolve known tz "ArrayxStringx".toList = .array .string ∧
    resolve known tz "Decimal(9, 2) or so".toList = .decimal 9 2 .n32 ∧
    resolve known tz "Decimal32(200)".toList = .decimal 9 200 .n32 ∧
    resolve known tz "LowCardinality of (String) texts".toList = .lowCard .string := by
  have hn : Numeral "16".toList 16 := .more (.digit (d := 1) (by decide)) (d := 6) (by decide)
  have h200 : Numeral "200".toList 200 :=
    .more (.more (.digit (d := 2) (by decide)) (d := 0) (by decide)) (d := 0) (by decide)
  have hu8 : Spells known tz "UInt8".toList (.num .u8) :=
    .plain (n := "UInt8") (by simp [plainNames]) (by unfold SameLetters; decide)
  have hstr : Spells known tz "String".toList .string :=
    .plain (n := "String") (by simp [plainNames]) (by unfold SameLetters; decide)
  have hasc : ∀ c ∈ "?!x[>".toList, Ascii c := by unfold Ascii; decide
  refine ⟨?_, ?_, ?_, ?_, ?_, ?_⟩
  · exact (spells_resolve (.nullable (c := '?') (d := '!') (hasc _ (by decide)) (hasc _ (by decide)) (by decide) hu8)).1
  · exact (spells_resolve (known := known) (tz := tz) (.fixed (c := '[') (d := '>') (s := "16".toList) (hasc _ (by decide))
      (hasc _ (by decide)) ⟨.inl hn, by decide⟩)).1
  · exact (spells_resolve (.array (c := 'x') (d := 'x') (hasc _ (by decide)) (hasc _ (by decide)) hstr)).1
  · exact (spells_resolve (known := known) (tz := tz) (.decimal (x := "9".toList) (xs := "9".toList) (y := "2".toList)
      (ys := " 2".toList) (junk := " or so".toList) (p := 9) (s := 2)
      ⟨[], [], blank_nil, blank_nil, rfl, by decide, by decide⟩
      ⟨[' '], [], by unfold Blank; decide, blank_nil, rfl, by decide, by decide⟩
      ⟨.inl (.digit (d := 9) (by decide)), by decide⟩ ⟨.inl numeral_two, by decide⟩ (by decide) (by decide) (by decide))).1
  · exact (spells_resolve (known := known) (tz := tz) (.decimal32 (y := "200".toList) (junk := [])
      ⟨.inl h200, by decide⟩ (by decide))).1
  · exact (spells_resolve (.lowCard (a := " of ".toList) (b := " texts".toList) (ts := "String".toList)
      (by unfold Ascii; decide) (by unfold Ascii; decide)
      ⟨[], [], blank_nil, blank_nil, rfl, by decide, by decide⟩ hstr)).1

/-- C15. Exactly the texts of `Panics` make the analysis of the name panic somewhere: a keyword without two one-byte brackets
around its argument, a map whose comma, counted in characters, is at no byte offset, a `LowCardinality` with a long character
outside its parentheses, and these inside other types. -/
theorem C15_panic_exact (known : Tz → Bool) (tz : Tz) (s : Str) : crashes (resolve known tz s) ↔ Panics s :=
  ⟨crashes_panics known tz _ s rfl, panics_crashes known tz⟩

/-- C15. A column whose type name is none of the known spellings is never read as something else: whatever bytes follow, loading
it gives no column. -/
theorem C15_unknown_never_loads (known : Tz → Bool) (tz : Tz) (s : Str) (hs : ∀ p, ¬ Spells known tz s p) (size : Nat)
    (bs rest : Bytes) (c : Col) : loadData known tz s size bs ≠ .ok c rest :=
  fun h => hs _ (resolve_spells known tz _ s rfl (load_complete _ h))

example : Panics "Array(Map(Ü, T))".toList :=
  .array (c := '(') (d := ')') (s := "Map(Ü, T)".toList) (by unfold Ascii; decide) (by unfold Ascii; decide)
    (.mapComma (c := '(') (d := ')') (a := "Ü".toList) (b := " T".toList) (by unfold Ascii; decide) (by unfold Ascii; decide)
      (by decide) (by
        rintro ⟨k, x, v, hx, he, hl⟩
        cases k with
        | nil => simp at hl
        | cons y k =>
          have : y = 'Ü' := by simpa using (congrArg List.head? he).symm
          subst this
          rw [byteLen_utf8] at hl
          have h1 : "Ü".toList.length = 1 := by decide
          have h2 : 'Ü'.utf8Size = 2 := by decide
          rw [h1, byteLen, h2] at hl
          omega))
example : Panics "LowCardinality(String)é".toList :=
  .lowCardClose (a := []) (i := "String)".toList) (b := []) (x := 'é') (by simp) (by simp) (by unfold Ascii; decide)

example (known : Tz → Bool) (tz : Tz) : ∀ p, ¬ Spells known tz "Array(Tuple(UInt8))".toList p := by
  intro p h
  obtain ⟨rfl, hc⟩ := spells_resolve h
  rw [resolve_of (h := .array "Tuple(UInt8)".toList) (by decide), headPlan,
    resolve_of (h := .unsupported) (by decide)] at hc
  exact hc

end CH.Props
