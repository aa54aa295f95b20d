import Verif.Lemmas.Show

/-! Property C74: the texts of values and the table of a block. -/

namespace CH.Props
open CH CH.Spec

/-! ### Values -/

/-- **C74** (the full claim, that a value and its borrowed form have the same text that shows the value, is false for times, enums
and maps: see the `_violated` theorems) All other values, however nested, have the text that is usual for them, owned or borrowed, with
or without the `#` flag. -/
theorem C74_text_partial (lib : TextLib) (v : Value) (s : Str) (h : Prints lib v s) (alt : Bool) :
    ownText lib alt v = .ok s ∧ refText lib alt v = .ok s := prints_text h alt

/-- Texts for the examples. -/
def plainLib : TextLib := ⟨fun _ => "1.5".toList, fun _ => "2.5".toList, fun _ => "::1".toList, fun _ => "1970-01-02".toList,
  fun _ _ _ => "Thu, 1 Jan 1970 00:00:00 +0000".toList, fun _ _ _ => "1970-01-01 00:00:00".toList, fun _ _ _ => "1970-01-01 00:00:00 UTC".toList⟩

example : Prints plainLib (.array .string [.str (strBytes "naïve"), .some (.num .i8 255), .null .string]) "[naïve, -1, NULL]".toList := by
  have h := Prints.array (lib := plainLib) (t := .string) (vs := [.str (strBytes "naïve"), .some (.num .i8 255), .null .string])
    (ts := ["naïve".toList, intText (-1), "NULL".toList]) rfl (by
      intro i v s h1 h2
      match i with
      | 0 => injection h1 with h1; injection h2 with h2; subst h1; subst h2; exact .text
      | 1 => injection h1 with h1; injection h2 with h2; subst h1; subst h2; exact .present (.signed (by decide) (by decide) (by decide) (by decide) (by decide))
      | 2 => injection h1 with h1; injection h2 with h2; subst h1; subst h2; exact .missing
      | i + 3 => simp at h1)
  exact h
example : Prints plainLib (.ip .v4 [4, 3, 2, 1]) "1.2.3.4".toList := .ip4
example : Prints plainLib (.ip .uuid ([7, 6, 5, 4, 3, 2, 1, 0] ++ [15, 14, 13, 12, 11, 10, 9, 8])) "00010203-0405-0607-0809-0a0b0c0d0e0f".toList :=
  .uuid (x := [0, 1, 2, 3, 4, 5, 6, 7]) (y := [8, 9, 10, 11, 12, 13, 14, 15]) (g1 := [0, 1, 2, 3]) (g2 := [4, 5]) (g3 := [6, 7]) (g4 := [8, 9])
    (g5 := [10, 11, 12, 13, 14, 15]) rfl rfl rfl rfl rfl rfl rfl rfl

/-- **C74** The text of a number or of an array of numbers names the numbers: values of one type with the same text are the same. -/
theorem C74_numbers_told_apart (lib : TextLib) (t : NumTy) (ht : t ∈ [NumTy.u8, .u16, .u32, .u64, .u128, .i8, .i16, .i32, .i64, .i128])
    (ty : SqlType) (xs ys : List Nat) (hx : ∀ x ∈ xs, x < 2 ^ (8 * t.width)) (hy : ∀ y ∈ ys, y < 2 ^ (8 * t.width)) (alt : Bool)
    (h : ownText lib alt (.array ty (xs.map (.num t))) = ownText lib alt (.array ty (ys.map (.num t)))) : xs = ys := by
  rw [ownText, ownTexts_nums, obind_ok, ownText, ownTexts_nums, obind_ok] at h
  injection h with h
  injection h with _ h
  have h := join_inj _ _ ?_ ?_ (List.append_cancel_right h)
  · exact map_inj_of (fun a ha b hb => numText_inj ht (hx a ha) (hy b hb)) h
  all_goals
    intro s hs
    obtain ⟨x, _, rfl⟩ := List.mem_map.1 hs
    rw [numText_int ht]
    exact intChars_plain _

example (lib : TextLib) : ownText lib false (.array (.num .i8) ([1, 255].map (.num .i8))) ≠ ownText lib false (.array (.num .i8) ([1, 254].map (.num .i8))) :=
  fun h => by
    have := C74_numbers_told_apart lib .i8 (by decide) _ [1, 255] [1, 254] (by decide) (by decide) false h
    revert this; decide

/-- **C74 is violated** The text of an array of texts does not name the texts; nor does the text of bytes that are no text. -/
theorem C74_texts_confused_violated (lib : TextLib) (alt : Bool) :
    ownText lib alt (.array .string [.str (strBytes "a, b")]) = ownText lib alt (.array .string [.str (strBytes "a"), .str (strBytes "b")]) ∧
    ownText lib alt (.str [255]) = ownText lib alt (.array (.num .u8) [.num .u8 255]) := by
  have hb : ∀ s : String, ownText lib false (.str (strBytes s)) = .ok s.toList := fun s => (prints_text .text false).1
  constructor
  · simp only [ownText, ownTexts] at hb ⊢
    injection hb "a, b" with h1
    injection hb "a" with h2
    injection hb "b" with h3
    rw [h1, h2, h3]; rfl
  · have : strOfBytes? [255] = none := by decide
    simp only [ownText, ownTexts, bytesText, this, debugBytes, numText, List.map_cons, List.map_nil]
    rfl

/-- **C74 is violated** A point in time has one text as a value and another one as a borrowed value, wherever `chrono` writes the
two formats differently; the `#` flag does not help. -/
theorem C74_times_violated (lib : TextLib) (s : Nat) (tz : Tz) (h1 : lib.rfc2822 s 0 tz ≠ lib.stamp s 0 tz) (h2 : lib.full s 0 tz ≠ lib.rfc2822 s 0 tz)
    (alt : Bool) : ownText lib alt (.datetime s tz) ≠ refText lib alt (.datetime s tz) := by
  rw [ownText, refText]
  cases alt <;> simpa

example : plainLib.rfc2822 0 0 [] ≠ plainLib.stamp 0 0 [] ∧ plainLib.full 0 0 [] ≠ plainLib.rfc2822 0 0 [] := by
  constructor <;> simp [plainLib]

/-- **C74 is violated** So has every enum value, and neither text shows the name of the value: it does not depend on the names. -/
theorem C74_enum_violated (lib : TextLib) (w : EnumW) (items items' : List (Str × Int)) (v : Int) (alt : Bool) :
    ownText lib alt (.enum w items v) ≠ refText lib alt (.enum w items v) ∧
    ownText lib alt (.enum w items v) = ownText lib alt (.enum w items' v) ∧
    refText lib alt (.enum w items v) = refText lib alt (.enum w items' v) := by
  cases w
  · simp only [ownText, refText, enumText]
    refine ⟨?_, trivial, trivial⟩
    intro h
    injection h with h
    have := congrArg List.length h
    simp at this
    omega
  · simp only [ownText, refText, enumText]
    refine ⟨?_, trivial, trivial⟩
    intro h
    injection h with h
    have := congrArg List.length h
    simp at this
    omega

/-- **C74 is violated** So has every map that is not empty. -/
theorem C74_map_violated (lib : TextLib) (kt vt : SqlType) (a b : Nat) (alt : Bool) :
    ownText lib alt (.map kt vt [.num .u8 a] [.num .u8 b]) ≠ refText lib alt (.map kt vt [.num .u8 a] [.num .u8 b]) := by
  simp only [ownText, refText, ownTexts, refTexts, numText, obind_ok]
  intro h
  injection h with h
  have := congrArg List.length h
  simp [joinList, ownEntry, refEntry] at this
  omega

/-- **C74** The text of an owned map still names for every entry, in turn, the key and then the value; that of a borrowed map the key and the
value joined by a dash. -/
theorem C74_map_text (lib : TextLib) (kt vt : SqlType) (ks vs : List Value) (ts us : List Str) (hk : ks.length = ts.length) (hv : vs.length = us.length)
    (hp : ∀ (i : Nat) k s, ks[i]? = some k → ts[i]? = some s → Prints lib k s)
    (hq : ∀ (i : Nat) v s, vs[i]? = some v → us[i]? = some s → Prints lib v s) (alt : Bool) :
    ownText lib alt (.map kt vt ks vs) =
      .ok ('[' :: (List.intercalate ", ".toList ((ts.zip us).map fun e => "key=>".toList ++ e.1 ++ " value=>".toList ++ e.2) ++ [']'])) ∧
    refText lib alt (.map kt vt ks vs) = .ok ('[' :: (List.intercalate ", ".toList ((ts.zip us).map fun e => e.1 ++ ['-'] ++ e.2) ++ [']'])) := by
  constructor
  · rw [ownText, ownTexts_get _ _ hk fun i v s h1 h2 => (prints_text (hp i v s h1 h2) false).1, obind_ok,
      ownTexts_get _ _ hv fun i v s h1 h2 => (prints_text (hq i v s h1 h2) false).1, obind_ok, joinList_eq, List.map_zip_eq_zipWith]
    rfl
  · rw [refText, refTexts_get _ _ hk fun i v s h1 h2 => (prints_text (hp i v s h1 h2) false).2, obind_ok,
      refTexts_get _ _ hv fun i v s h1 h2 => (prints_text (hq i v s h1 h2) false).2, obind_ok, joinList_eq, List.map_zip_eq_zipWith]
    have : refEntry = fun a b => a ++ ['-'] ++ b := by funext a b; simp [refEntry]
    rw [this]
    rfl

example : ownText plainLib false (.map .string .string [.str (strBytes "a"), .str (strBytes "b")] [.str (strBytes "x"), .str (strBytes "y")]) =
    .ok "[key=>a value=>x, key=>b value=>y]".toList := by
  have hp : ∀ s t : String, ∀ (i : Nat) k u, [Value.str (strBytes s), .str (strBytes t)][i]? = some k → [s.toList, t.toList][i]? = some u →
      Prints plainLib k u := by
    intro s t i k u h1 h2
    match i with
    | 0 => injection h1 with h1; injection h2 with h2; subst h1; subst h2; exact .text
    | 1 => injection h1 with h1; injection h2 with h2; subst h1; subst h2; exact .text
    | i + 2 => simp at h1
  exact (C74_map_text plainLib .string .string _ _ _ _ rfl rfl (hp "a" "b") (hp "x" "y") false).1

/-- **C74** The text of an enum shows the number. -/
theorem C74_enum_text (lib : TextLib) (items : List (Str × Int)) (v : Int) (alt : Bool) :
    ownText lib alt (.enum .w8 items v) = .ok ("Enum8, Enum8(".toList ++ intText v ++ [')']) ∧
    refText lib alt (.enum .w8 items v) = .ok ("Enum8(".toList ++ intText v ++ [')']) ∧
    ownText lib alt (.enum .w16 items v) = .ok ("Enum16, Enum(".toList ++ intText v ++ [')']) ∧
    refText lib alt (.enum .w16 items v) = .ok ("Enum(".toList ++ intText v ++ [')']) := by
  simp only [ownText, refText, enumText, intChars_eq_intText]
  exact ⟨rfl, trivial, rfl, trivial⟩

example : ownText plainLib false (.enum .w16 [("a".toList, -300)] (-300)) = .ok "Enum16, Enum(-300)".toList :=
  (C74_enum_text plainLib [("a".toList, -300)] (-300) false).2.2.1

/-- **C74 is violated** Showing a point in time before 1970 that has a fraction of a second panics. -/
theorem C74_early_time_violated (lib : TextLib) (tz : Tz) (alt : Bool) :
    ownText lib alt (.dt64 (-1) 3 tz) = .panic ∧ refText lib alt (.dt64 (-1) 3 tz) = .panic := by
  rw [ownText, refText]
  exact ⟨rfl, rfl⟩

/-! ### The table of a block -/

/-- **C74** The table of a block with columns shows its columns' names and then row by row the texts of its cells: in every line the
cell of a column stands flush right in a field that is equally wide in all lines, so that all lines are equally long; and a text without
line breaks stays within its line. -/
theorem C74_table (lib : TextLib) (b : Block) (m : Nat) (hb : b.columns ≠ []) (hm : b.rowCount = .ok m)
    (h : ∀ c ∈ b.columns, c.data.len = .ok m ∧ ∀ k, k < m → ∃ v t, c.data.at k = .ok v ∧ refText lib false v = .ok t) :
    ∃ (ws : List Nat) (rows : List (List Str)) (lines : List Str), b.debug lib = .ok ('\n' :: List.intercalate ['\n'] lines) ∧
      rows.length = m ∧ (∀ (i : Nat) r, rows[i]? = some r → RowTexts lib b.columns i r) ∧ ws.length = b.columns.length ∧
      TableLines ws (b.columns.map fun c => c.name.toList) rows lines ∧
      (∀ l ∈ lines, l.length = (ws.map (· + 2)).sum + 1) ∧
      ((∀ c ∈ b.columns, '\n' ∉ c.name.toList) → (∀ r ∈ rows, ∀ t ∈ r, '\n' ∉ t) → ∀ l ∈ lines, '\n' ∉ l) := by
  obtain ⟨ws, rows, lines, h1, h2, h3, h4, h5⟩ := debug_table hm h
  have hws : ws ≠ [] := by
    rintro rfl
    simp only [List.length_nil] at h4
    exact hb (List.length_eq_zero_iff.1 h4.symm)
  refine ⟨ws, rows, lines, h1, h2, h3, h4, h5, ?_, ?_⟩
  · obtain ⟨top, head, mid, bottom, e1, e2, e3, e4, body, e5, e6, rfl⟩ := h5
    intro l hl
    simp only [List.mem_cons, List.mem_append, List.not_mem_nil, or_false] at hl
    rcases hl with rfl | rfl | hl | rfl
    · exact RuleLine.length hws e1
    · exact e2.length
    · split at hl
      · simp at hl
      · simp only [List.mem_cons] at hl
        rcases hl with rfl | hl
        · exact RuleLine.length hws e3
        · obtain ⟨i, hi⟩ := List.getElem?_of_mem hl
          have hi' : i < rows.length := by have := (List.getElem?_eq_some_iff.1 hi).1; omega
          exact (e6 i rows[i] l (List.getElem?_eq_getElem hi') hi).length
    · exact RuleLine.length hws e4
  · intro ht hr
    obtain ⟨top, head, mid, bottom, e1, e2, e3, e4, body, e5, e6, rfl⟩ := h5
    intro l hl
    simp only [List.mem_cons, List.mem_append, List.not_mem_nil, or_false] at hl
    rcases hl with rfl | rfl | hl | rfl
    · exact RuleLine.unbroken e1 (by decide) (by decide) (by decide)
    · refine e2.unbroken ?_
      intro t htt
      obtain ⟨c, hc, rfl⟩ := List.mem_map.1 htt
      exact ht c hc
    · split at hl
      · simp at hl
      · simp only [List.mem_cons] at hl
        rcases hl with rfl | hl
        · exact RuleLine.unbroken e3 (by decide) (by decide) (by decide)
        · obtain ⟨i, hi⟩ := List.getElem?_of_mem hl
          have hi' : i < rows.length := by have := (List.getElem?_eq_some_iff.1 hi).1; omega
          exact (e6 i rows[i] l (List.getElem?_eq_getElem hi') hi).unbroken (hr _ (List.getElem_mem hi'))
    · exact RuleLine.unbroken e4 (by decide) (by decide) (by decide)

/-- A block for the examples: numbers, and texts some of which are missing. -/
def exTable : Block := ⟨.default, [⟨"n", .num .u8 [7, 250]⟩, ⟨"naïve", .nullable [0, 1] (.str [strBytes "x", []])⟩]⟩

example : exTable.columns ≠ [] ∧ exTable.rowCount = .ok 2 ∧
    ∀ c ∈ exTable.columns, c.data.len = .ok 2 ∧ ∀ k, k < 2 → ∃ v t, c.data.at k = .ok v ∧ refText plainLib false v = .ok t := by
  refine ⟨by simp [exTable], rfl, ?_⟩
  intro c hc
  simp only [exTable, List.mem_cons, List.not_mem_nil, or_false] at hc
  rcases hc with rfl | rfl
  · refine ⟨rfl, fun k hk => ?_⟩
    match k, hk with
    | 0, _ => exact ⟨_, _, rfl, by rw [refText]⟩
    | 1, _ => exact ⟨_, _, rfl, by rw [refText]⟩
  · refine ⟨rfl, fun k hk => ?_⟩
    match k, hk with
    | 0, _ => exact ⟨.some (.str (strBytes "x")), _, rfl, by rw [refText, refText]⟩
    | 1, _ => exact ⟨.null .string, _, rfl, by rw [refText]⟩

/-- **C74 is violated** The table of a block without columns has lines of different length. -/
theorem C74_no_columns_violated (lib : TextLib) (info : BlockInfo) :
    Block.debug lib ⟨info, []⟩ = .ok ('\n' :: List.intercalate ['\n'] ["┌┐".toList, "│".toList, "└┘".toList]) := rfl

end CH.Props
