import Verif.Lemmas.Types
import Verif.Lemmas.Reader

/-! Properties C14, C15, C59: type names. -/

namespace CH
open Spec

theorem load_planOf_type {known : Tz → Bool} {tz : Tz} {t : SqlType} (hn : Nameable known t) :
    ∀ {size : Nat} {bs r : Bytes} {c : Col}, (planOf tz t).load size bs = .ok c r → c.sqlType = t := by
  induction t with
  | chrono => exact absurd hn (by simp [Nameable])
  | nullable t ih =>
    intro size bs r c h
    obtain ⟨_, _, _, h⟩ := bind_eq_ok h
    obtain ⟨_, _, _, h⟩ := bind_eq_ok h
    obtain ⟨c', _, h1, h⟩ := bind_eq_ok h
    simp at h; rw [← h.1, Col.sqlType, ih hn.1 h1]
  | array t ih =>
    intro size bs r c h
    obtain ⟨_, _, _, h⟩ := bind_eq_ok h
    obtain ⟨c', _, h1, h⟩ := bind_eq_ok h
    simp at h; rw [← h.1, Col.sqlType, ih hn h1]
  | lowCard t ih =>
    intro size bs r c h
    simp only [planOf, Plan.load] at h
    split at h
    · obtain ⟨c', _, h1, h⟩ := bind_eq_ok h
      obtain ⟨_, _, _, h⟩ := bind_eq_ok h
      simp at h; rw [← h.1, Col.sqlType, ih hn h1]
    · obtain ⟨_, _, _, h⟩ := bind_eq_ok h
      split at h
      · simp at h
      · obtain ⟨fl, _, _, h⟩ := bind_eq_ok h
        generalize IdxTy.fromFlags fl = o at h
        cases o with
        | none => simp at h
        | some ity =>
          simp only at h
          split at h
          · simp at h
          · split at h
            · simp at h
            · obtain ⟨_, _, _, h⟩ := bind_eq_ok h
              obtain ⟨c', _, h1, h⟩ := bind_eq_ok h
              obtain ⟨_, _, _, h⟩ := bind_eq_ok h
              obtain ⟨_, _, _, h⟩ := bind_eq_ok h
              split at h
              · simp at h; rw [← h.1, Col.sqlType, ih hn h1]
              · simp at h
  | simpleAgg f t ih =>
    intro size bs r c h
    have h' : Atomic t := hn
    have hn : Nameable known t := by cases t <;> first | trivial | exact absurd h' (by simp [Atomic])
    obtain ⟨c', _, h1, h⟩ := bind_eq_ok h
    simp at h; rw [← h.1, Col.sqlType, ih hn h1]
  | map k v ihk ihv =>
    intro size bs r c h
    obtain ⟨_, _, _, h⟩ := bind_eq_ok h
    obtain ⟨c1, _, h1, h⟩ := bind_eq_ok h
    obtain ⟨c2, _, h2, h⟩ := bind_eq_ok h
    simp at h; rw [← h.1, Col.sqlType, ihk hn.1 h1, ihv hn.2.2 h2]
  | _ =>
    intro size bs r c h
    obtain ⟨_, _, _, h⟩ := bind_eq_ok h
    first
    | (simp at h; rw [← h.1]; rfl)
    | (obtain ⟨_, _, _, h⟩ := bind_eq_ok h; simp at h; rw [← h.1]; rfl)

end CH

namespace CH.Props
open CH CH.Spec

/-- C14. A type with a representable name is read back from its own name as exactly that type: same structure, same
parameters. (`_partial`: `Nameable` excludes map keys whose name contains a comma, parametrised types under
`SimpleAggregateFunction`, empty enums, enum names with quotes or backslashes, and decimals that are no ClickHouse
decimals of at most 18 digits; see the theorems ending in `_violated`.) -/
theorem C14_type_name_roundtrip_partial (known : Tz → Bool) (tz : Tz) (t : SqlType) (h : Nameable known t) :
    resolve known tz t.name = planOf tz t := resolve_name tz h

example : Nameable (fun z => z == "UTC".toList)
    (.map (.lowCard .string) (.array (.nullable (.dt64 3 "UTC".toList)))) := by
  simp [Nameable, KeyLike, plainText]
example : Nameable (fun _ => false) (.array (.enum .w8 [("a b".toList, -1), ("(x, y)".toList, 127)])) := by
  simp [Nameable, plainText, enumRange]

/-- C14. Every column successfully loaded under the written name of a type has exactly that type. -/
theorem C14_loaded_type_partial (known : Tz → Bool) (tz : Tz) (t : SqlType) (h : Nameable known t)
    (size : Nat) (bs rest : Bytes) (c : Col) (hl : loadData known tz t.name size bs = .ok c rest) : c.sqlType = t := by
  rw [loadData, resolve_name tz h] at hl
  exact load_planOf_type h hl

example : loadData (fun _ => true) "UTC".toList (SqlType.array (.num .u8)).name 1 [1, 0, 0, 0, 0, 0, 0, 0, 7] =
    .ok (.array [1] (.num .u8 [7])) [] := by
  rw [loadData, resolve_name (t := .array (.num .u8)) _ (by simp [Nameable])]; rfl

/-- C14 is violated for map keys whose type name contains a comma: the name is cut at its first comma. -/
theorem C14_map_key_violated (known : Tz → Bool) (tz : Tz) :
    resolve known tz (SqlType.map (.decimal 9 2) .string).name =
      .map (.bad (.other "Unsupported column type")) (.bad (.other "Unsupported column type")) := by
  have hn : (SqlType.map (.decimal 9 2) .string).name = "Map(Decimal(9, 2), String)".toList := by
    rw [name_map, name_decimal, natChars_lt (by omega), natChars_lt (by omega)]; decide
  rw [hn, resolve_of (h := .map "Decimal(9".toList "2), String".toList) (by decide), headPlan,
    resolve_of (h := .unsupported) (by decide), resolve_of (h := .unsupported) (by decide), headPlan]

/-- C14 is violated for parametrised types under `SimpleAggregateFunction`: all closing parentheses are stripped, and
`FixedString(10)` is read as `FixedString(1)`, that is, with a different row width. -/
theorem C14_simple_agg_violated (known : Tz → Bool) (tz : Tz) :
    resolve known tz (SqlType.simpleAgg .any (.fixedString 10)).name = .simpleAgg .any (.fixed 1) := by
  have hn : (SqlType.simpleAgg .any (.fixedString 10)).name = "SimpleAggregateFunction(any, FixedString(10))".toList := by
    rw [name_simpleAgg, name_fixedString, natChars_ge (by omega), natChars_lt (by omega)]; decide
  rw [hn, resolve_of (h := .simpleAgg .any "FixedString(10".toList) (by decide), headPlan,
    resolve_of (h := .fixedString 1) (by decide), headPlan]

/-- C14 is violated for nested parametrised types under `SimpleAggregateFunction`: an array is not recognised at all. -/
theorem C14_simple_agg_array_violated (known : Tz → Bool) (tz : Tz) :
    resolve known tz (SqlType.simpleAgg .groupArrayArray (.array (.num .u64))).name =
      .simpleAgg .groupArrayArray (.array (.bad (.other "Unsupported column type"))) := by
  rw [show (SqlType.simpleAgg .groupArrayArray (.array (.num .u64))).name =
    "SimpleAggregateFunction(groupArrayArray, Array(UInt64))".toList by decide,
    resolve_of (h := .simpleAgg .groupArrayArray "Array(UInt64".toList) (by decide), headPlan,
    resolve_of (h := .array "UInt6".toList) (by decide), headPlan, resolve_of (h := .unsupported) (by decide), headPlan]

theorem enumBody_quote : enumBody ['\'', 'a', '\'', 'b', '\'', ' ', '=', ' ', '1', ')'] = none := by
  rw [enumBody]
  have : enumPair ['\'', 'a', '\'', 'b', '\'', ' ', '=', ' ', '1', ')'] = none := by decide
  rw [this]

/-- C14 is violated for enum names containing a quote: they are written unescaped and cannot be read back. -/
theorem C14_enum_quote_violated (known : Tz → Bool) (tz : Tz) :
    resolve known tz (SqlType.enum .w8 [("a'b".toList, 1)]).name = .bad (.other "Unsupported column type") := by
  have hn : (SqlType.enum .w8 [("a'b".toList, 1)]).name = "Enum8(".toList ++ "'a'b' = 1".toList ++ [')'] := by
    rw [name_enum8]
    simp [joinComma, enumItemName, intChars, natChars, digitChar]
  have hb : enumBody ("'a'b' = 1".toList ++ [')']) = none := enumBody_quote
  have := dispatch_enum_none (body := "'a'b' = 1".toList) ⟨'\'', "a'b' = 1".toList, by decide, by decide⟩ hb
  rw [hn, resolve_of this.1, headPlan]

/-- C15 (`_partial`). For every type expression built from wrapping types over arbitrary other text (known or unknown
type names, any Unicode text), analysing the name never panics. Missing: names in which a wrapping keyword is not followed by
a parenthesised argument, aggregate-function wrappers, and map keys that are not ASCII atoms. -/
theorem C15_no_panic_partial (known : Tz → Bool) (tz : Tz) (t : TypeExpr) (h : t.Sane) :
    ¬ crashes (resolve known tz t.text) := (sane_no_crash tz t h).1

example : (TypeExpr.map "String".toList (.array (.nullable (.leaf "Tuple(a Über, b Nested(x))".toList)))).Sane := by
  simp only [TypeExpr.Sane]; decide

/-- C15. A name the client does not know is the unsupported-type error, whatever bytes follow: for names that do not start with
a known keyword. -/
theorem C15_unknown_is_error (known : Tz → Bool) (tz : Tz) (s : Str) (size : Nat) (bs : Bytes)
    (hd : dispatch s = .ok .unsupported) :
    loadData known tz s size bs = .err (.other "Unsupported column type") bs := by
  rw [loadData, resolve_of hd, headPlan]; rfl

example : dispatch "Tuple(UInt8, String)".toList = .ok .unsupported := by decide

/-- C15 is violated: a bare keyword, a keyword with an empty argument, a wrapped bare keyword and a non-ASCII map key make the name
parser panic. -/
theorem C15_panic_violated (known : Tz → Bool) (tz : Tz) :
    resolve known tz "Nullable".toList = .crash ∧ resolve known tz "Array(".toList = .crash ∧
    resolve known tz "FixedString".toList = .crash ∧ resolve known tz "Array(Map)".toList = .array .crash ∧
    resolve known tz "Map(Ü, T)".toList = .crash := by
  have hc : ∀ s, dispatch s = .panic → resolve known tz s = .crash := by
    intro s h; rw [resolve]; split <;> simp_all
  refine ⟨hc _ (by decide), hc _ (by decide), hc _ (by decide), ?_, hc _ (by decide)⟩
  rw [resolve_of (h := .array "Map".toList) (by decide), headPlan, hc _ (by decide)]

/-- C15 is violated: reading a block whose column type is announced as `Nullable` panics, whatever the data. -/
theorem C15_load_panic_violated (known : Tz → Bool) (tz : Tz) (size : Nat) (bs : Bytes) :
    loadData known tz "Nullable".toList size bs = .panic := by
  rw [loadData, (C15_panic_violated known tz).1]; rfl

/-- C59 (`_partial`). The declaration a server announces for an enum is decoded to exactly its entries in order, for
arbitrary names (quotes and backslashes escaped) and all numbers in range. (Missing: other escapes, `\n` etc., are not decoded.) -/
theorem C59_enum_decl_partial (known : Tz → Bool) (tz : Tz) (w : EnumW) (items : List (Str × Int)) (hne : items ≠ [])
    (h : ∀ it ∈ items, enumRange w it.2) : resolve known tz (enumDecl w items) = .enum w items := by
  cases w with
  | w8 =>
    have hb := enumBody_entries items hne (fun it hi => ⟨by have := (h it hi).1; omega, by have := (h it hi).2; omega⟩) []
      (by simp)
    rw [List.nil_append] at hb
    rw [enumDecl_w8, resolve_of (dispatch_enum8 (enumEntries_head items hne) hb), headPlan, map_asI8 (fun it hi => h it hi)]
  | w16 =>
    have hb := enumBody_entries items hne (fun it hi => ⟨by have := (h it hi).1; omega, by have := (h it hi).2; omega⟩) []
      (by simp)
    rw [List.nil_append] at hb
    rw [enumDecl_w16, resolve_of (dispatch_enum16 (enumEntries_head items hne) hb), headPlan]

example : ∃ items, items ≠ [] ∧ (∀ it ∈ items, enumRange .w8 it.2) ∧
    enumDecl .w8 items = "Enum8('it\\'s' = -5, 'b' = 127)".toList :=
  ⟨[("it's".toList, -5), ("b".toList, 127)], by simp, by simp [enumRange],
    by decide⟩

/-- C59. A declaration with some number outside 16 bits is an error, never decoded to another number. -/
theorem C59_out_of_range_rejected (known : Tz → Bool) (tz : Tz) (w : EnumW) (items : List (Str × Int))
    (h : ∃ it ∈ items, ¬ (-32768 ≤ it.2 ∧ it.2 ≤ 32767)) :
    resolve known tz (enumDecl w items) = .bad (.other "Unsupported column type") := by
  have hne : items ≠ [] := by rintro rfl; simp at h
  have hb := enumBody_big items (by
    obtain ⟨it, hi, h2⟩ := h
    exact ⟨it, hi, by omega⟩) [] (by simp)
  rw [List.nil_append] at hb
  have := dispatch_enum_none (enumEntries_head items hne) hb
  cases w with
  | w8 => rw [enumDecl_w8, resolve_of this.1, headPlan]
  | w16 => rw [enumDecl_w16, resolve_of this.2, headPlan]

example : ∃ it ∈ [("a".toList, (1 : Int)), ("b".toList, 70000)], ¬ (-32768 ≤ it.2 ∧ it.2 ≤ 32767) := by simp

/-- C59 is violated for `Enum8`: a number that fits 16 but not 8 bits is silently wrapped. -/
theorem C59_enum8_wraps_violated (known : Tz → Bool) (tz : Tz) :
    resolve known tz (enumDecl .w8 [("a".toList, 300)]) = .enum .w8 [("a".toList, 44)] := by
  have hb := enumBody_entries [("a".toList, 300)] (by simp) (by simp) [] (by simp)
  rw [List.nil_append] at hb
  rw [enumDecl_w8, resolve_of (dispatch_enum8 (enumEntries_head _ (by simp)) hb), headPlan]
  rfl

end CH.Props
