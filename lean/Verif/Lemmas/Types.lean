import Verif.Lemmas.Text

/-! Reading back type names. -/

namespace CH
open Spec

theorem byteLen_append (a b : Str) : byteLen (a ++ b) = byteLen a + byteLen b := by
  induction a with
  | nil => simp [byteLen]
  | cons c a ih => simp [byteLen, ih]; omega

theorem utf8Size_pos (c : Char) : 0 < c.utf8Size := Char.utf8Size_pos c

theorem takeBytes_append (a b : Str) : takeBytes (byteLen a) (a ++ b) = some a := by
  induction a with
  | nil => simp [byteLen, takeBytes]
  | cons c a ih =>
    have hp := utf8Size_pos c
    obtain ⟨k, hk⟩ : ∃ k, byteLen (c :: a) = k + 1 := ⟨byteLen (c :: a) - 1, by simp [byteLen]; omega⟩
    have hk' : k + 1 - c.utf8Size = byteLen a := by simp only [byteLen] at hk; omega
    rw [hk, List.cons_append, takeBytes, hk', ih, if_pos (by simp only [byteLen] at hk; omega)]
    rfl

theorem dropBytes_append (a b : Str) : dropBytes (byteLen a) (a ++ b) = some b := by
  induction a with
  | nil => simp [byteLen, dropBytes]
  | cons c a ih =>
    have hp := utf8Size_pos c
    obtain ⟨k, hk⟩ : ∃ k, byteLen (c :: a) = k + 1 := ⟨byteLen (c :: a) - 1, by simp [byteLen]; omega⟩
    have hk' : k + 1 - c.utf8Size = byteLen a := by simp only [byteLen] at hk; omega
    rw [hk, List.cons_append, dropBytes, hk', ih, if_pos (by simp only [byteLen] at hk; omega)]

/-- Cutting a keyword with its parenthesis and the closing parenthesis off a name. -/
theorem sliceBytes_wrap (p inner : Str) (c : Char) (hc : c.utf8Size = 1) {n : Nat} (hn : byteLen p = n) :
    sliceBytes (p ++ inner ++ [c]) n (byteLen (p ++ inner ++ [c]) - 1) = some inner := by
  have h1 : byteLen (p ++ inner ++ [c]) - 1 = byteLen (p ++ inner) := by
    simp [byteLen_append, byteLen, hc]
  rw [h1]
  unfold sliceBytes
  rw [if_pos (by rw [byteLen_append]; omega), takeBytes_append]
  simp only
  rw [← hn, dropBytes_append]

theorem startsWith_append (p r : Str) : startsWith (p ++ r) p = true := by
  simp [startsWith, List.isPrefixOf_iff_prefix]

/-- Names with an opening parenthesis are not simple names. -/
theorem lookupSimple_paren {s : Str} (h : '(' ∈ s) : lookupSimple s simpleNames = none := by
  have h1 : '(' ∈ s.map asciiLower := List.mem_map.mpr ⟨'(', h, by decide⟩
  have h2 : ∀ p ∈ simpleNames, '(' ∉ p.1.map asciiLower := by decide
  have h3 : ∀ l : List (Str × Head), (∀ p ∈ l, '(' ∉ p.1.map asciiLower) → lookupSimple s l = none := by
    intro l
    induction l with
    | nil => intro _; rfl
    | cons p l ih =>
      intro hl
      obtain ⟨n, hd⟩ := p
      rw [lookupSimple, if_neg, ih (fun q hq => hl q (by simp [hq]))]
      intro he
      simp only [eqIgnoreCase, beq_iff_eq] at he
      have := hl (n, hd) (by simp)
      rw [← he] at this
      exact this h1
  exact h3 _ h2

theorem dispatch_nullable {inner : Str} (h : ¬ "Nullable".toList <+: inner) :
    dispatch ("Nullable(".toList ++ inner ++ [')']) = .ok (.nullable inner) := by
  have hl := lookupSimple_paren (s := "Nullable(".toList ++ inner ++ [')']) (by simp)
  have hn : parseNullable ("Nullable(".toList ++ inner ++ [')']) = .ok (some inner) := by
    unfold parseNullable
    rw [if_pos (by simp [startsWith]), sliceBytes_wrap _ _ _ (by decide) (by decide)]
    simp only
    rw [if_neg]
    intro hs; exact h (List.isPrefixOf_iff_prefix.mp hs)
  unfold dispatch
  rw [hl, hn]

/-- None of the five keyword prefixes that are tested first. -/
theorem parseNullable_none {s : Str} (h : startsWith s "Nullable".toList = false) : parseNullable s = .ok none := by
  unfold parseNullable; rw [if_neg (by rw [h]; decide)]
theorem parseFixedString_none {s : Str} (h : startsWith s "FixedString".toList = false) :
    parseFixedString s = .ok none := by
  unfold parseFixedString; rw [if_neg (by rw [h]; decide)]
theorem parseArray_none {s : Str} (h : startsWith s "Array".toList = false) : parseArray s = .ok none := by
  unfold parseArray; rw [if_neg (by rw [h]; decide)]
theorem parseMap_none {s : Str} (h : startsWith s "Map".toList = false) : parseMap s = .ok none := by
  unfold parseMap; rw [if_neg (by rw [h]; decide)]

theorem dispatch_fixedString {n : Nat} (h : n < 2 ^ 64) :
    dispatch ("FixedString(".toList ++ natChars n ++ [')']) = .ok (.fixedString n) := by
  have hl := lookupSimple_paren (s := "FixedString(".toList ++ natChars n ++ [')']) (by simp)
  have hf : parseFixedString ("FixedString(".toList ++ natChars n ++ [')']) = .ok (some n) := by
    unfold parseFixedString
    rw [if_pos (by simp [startsWith]), sliceBytes_wrap _ _ _ (by decide) (by decide)]
    simp only
    rw [parseUnsigned_natChars h]
  unfold dispatch
  rw [hl, parseNullable_none (by simp [startsWith, List.isPrefixOf]), hf]

theorem dispatch_array (inner : Str) :
    dispatch ("Array(".toList ++ inner ++ [')']) = .ok (.array inner) := by
  have hl := lookupSimple_paren (s := "Array(".toList ++ inner ++ [')']) (by simp)
  have ha : parseArray ("Array(".toList ++ inner ++ [')']) = .ok (some inner) := by
    unfold parseArray
    rw [if_pos (by simp [startsWith]), sliceBytes_wrap _ _ _ (by decide) (by decide)]
  unfold dispatch
  rw [hl, parseNullable_none (by simp [startsWith, List.isPrefixOf]), parseFixedString_none (by simp [startsWith, List.isPrefixOf]), ha]

theorem charPos_append {k r : Str} (h : ∀ c ∈ k, c ≠ ',') : charPos ',' (k ++ ',' :: r) = some k.length := by
  induction k with
  | nil => simp [charPos]
  | cons c k ih =>
    rw [List.cons_append, charPos, if_neg (h c (by simp)), ih (fun c hc => h c (by simp [hc]))]
    rfl

theorem byteLen_ascii {k : Str} (h : ∀ c ∈ k, c.toNat < 128) : byteLen k = k.length := by
  induction k with
  | nil => rfl
  | cons c k ih =>
    have h1 : c.utf8Size = 1 := by
      have : c.val.toNat < 128 := h c (by simp)
      have h127 : c.val ≤ UInt32.ofNatLT 0x7F (by decide) :=
        UInt32.le_iff_toNat_le.mpr (by show c.val.toNat ≤ 127; omega)
      rw [Char.utf8Size]
      exact if_pos h127
    rw [byteLen, ih (fun c hc => h c (by simp [hc])), h1, List.length_cons]; omega

/-- Text that neither starts nor ends with whitespace. -/
def Trimmed (s : Str) : Prop := (∀ c, s.head? = some c → isWs c = false) ∧ (∀ c, s.getLast? = some c → isWs c = false)

theorem dropWhile_head {p : Char → Bool} {s : Str} (h : ∀ c, s.head? = some c → p c = false) : s.dropWhile p = s := by
  cases s with
  | nil => rfl
  | cons c s => simp [h c (by simp)]

theorem trim_trimmed {s : Str} (h : Trimmed s) : trim s = s := by
  unfold trim
  rw [dropWhile_head h.1, dropWhile_head, List.reverse_reverse]
  intro c hc
  rw [List.head?_reverse] at hc
  exact h.2 c hc

theorem trim_space {s : Str} : trim (' ' :: s) = trim s := by
  have : isWs ' ' = true := by decide
  simp [trim, this]

theorem dispatch_map_raw {k v : Str} (hk : ∀ c ∈ k, c.toNat < 128 ∧ c ≠ ',') :
    dispatch ("Map(".toList ++ k ++ ", ".toList ++ v ++ [')']) = .ok (.map (trim k) (trim v)) := by
  have hl := lookupSimple_paren (s := "Map(".toList ++ k ++ ", ".toList ++ v ++ [')']) (by simp)
  have hm : parseMap ("Map(".toList ++ k ++ ", ".toList ++ v ++ [')']) = .ok (some (trim k, trim v)) := by
    unfold parseMap
    rw [if_pos (by simp [startsWith])]
    have he : "Map(".toList ++ k ++ ", ".toList ++ v ++ [')'] = "Map(".toList ++ (k ++ ',' :: ' ' :: v) ++ [')'] := by simp
    rw [he, sliceBytes_wrap _ _ _ (by decide) (by decide)]
    simp only
    rw [charPos_append (fun c hc => (hk c hc).2)]
    simp only
    have hb := byteLen_ascii (fun c hc => (hk c hc).1)
    have h1 : takeBytes k.length (k ++ ',' :: ' ' :: v) = some k := by
      rw [← hb]; exact takeBytes_append _ _
    have h2 : dropBytes (k.length + 1) (k ++ ',' :: ' ' :: v) = some (' ' :: v) := by
      have := dropBytes_append (k ++ [',']) (' ' :: v)
      rw [byteLen_append, hb] at this
      simpa [byteLen, show Char.utf8Size ',' = 1 by decide] using this
    rw [h1, h2]
    simp [trim_space]
  unfold dispatch
  rw [hl, parseNullable_none (by simp [startsWith, List.isPrefixOf]), parseFixedString_none (by simp [startsWith, List.isPrefixOf]),
    parseArray_none (by simp [startsWith, List.isPrefixOf]), hm]

theorem dispatch_map {k v : Str} (hk : ∀ c ∈ k, c.toNat < 128 ∧ c ≠ ',') (hkt : Trimmed k) (hvt : Trimmed v) :
    dispatch ("Map(".toList ++ k ++ ", ".toList ++ v ++ [')']) = .ok (.map k v) := by
  rw [dispatch_map_raw hk, trim_trimmed hkt, trim_trimmed hvt]

theorem lastPos_append (p : Str) (h : ∀ c ∈ p, c ≠ ')') : lastPos ')' (p ++ [')']) = some p.length := by
  induction p with
  | nil => rfl
  | cons c p ih => rw [List.cons_append, lastPos, ih (fun c hc => h c (by simp [hc]))]; rfl

theorem splitComma_none {a : Str} (h : ∀ c ∈ a, c ≠ ',') : splitComma a = [a] := by
  induction a with
  | nil => rfl
  | cons c a ih => rw [splitComma, if_neg (h c (by simp)), ih (fun c hc => h c (by simp [hc]))]

theorem splitComma_two {a b : Str} (ha : ∀ c ∈ a, c ≠ ',') (hb : ∀ c ∈ b, c ≠ ',') :
    splitComma (a ++ ',' :: b) = [a, b] := by
  induction a with
  | nil => simp [splitComma, splitComma_none hb]
  | cons c a ih =>
    rw [List.cons_append, splitComma, if_neg (ha c (by simp)), ih (fun c hc => ha c (by simp [hc]))]

theorem natChars_ne {n : Nat} {d : Char} (hd : isDigitC d = false) : ∀ c ∈ natChars n, c ≠ d :=
  fun c hc => isDigitC_ne (natChars_digits n c hc) hd

theorem natChars_trimmed (n : Nat) : Trimmed (natChars n) := by
  refine ⟨fun c hc => isDigitC_notWs (natChars_digits n c ?_), fun c hc => isDigitC_notWs (natChars_digits n c ?_)⟩
  · exact List.mem_of_mem_head? hc
  · exact List.mem_of_mem_getLast? hc

theorem natChars_length_pos (n : Nat) : 0 < (natChars n).length :=
  List.length_pos_iff.mpr (natChars_ne_nil n)

theorem le_byteLen (s : Str) : s.length ≤ byteLen s := by
  induction s with
  | nil => simp [byteLen]
  | cons c s ih => have := utf8Size_pos c; simp only [byteLen, List.length_cons]; omega

theorem dispatch_decimal {p s : Nat} (h1 : s ≤ p) (h2 : p ≤ 18) :
    dispatch ("Decimal(".toList ++ natChars p ++ ", ".toList ++ natChars s ++ [')']) =
      .ok (.decimal p s (if p ≤ 9 then .n32 else .n64)) := by
  have hl := lookupSimple_paren (s := "Decimal(".toList ++ natChars p ++ ", ".toList ++ natChars s ++ [')']) (by simp)
  have hd : parseDecimal ("Decimal(".toList ++ natChars p ++ ", ".toList ++ natChars s ++ [')']) =
      some (p, s, if p ≤ 9 then .n32 else .n64) := by
    unfold parseDecimal
    rw [if_neg, if_neg (by simp [startsWith])]
    · have ht : ("Decimal(".toList ++ natChars p ++ ", ".toList ++ natChars s ++ [')']).takeWhile (· ≠ '(') =
        "Decimal".toList := by simp
      have hdw : ("Decimal(".toList ++ natChars p ++ ", ".toList ++ natChars s ++ [')']).dropWhile (· ≠ '(') =
        '(' :: ((natChars p ++ ", ".toList ++ natChars s) ++ [')']) := by simp
      simp only [ht, hdw]
      have hno : ∀ d : Char, isDigitC d = false → d ≠ ',' → d ≠ ' ' → ∀ c ∈ natChars p ++ ", ".toList ++ natChars s, c ≠ d := by
        intro d hd h1 h2 c hc
        simp only [List.mem_append] at hc
        rcases hc with (hc | hc) | hc
        · exact natChars_ne hd c hc
        · simp at hc; rcases hc with rfl | rfl
          · exact h1.symm
          · exact h2.symm
        · exact natChars_ne hd c hc
      rw [if_neg]
      · rw [lastPos_append _ (hno ')' (by decide) (by decide) (by decide))]
        simp only [List.take_left]
        rw [if_neg (by decide), if_neg (by decide), if_pos trivial]
        have hsp : splitComma (natChars p ++ ", ".toList ++ natChars s) = [natChars p, ' ' :: natChars s] := by
          have := splitComma_two (a := natChars p) (b := ' ' :: natChars s) (natChars_ne (by decide))
            (by intro c hc; simp at hc; rcases hc with rfl | hc; decide; exact natChars_ne (by decide) c hc)
          rw [← this]; simp
        rw [hsp]
        simp only [List.map_cons, List.map_nil, trim_space, trim_trimmed (natChars_trimmed _)]
        rw [parseUnsigned_natChars (by omega), parseUnsigned_natChars (by omega)]
        simp only
        rw [if_neg (by omega)]
        unfold NoBits.fromPrecision
        by_cases hp : p ≤ 9
        · simp [hp]
        · simp [hp, h2]
      · intro hc
        simp only [List.contains_iff_mem, List.mem_append, List.mem_singleton] at hc
        rcases hc with hc | hc
        · exact hno '(' (by decide) (by decide) (by decide) '(' (by simpa using hc) rfl
        · exact absurd hc (by decide)
    · have := le_byteLen ("Decimal(".toList ++ natChars p ++ ", ".toList ++ natChars s ++ [')'])
      have h1 := natChars_length_pos p
      have h2 := natChars_length_pos s
      simp only [List.length_append] at this
      have h3 : "Decimal(".toList.length = 8 := by decide
      have h4 : ", ".toList.length = 2 := by decide
      simp only [List.length_cons, List.length_nil] at this
      omega
  unfold dispatch
  rw [hl, parseNullable_none (by simp [startsWith, List.isPrefixOf]), parseFixedString_none (by simp [startsWith, List.isPrefixOf]),
    parseArray_none (by simp [startsWith, List.isPrefixOf]), parseMap_none (by simp [startsWith, List.isPrefixOf]), hd]

theorem parseDecimal_none {s : Str} (h : startsWith s "Decimal".toList = false) : parseDecimal s = none := by
  unfold parseDecimal; split
  · rfl
  · rw [if_pos (by rw [h]; decide)]

theorem strTok_append (p r : Str) : strTok p (p ++ r) = some r := by
  induction p with
  | nil => rfl
  | cons c p ih => simp [strTok, tok, ih]

theorem asI8_range {v : Int} (h1 : -128 ≤ v) (h2 : v ≤ 127) : asI8 v = v := by
  unfold asI8; omega

/-- Shared: parsing an enum declaration whose body is understood. -/
theorem parseEnum_of_body {kw body : Str} {items : List (Str × Int)} (hkw : ∀ c, kw.head? = some c → isWs c = false)
    (hne : kw ≠ []) (hb : ∃ c cs, body = c :: cs ∧ isWs c = false)
    (h : enumBody (body ++ [')']) = some (items, [')'])) :
    parseEnum kw (kw ++ '(' :: body ++ [')']) = some items := by
  obtain ⟨c, cs, rfl, hc⟩ := hb
  unfold parseEnum
  cases kw with
  | nil => contradiction
  | cons k kw =>
    have hk := hkw k (by simp)
    have h1 : skipWs (k :: kw ++ '(' :: (c :: cs) ++ [')']) = (k :: kw) ++ ('(' :: (c :: cs) ++ [')']) := by
      simp [skipWs, hk]
    rw [h1, strTok_append]
    have hp : isWs '(' = false := by decide
    simp only [Option.bind_eq_bind, Option.bind_some, List.cons_append, skipWs_cons hp, tok, if_true, skipWs_cons hc]
    simp only [List.cons_append] at h
    rw [h]
    simp [tok]

theorem enumNames_head (items : List (Str × Int)) (hne : items ≠ []) :
    ∃ c cs, joinComma (items.map enumItemName) = c :: cs ∧ isWs c = false := by
  cases items with
  | nil => contradiction
  | cons it rest =>
    cases rest with
    | nil => exact ⟨'\'', _, by simp [joinComma, enumItemName]; rfl, by decide⟩
    | cons b rest => exact ⟨'\'', _, by simp [joinComma, enumItemName]; rfl, by decide⟩

theorem map_asI8 {items : List (Str × Int)} (h : ∀ it ∈ items, -128 ≤ it.2 ∧ it.2 ≤ 127) :
    (items.map fun (k, v) => (k, asI8 v)) = items := by
  induction items with
  | nil => rfl
  | cons it rest ih =>
    have hi := h it (by simp)
    rw [List.map_cons, ih (fun x hx => h x (by simp [hx]))]
    simp only [asI8_range hi.1 hi.2]

theorem dispatch_enum8 {body : Str} {items : List (Str × Int)} (hb : ∃ c cs, body = c :: cs ∧ isWs c = false)
    (h : enumBody (body ++ [')']) = some (items, [')'])) :
    dispatch ("Enum8(".toList ++ body ++ [')']) = .ok (.enum .w8 (items.map fun (k, v) => (k, asI8 v))) := by
  have hl := lookupSimple_paren (s := "Enum8(".toList ++ body ++ [')']) (by simp)
  have he : parseEnum8 ("Enum8(".toList ++ body ++ [')']) = some (items.map fun (k, v) => (k, asI8 v)) := by
    have := parseEnum_of_body (kw := "Enum8".toList) (by simp; decide) (by decide) hb h
    unfold parseEnum8
    have e : "Enum8(".toList ++ body ++ [')'] = "Enum8".toList ++ '(' :: body ++ [')'] := by simp
    rw [e, this]; rfl
  unfold dispatch
  rw [hl, parseNullable_none (by simp [startsWith, List.isPrefixOf]), parseFixedString_none (by simp [startsWith, List.isPrefixOf]),
    parseArray_none (by simp [startsWith, List.isPrefixOf]), parseMap_none (by simp [startsWith, List.isPrefixOf]), parseDecimal_none (by simp [startsWith, List.isPrefixOf]), he]

theorem parseEnum_none {kw s : Str} {k c : Char} (hk : kw.head? = some k) (hs : s.head? = some c) (hc : isWs c = false)
    (hne : c ≠ k) : parseEnum kw s = none := by
  cases kw with
  | nil => simp at hk
  | cons k' kw =>
    cases s with
    | nil => simp at hs
    | cons c' s =>
      simp at hk hs; subst hk; subst hs
      simp [parseEnum, skipWs, hc, strTok, tok, hne]

theorem dispatch_enum16 {body : Str} {items : List (Str × Int)} (hb : ∃ c cs, body = c :: cs ∧ isWs c = false)
    (h : enumBody (body ++ [')']) = some (items, [')'])) :
    dispatch ("Enum16(".toList ++ body ++ [')']) = .ok (.enum .w16 items) := by
  have hl := lookupSimple_paren (s := "Enum16(".toList ++ body ++ [')']) (by simp)
  have he : parseEnum16 ("Enum16(".toList ++ body ++ [')']) = some items := by
    have := parseEnum_of_body (kw := "Enum16".toList) (by simp; decide) (by decide) hb h
    unfold parseEnum16
    have e : "Enum16(".toList ++ body ++ [')'] = "Enum16".toList ++ '(' :: body ++ [')'] := by simp
    rw [e, this]
  have h8 : parseEnum8 ("Enum16(".toList ++ body ++ [')']) = none := by
    have hw : isWs 'E' = false := by decide
    simp [parseEnum8, parseEnum, skipWs, hw, strTok, tok]
  unfold dispatch
  rw [hl, parseNullable_none (by simp [startsWith, List.isPrefixOf]), parseFixedString_none (by simp [startsWith, List.isPrefixOf]),
    parseArray_none (by simp [startsWith, List.isPrefixOf]), parseMap_none (by simp [startsWith, List.isPrefixOf]), parseDecimal_none (by simp [startsWith, List.isPrefixOf]),
    h8, he]

theorem parseEnum8_none {s : Str} {c : Char} (hs : s.head? = some c) (hc : isWs c = false)
    (hne : c ≠ 'E') : parseEnum8 s = none := by
  unfold parseEnum8; rw [parseEnum_none (k := 'E') (by rfl) hs hc hne]; rfl
theorem parseEnum16_none {s : Str} {c : Char} (hs : s.head? = some c) (hc : isWs c = false)
    (hne : c ≠ 'E') : parseEnum16 s = none := by
  unfold parseEnum16; rw [parseEnum_none (k := 'E') (by rfl) hs hc hne]

theorem dispatch_datetime : dispatch "DateTime".toList = .ok (.datetime none) := by decide

theorem dispatch_dt64 {p : Nat} {z : Tz} (hp : p < 2 ^ 32) (hz : plainText z) :
    dispatch ("DateTime64(".toList ++ natChars p ++ ", '".toList ++ z ++ "')".toList) = .ok (.dt64 p (some z)) := by
  have hl := lookupSimple_paren (s := "DateTime64(".toList ++ natChars p ++ ", '".toList ++ z ++ "')".toList) (by simp)
  have hD : isWs 'D' = false := by decide
  have hP : isWs '(' = false := by decide
  have hP' : isWs ')' = false := by decide
  have hC : isWs ',' = false := by decide
  have hQ : isWs '\'' = false := by decide
  have h6 : isWs '6' = false := by decide
  have hdt : parseDateTime ("DateTime64(".toList ++ natChars p ++ ", '".toList ++ z ++ "')".toList) = none := by
    simp [parseDateTime, skipWs, hD, strTok, tok, dateTimeTz, h6]
  have hd64 : parseDateTime64 ("DateTime64(".toList ++ natChars p ++ ", '".toList ++ z ++ "')".toList) =
      some (p, some z) := by
    obtain ⟨c, cs, hcs⟩ : ∃ c cs, natChars p = c :: cs := by
      cases h : natChars p with
      | nil => exact absurd h (natChars_ne_nil p)
      | cons c cs => exact ⟨c, cs, rfl⟩
    have hc : isWs c = false := isDigitC_notWs (natChars_digits p c (by rw [hcs]; simp))
    have e : "DateTime64(".toList ++ natChars p ++ ", '".toList ++ z ++ "')".toList =
        "DateTime64".toList ++ ('(' :: (natChars p ++ (',' :: ' ' :: '\'' :: (z ++ '\'' :: [')'])))) := by simp
    rw [e]
    unfold parseDateTime64
    have h0 : skipWs ("DateTime64".toList ++ ('(' :: (natChars p ++ (',' :: ' ' :: '\'' :: (z ++ '\'' :: [')']))))) =
        "DateTime64".toList ++ ('(' :: (natChars p ++ (',' :: ' ' :: '\'' :: (z ++ '\'' :: [')'])))) := by
      simp [skipWs, hD]
    rw [h0, strTok_append]
    simp only [Option.bind_eq_bind, Option.bind_some, skipWs_cons hP, tok, if_true]
    have h1 : skipWs (natChars p ++ (',' :: ' ' :: '\'' :: (z ++ '\'' :: [')']))) =
        natChars p ++ (',' :: ' ' :: '\'' :: (z ++ '\'' :: [')'])) := by
      rw [hcs]; exact skipWs_cons hc _
    rw [h1, digits1_natChars _ _ (by simp; decide)]
    simp only [Option.bind_some, parseUnsigned_natChars hp, skipWs_cons hC]
    have h2 : dt64Tz (',' :: ' ' :: '\'' :: (z ++ '\'' :: [')'])) = some (z, [')']) := by
      simp only [dt64Tz, skipWs_cons hC, tok, if_true, Option.bind_eq_bind, Option.bind_some, skipWs_space,
        skipWs_cons hQ, word_plain hz]
    rw [h2]
    simp [skipWs_cons hP', tok]
  unfold dispatch
  rw [hl, parseNullable_none (by simp [startsWith, List.isPrefixOf]), parseFixedString_none (by simp [startsWith, List.isPrefixOf]),
    parseArray_none (by simp [startsWith, List.isPrefixOf]), parseMap_none (by simp [startsWith, List.isPrefixOf]), parseDecimal_none (by simp [startsWith, List.isPrefixOf]),
    parseEnum8_none (c := 'D') (by simp) hD (by decide), parseEnum16_none (c := 'D') (by simp) hD (by decide), hdt, hd64]

theorem parseDateTime_none {s : Str} {c : Char} (hs : s.head? = some c) (hc : isWs c = false)
    (h1 : c ≠ 'D') (h2 : c ≠ 'T') : parseDateTime s = none := by
  cases s with
  | nil => simp at hs
  | cons c' s => simp at hs; subst hs; simp [parseDateTime, skipWs, hc, strTok, tok, h1, h2]

theorem parseDateTime64_none {s : Str} {c : Char} (hs : s.head? = some c) (hc : isWs c = false)
    (h1 : c ≠ 'D') : parseDateTime64 s = none := by
  cases s with
  | nil => simp at hs
  | cons c' s => simp at hs; subst hs; simp [parseDateTime64, skipWs, hc, strTok, tok, h1]

theorem trimMatches_id {p : Char → Bool} {s : Str} (h1 : ∀ c, s.head? = some c → p c = false)
    (h2 : ∀ c, s.getLast? = some c → p c = false) : trimMatches p s = s := by
  unfold trimMatches
  rw [dropWhile_head h1, dropWhile_head, List.reverse_reverse]
  intro c hc
  rw [List.head?_reverse] at hc
  exact h2 c hc

theorem trimMatches_paren {s : Str} (h0 : s ≠ []) (h1 : ∀ c, s.head? = some c → c ≠ '(' ∧ c ≠ ')')
    (h2 : ∀ c, s.getLast? = some c → c ≠ '(' ∧ c ≠ ')') :
    trimMatches (fun c => c == '(' || c == ')') ('(' :: s ++ [')']) = s := by
  unfold trimMatches
  cases s with
  | nil => contradiction
  | cons a s =>
    have ha := h1 a (by simp)
    have hd : ('(' :: (a :: s) ++ [')']).dropWhile (fun c => c == '(' || c == ')') = (a :: s) ++ [')'] := by
      simp [ha]
    rw [hd, List.reverse_append]
    have : ([')'].reverse ++ (a :: s).reverse).dropWhile (fun c => c == '(' || c == ')') =
        (a :: s).reverse := by
      simp only [List.reverse_singleton, List.singleton_append]
      rw [List.dropWhile_cons_of_pos (by decide), dropWhile_head]
      intro c hc
      rw [List.head?_reverse] at hc
      have := h2 c hc
      simp [this]
    rw [this, List.reverse_reverse]

theorem AggFunc.parse_name (f : AggFunc) : AggFunc.parse f.name = some f := by cases f <;> decide
theorem AggFunc.name_nocomma (f : AggFunc) : ∀ c ∈ f.name, c ≠ ',' := by cases f <;> decide
theorem AggFunc.name_trimmed (f : AggFunc) : trim f.name = f.name := by cases f <;> decide
theorem AggFunc.name_head (f : AggFunc) : ∃ c cs, f.name = c :: cs ∧ c ≠ '(' ∧ c ≠ ')' := by
  cases f <;> exact ⟨_, _, rfl, by decide, by decide⟩

theorem dispatch_simpleAgg (f : AggFunc) {inner : Str} (ht : Trimmed inner) (hne : inner ≠ [])
    (h2 : ∀ c, inner.getLast? = some c → c ≠ '(' ∧ c ≠ ')') :
    dispatch ("SimpleAggregateFunction(".toList ++ f.name ++ ", ".toList ++ inner ++ [')']) =
      .ok (.simpleAgg f inner) := by
  have hl := lookupSimple_paren (s := "SimpleAggregateFunction(".toList ++ f.name ++ ", ".toList ++ inner ++ [')']) (by simp)
  have hs : parseSimpleAgg ("SimpleAggregateFunction(".toList ++ f.name ++ ", ".toList ++ inner ++ [')']) =
      some (f, inner) := by
    unfold parseSimpleAgg
    rw [if_pos]
    · have hd : ("SimpleAggregateFunction(".toList ++ f.name ++ ", ".toList ++ inner ++ [')']).drop 23 =
          '(' :: (f.name ++ ',' :: ' ' :: inner) ++ [')'] := by simp
      obtain ⟨c, cs, hc, hc1⟩ := f.name_head
      have htm := trimMatches_paren (s := f.name ++ ',' :: ' ' :: inner) (by simp)
        (by intro d hd; rw [hc] at hd; simp at hd; subst hd; exact hc1)
        (by
          intro d hd
          apply h2 d
          rw [List.getLast?_append] at hd
          have : (',' :: ' ' :: inner).getLast? = inner.getLast? := by
            cases inner with
            | nil => contradiction
            | cons a l => simp [List.getLast?_cons_cons]
          rw [this] at hd
          cases hi : inner.getLast? with
          | none => simp at hi; exact absurd hi hne
          | some x => rw [hi] at hd; simpa using hd)
      rw [hd, htm]
      simp only
      rw [charPos_append f.name_nocomma]
      simp only [List.take_left, f.name_trimmed, f.parse_name]
      have : (f.name ++ ',' :: ' ' :: inner).drop (f.name.length + 1) = ' ' :: inner := by
        rw [← List.drop_drop]; simp
      rw [this, trim_space, trim_trimmed ht]
    · rw [Bool.and_eq_true]
      exact ⟨by simp [startsWith], by rw [endsWithChar, List.getLast?_append]; simp⟩
  have hw : isWs 'S' = false := by decide
  unfold dispatch
  rw [hl, parseNullable_none (by simp [startsWith, List.isPrefixOf]), parseFixedString_none (by simp [startsWith, List.isPrefixOf]),
    parseArray_none (by simp [startsWith, List.isPrefixOf]), parseMap_none (by simp [startsWith, List.isPrefixOf]), parseDecimal_none (by simp [startsWith, List.isPrefixOf]),
    parseEnum8_none (c := 'S') (by simp) hw (by decide), parseEnum16_none (c := 'S') (by simp) hw (by decide),
    parseDateTime_none (c := 'S') (by simp) hw (by decide) (by decide),
    parseDateTime64_none (c := 'S') (by simp) hw (by decide), hs]

theorem parseSimpleAgg_none {s : Str} (h : startsWith s "SimpleAggregateFunction(".toList = false) :
    parseSimpleAgg s = none := by
  unfold parseSimpleAgg; rw [h]; rfl

theorem dispatch_lowCard_raw (inner : Str) :
    dispatch ("LowCardinality(".toList ++ inner ++ [')']) = .ok (.lowCard (trim inner)) := by
  have hl := lookupSimple_paren (s := "LowCardinality(".toList ++ inner ++ [')']) (by simp)
  have hp : parseLowCard ("LowCardinality(".toList ++ inner ++ [')']) = .ok (some (trim inner)) := by
    unfold parseLowCard
    rw [if_pos (by simp [startsWith])]
    have hd : ("LowCardinality(".toList ++ inner ++ [')']).drop 14 = '(' :: (inner ++ [')']) := by simp
    rw [hd, lcLo, if_pos rfl]
    simp [lcHi]
  have hw : isWs 'L' = false := by decide
  unfold dispatch
  rw [hl, parseNullable_none (by simp [startsWith, List.isPrefixOf]), parseFixedString_none (by simp [startsWith, List.isPrefixOf]),
    parseArray_none (by simp [startsWith, List.isPrefixOf]), parseMap_none (by simp [startsWith, List.isPrefixOf]), parseDecimal_none (by simp [startsWith, List.isPrefixOf]),
    parseEnum8_none (c := 'L') (by simp) hw (by decide), parseEnum16_none (c := 'L') (by simp) hw (by decide),
    parseDateTime_none (c := 'L') (by simp) hw (by decide) (by decide),
    parseDateTime64_none (c := 'L') (by simp) hw (by decide), parseSimpleAgg_none (by simp [startsWith, List.isPrefixOf]), hp]

/-! Unfolding equations (stated, because generating them is slow). -/

theorem name_num (t : NumTy) : (SqlType.num t).name = t.name := rfl
theorem name_string : SqlType.string.name = "String".toList := rfl
theorem name_fixedString (n : Nat) : (SqlType.fixedString n).name = "FixedString(".toList ++ natChars n ++ [')'] := rfl
theorem name_date : SqlType.date.name = "Date".toList := rfl
theorem name_datetime : SqlType.datetime.name = "DateTime".toList := rfl
theorem name_chrono : SqlType.chrono.name = "DateTime".toList := rfl
theorem name_dt64 (p : Nat) (tz : Tz) : (SqlType.dt64 p tz).name =
    "DateTime64(".toList ++ natChars p ++ ", '".toList ++ tz ++ "')".toList := rfl
theorem name_nullable (t : SqlType) : (SqlType.nullable t).name = "Nullable(".toList ++ t.name ++ [')'] := rfl
theorem name_array (t : SqlType) : (SqlType.array t).name = "Array(".toList ++ t.name ++ [')'] := rfl
theorem name_lowCard (t : SqlType) : (SqlType.lowCard t).name = "LowCardinality(".toList ++ t.name ++ [')'] := rfl
theorem name_decimal (p s : Nat) : (SqlType.decimal p s).name =
    "Decimal(".toList ++ natChars p ++ ", ".toList ++ natChars s ++ [')'] := rfl
theorem name_enum8 (items : List (Str × Int)) : (SqlType.enum .w8 items).name =
    "Enum8(".toList ++ joinComma (items.map enumItemName) ++ [')'] := rfl
theorem name_enum16 (items : List (Str × Int)) : (SqlType.enum .w16 items).name =
    "Enum16(".toList ++ joinComma (items.map enumItemName) ++ [')'] := rfl
theorem name_simpleAgg (f : AggFunc) (t : SqlType) : (SqlType.simpleAgg f t).name =
    "SimpleAggregateFunction(".toList ++ f.name ++ ", ".toList ++ t.name ++ [')'] := rfl
theorem name_map (k v : SqlType) : (SqlType.map k v).name =
    "Map(".toList ++ k.name ++ ", ".toList ++ v.name ++ [')'] := rfl

theorem text_leaf (s : Str) : (TypeExpr.leaf s).text = s := rfl
theorem text_nullable (t : TypeExpr) : (TypeExpr.nullable t).text = "Nullable(".toList ++ t.text ++ [')'] := rfl
theorem text_array (t : TypeExpr) : (TypeExpr.array t).text = "Array(".toList ++ t.text ++ [')'] := rfl
theorem text_lowCard (t : TypeExpr) : (TypeExpr.lowCard t).text = "LowCardinality(".toList ++ t.text ++ [')'] := rfl
theorem text_fixedString (a : Str) : (TypeExpr.fixedString a).text = "FixedString(".toList ++ a ++ [')'] := rfl
theorem text_map (k : Str) (t : TypeExpr) : (TypeExpr.map k t).text =
    "Map(".toList ++ k ++ ", ".toList ++ t.text ++ [')'] := rfl

/-! Shape of the written names. -/

theorem NumTy.name_atom (t : NumTy) : ¬ "Nullable".toList <+: t.name ∧ (∃ c, t.name.head? = some c ∧ isWs c = false) ∧
    (∃ c, t.name.getLast? = some c ∧ isWs c = false ∧ c ≠ '(' ∧ c ≠ ')') ∧ (∀ c ∈ t.name, c.toNat < 128 ∧ c ≠ ',') := by
  cases t <;> exact ⟨by decide, ⟨_, rfl, by decide⟩, ⟨_, rfl, by decide⟩, by decide⟩

theorem name_head (t : SqlType) : ∃ c, t.name.head? = some c ∧ isWs c = false := by
  cases t with
  | num t => exact t.name_atom.2.1
  | ip k => cases k <;> exact ⟨_, rfl, by decide⟩
  | enum w items =>
    cases w
    · exact ⟨'E', by rw [name_enum8]; simp, by decide⟩
    · exact ⟨'E', by rw [name_enum16]; simp, by decide⟩
  | string => exact ⟨_, rfl, by decide⟩
  | date => exact ⟨_, rfl, by decide⟩
  | datetime => exact ⟨_, rfl, by decide⟩
  | chrono => exact ⟨_, rfl, by decide⟩
  | fixedString n => exact ⟨'F', by rw [name_fixedString]; simp, by decide⟩
  | dt64 p tz => exact ⟨'D', by rw [name_dt64]; simp, by decide⟩
  | nullable t => exact ⟨'N', by rw [name_nullable]; simp, by decide⟩
  | array t => exact ⟨'A', by rw [name_array]; simp, by decide⟩
  | lowCard t => exact ⟨'L', by rw [name_lowCard]; simp, by decide⟩
  | decimal p s => exact ⟨'D', by rw [name_decimal]; simp, by decide⟩
  | simpleAgg f t => exact ⟨'S', by rw [name_simpleAgg]; simp, by decide⟩
  | map k v => exact ⟨'M', by rw [name_map]; simp, by decide⟩

theorem name_last (t : SqlType) : ∃ c, t.name.getLast? = some c ∧ isWs c = false := by
  have hp : ∀ (a : Str), (a ++ [')']).getLast? = some ')' := fun a => by simp
  have hw : isWs ')' = false := by decide
  cases t with
  | num t => obtain ⟨c, h, hw, _⟩ := t.name_atom.2.2.1; exact ⟨c, h, hw⟩
  | ip k => cases k <;> exact ⟨_, rfl, by decide⟩
  | enum w items =>
    cases w
    · exact ⟨')', by rw [name_enum8, hp], hw⟩
    · exact ⟨')', by rw [name_enum16, hp], hw⟩
  | string => exact ⟨_, rfl, by decide⟩
  | date => exact ⟨_, rfl, by decide⟩
  | datetime => exact ⟨_, rfl, by decide⟩
  | chrono => exact ⟨_, rfl, by decide⟩
  | fixedString n => exact ⟨')', by rw [name_fixedString, hp], hw⟩
  | dt64 p tz => exact ⟨')', by rw [name_dt64, List.getLast?_append]; rfl, hw⟩
  | nullable t => exact ⟨')', by rw [name_nullable, hp], hw⟩
  | array t => exact ⟨')', by rw [name_array, hp], hw⟩
  | lowCard t => exact ⟨')', by rw [name_lowCard, hp], hw⟩
  | decimal p s => exact ⟨')', by rw [name_decimal, hp], hw⟩
  | simpleAgg f t => exact ⟨')', by rw [name_simpleAgg, hp], hw⟩
  | map k v => exact ⟨')', by rw [name_map, hp], hw⟩

theorem name_trimmed (t : SqlType) : Trimmed t.name := by
  obtain ⟨c, h, hw⟩ := name_head t
  obtain ⟨d, h', hw'⟩ := name_last t
  exact ⟨fun x hx => by rw [h] at hx; simp at hx; rwa [← hx], fun x hx => by rw [h'] at hx; simp at hx; rwa [← hx]⟩

theorem not_nullable_prefix {s : Str} {c : Char} (h : s.head? = some c) (hc : c ≠ 'N') : ¬ "Nullable".toList <+: s := by
  intro hp
  cases s with
  | nil => simp at h
  | cons a s =>
    simp at h; subst h
    have : "Nullable".toList = 'N' :: "ullable".toList := by decide
    rw [this] at hp
    exact hc (List.cons_prefix_cons.mp hp).1.symm

theorem name_not_nullable {t : SqlType} (h : ∀ u, t ≠ .nullable u) : ¬ "Nullable".toList <+: t.name := by
  cases t with
  | num t => exact t.name_atom.1
  | ip k => cases k <;> decide
  | enum w items =>
    cases w
    · exact not_nullable_prefix (c := 'E') (by rw [name_enum8]; simp) (by decide)
    · exact not_nullable_prefix (c := 'E') (by rw [name_enum16]; simp) (by decide)
  | string => decide
  | date => decide
  | datetime => decide
  | chrono => decide
  | nullable u => exact absurd rfl (h u)
  | fixedString n => exact not_nullable_prefix (c := 'F') (by rw [name_fixedString]; simp) (by decide)
  | dt64 p tz => exact not_nullable_prefix (c := 'D') (by rw [name_dt64]; simp) (by decide)
  | array t => exact not_nullable_prefix (c := 'A') (by rw [name_array]; simp) (by decide)
  | lowCard t => exact not_nullable_prefix (c := 'L') (by rw [name_lowCard]; simp) (by decide)
  | decimal p s => exact not_nullable_prefix (c := 'D') (by rw [name_decimal]; simp) (by decide)
  | simpleAgg f t => exact not_nullable_prefix (c := 'S') (by rw [name_simpleAgg]; simp) (by decide)
  | map k v => exact not_nullable_prefix (c := 'M') (by rw [name_map]; simp) (by decide)

theorem keyLike_chars {t : SqlType} (h : KeyLike t) : ∀ c ∈ t.name, c.toNat < 128 ∧ c ≠ ',' := by
  have happ : ∀ (p n : Str), (∀ c ∈ p, c.toNat < 128 ∧ c ≠ ',') → (∀ c ∈ n, c.toNat < 128 ∧ c ≠ ',') →
      ∀ c ∈ p ++ n ++ [')'], c.toNat < 128 ∧ c ≠ ',' := by
    intro p n hp hn c hc
    simp only [List.mem_append, List.mem_singleton] at hc
    rcases hc with (hc | hc) | rfl
    · exact hp c hc
    · exact hn c hc
    · decide
  induction t with
  | num t => exact t.name_atom.2.2.2
  | ip k => cases k <;> decide
  | string => decide
  | date => decide
  | datetime => decide
  | fixedString n =>
    rw [name_fixedString]
    refine happ _ _ (by decide) ?_
    intro c hc
    have hd := natChars_digits n c hc
    simp only [isDigitC, Bool.and_eq_true, decide_eq_true_eq] at hd
    exact ⟨by omega, natChars_ne (by decide) c hc⟩
  | nullable t ih => rw [name_nullable]; exact happ _ _ (by decide) (ih h)
  | array t ih => rw [name_array]; exact happ _ _ (by decide) (ih h)
  | lowCard t ih => rw [name_lowCard]; exact happ _ _ (by decide) (ih h)
  | _ => exact absurd h (by simp [KeyLike])

theorem atomic_last {t : SqlType} (h : Atomic t) : ∀ c, t.name.getLast? = some c → c ≠ '(' ∧ c ≠ ')' := by
  have key : ∀ (s : Str) (d : Char), s.getLast? = some d → (d ≠ '(' ∧ d ≠ ')') →
      ∀ c, s.getLast? = some c → c ≠ '(' ∧ c ≠ ')' := by
    intro s d h1 h2 c hc; rw [h1] at hc; simp at hc; rwa [← hc]
  cases t with
  | num t =>
    obtain ⟨c, hc, _, h⟩ := t.name_atom.2.2.1
    exact key _ c hc h
  | ip k =>
    cases k
    · exact key _ '4' (by decide) (by decide)
    · exact key _ '6' (by decide) (by decide)
    · exact key _ 'D' (by decide) (by decide)
  | string => exact key _ 'g' (by decide) (by decide)
  | date => exact key _ 'e' (by decide) (by decide)
  | datetime => exact key _ 'e' (by decide) (by decide)
  | _ => exact absurd h (by simp [Atomic])

theorem name_ne_nil (t : SqlType) : t.name ≠ [] := by
  obtain ⟨c, h, _⟩ := name_head t
  intro hn; rw [hn] at h; simp at h

theorem dispatch_num (t : NumTy) : dispatch t.name = .ok (.num t) := by cases t <;> decide
theorem dispatch_ip (k : IpKind) : dispatch (SqlType.ip k).name = .ok (.ip k) := by cases k <;> decide
theorem dispatch_string : dispatch "String".toList = .ok .string := by decide
theorem dispatch_date : dispatch "Date".toList = .ok .date := by decide

/-- One step of `resolve`. -/
def headPlan (known : Tz → Bool) (tz : Tz) (h : Head) : Plan :=
  match h with
  | .num t => .num t
  | .string => .string
  | .date => .date tz
  | .ip k => .ip k
  | .nullable i => .nullable (resolve known tz i)
  | .fixedString n => .fixed n
  | .array i => .array (resolve known tz i)
  | .map k v => .map (resolve known tz k) (resolve known tz v)
  | .decimal p sc nb => .decimal p sc nb
  | .enum w items => .enum w items
  | .datetime none => .datetime tz
  | .datetime (some z) => if known z then .datetime z else .bad (.other "timezone")
  | .dt64 p none => .dt64 p tz
  | .dt64 p (some z) => if known z then .dt64 p z else .bad (.other "timezone")
  | .simpleAgg f i => .simpleAgg f (resolve known tz i)
  | .lowCard i => .lowCard (resolve known tz i)
  | .unsupported => .bad (.other "Unsupported column type")

theorem resolve_of {known : Tz → Bool} {tz : Tz} {s : Str} {h : Head} (hd : dispatch s = .ok h) :
    resolve known tz s = headPlan known tz h := by
  rw [resolve]
  split <;> (rename_i heq; rw [hd] at heq; first | (cases heq; rfl) | (simp at heq))

theorem resolve_name {known : Tz → Bool} (tz : Tz) {t : SqlType} (h : Nameable known t) :
    resolve known tz t.name = planOf tz t := by
  induction t with
  | num t => rw [name_num, resolve_of (dispatch_num t)]; rfl
  | ip k => rw [resolve_of (dispatch_ip k)]; rfl
  | string => rw [name_string, resolve_of dispatch_string]; rfl
  | date => rw [name_date, resolve_of dispatch_date]; rfl
  | datetime => rw [name_datetime, resolve_of dispatch_datetime]; rfl
  | chrono => exact absurd h (by simp [Nameable])
  | fixedString n => rw [name_fixedString, resolve_of (dispatch_fixedString h)]; rfl
  | dt64 p z =>
    obtain ⟨h1, h2, h3⟩ := h
    rw [name_dt64, resolve_of (dispatch_dt64 h1 h3)]
    simp [headPlan, h2, planOf]
  | nullable t ih =>
    rw [name_nullable, resolve_of (dispatch_nullable (name_not_nullable h.2)), headPlan, planOf, ← ih h.1]
  | array t ih => rw [name_array, resolve_of (dispatch_array _), headPlan, planOf, ← ih h]
  | lowCard t ih =>
    rw [name_lowCard, resolve_of (dispatch_lowCard_raw _), trim_trimmed (name_trimmed t), headPlan, planOf, ← ih h]
  | decimal p s => rw [name_decimal, resolve_of (dispatch_decimal h.1 h.2)]; rfl
  | enum w items =>
    obtain ⟨hne, hit⟩ := h
    cases w with
    | w8 =>
      have hb := enumBody_written items hne (fun it hi => ⟨(hit it hi).1, by have := (hit it hi).2.1; omega,
        by have := (hit it hi).2.2; omega⟩)
      rw [name_enum8, resolve_of (dispatch_enum8 (enumNames_head items hne) hb), map_asI8 (fun it hi => (hit it hi).2)]
      rfl
    | w16 =>
      have hb := enumBody_written items hne (fun it hi => ⟨(hit it hi).1, by have := (hit it hi).2.1; omega,
        by have := (hit it hi).2.2; omega⟩)
      rw [name_enum16, resolve_of (dispatch_enum16 (enumNames_head items hne) hb)]
      rfl
  | simpleAgg f t ih =>
    have h' : Atomic t := h
    have hn : Nameable known t := by cases t <;> first | trivial | exact absurd h' (by simp [Atomic])
    rw [name_simpleAgg, resolve_of (dispatch_simpleAgg f (name_trimmed t) (name_ne_nil t) (atomic_last h')), headPlan,
      planOf, ← ih hn]
  | map k v ihk ihv =>
    obtain ⟨h1, h2, h3⟩ := h
    rw [name_map, resolve_of (dispatch_map (keyLike_chars h2) (name_trimmed k) (name_trimmed v)), headPlan, planOf,
      ← ihk h1, ← ihv h3]

/-! Names that never crash the parser. -/

theorem startsWith_false {s p : Str} (h : ¬ p <+: s) : startsWith s p = false := by
  rw [startsWith, Bool.eq_false_iff]
  intro hp; exact h (List.isPrefixOf_iff_prefix.mp hp)

theorem parseLowCard_none {s : Str} (h : startsWith s "LowCardinality".toList = false) : parseLowCard s = .ok none := by
  unfold parseLowCard; rw [if_neg (by rw [h]; decide)]

theorem leaf_no_crash {known : Tz → Bool} (tz : Tz) {s : Str} (h : ∀ k ∈ wrapKeywords, ¬ k <+: s) :
    ¬ crashes (resolve known tz s) := by
  have hs := fun k hk => startsWith_false (h k hk)
  have h1 := parseNullable_none (hs "Nullable".toList (by decide))
  have h2 := parseFixedString_none (hs "FixedString".toList (by decide))
  have h3 := parseArray_none (hs "Array".toList (by decide))
  have h4 := parseMap_none (hs "Map".toList (by decide))
  have h5 := parseLowCard_none (hs "LowCardinality".toList (by decide))
  have h6 : parseSimpleAgg s = none := by
    apply parseSimpleAgg_none
    apply startsWith_false
    intro hp
    exact h "SimpleAggregateFunction".toList (by decide) (List.IsPrefix.trans (by decide) hp)
  have hd : ∃ hd, dispatch s = .ok hd ∧ hd.inners = [] := by
    unfold dispatch
    rw [h1, h2, h3, h4, h5, h6]
    cases hl : lookupSimple s simpleNames with
    | some hd =>
      obtain ⟨n, hn⟩ := lookupSimple_inners hl
      exact ⟨hd, rfl, simpleNames_inners _ hn⟩
    | none =>
      simp only
      cases parseDecimal s <;> simp only
      · cases parseEnum8 s <;> simp only
        · cases parseEnum16 s <;> simp only
          · cases parseDateTime s <;> simp only
            · cases parseDateTime64 s <;> exact ⟨_, rfl, rfl⟩
            · exact ⟨_, rfl, rfl⟩
          · exact ⟨_, rfl, rfl⟩
        · exact ⟨_, rfl, rfl⟩
      · exact ⟨_, rfl, rfl⟩
  obtain ⟨hd, hd1, hd2⟩ := hd
  rw [resolve_of hd1]
  cases hd with
  | datetime z =>
    cases z with
    | none => simp [headPlan, crashes]
    | some z => simp only [headPlan]; split <;> simp [crashes]
  | dt64 p z =>
    cases z with
    | none => simp [headPlan, crashes]
    | some z => simp only [headPlan]; split <;> simp [crashes]
  | nullable i => simp [Head.inners] at hd2
  | array i => simp [Head.inners] at hd2
  | map k v => simp [Head.inners] at hd2
  | simpleAgg f i => simp [Head.inners] at hd2
  | lowCard i => simp [Head.inners] at hd2
  | _ => simp [headPlan, crashes]

theorem wrap_trimmed (p i : Str) (h : p.head?.map isWs = some false) : trim (p ++ i ++ [')']) = p ++ i ++ [')'] := by
  apply trim_trimmed
  refine ⟨fun d hd => ?_, fun d hd => ?_⟩
  · cases p with
    | nil => simp at h
    | cons c p => simp at hd h; subst hd; exact h
  · rw [List.getLast?_append] at hd; simp at hd; subst hd; decide

theorem sane_no_crash {known : Tz → Bool} (tz : Tz) (t : TypeExpr) (h : t.Sane) :
    ¬ crashes (resolve known tz t.text) ∧ ¬ crashes (resolve known tz (trim t.text)) := by
  induction t with
  | leaf s => exact ⟨leaf_no_crash tz (fun k hk => (h k hk).1), leaf_no_crash tz (fun k hk => (h k hk).2)⟩
  | nullable t ih =>
    rw [text_nullable, wrap_trimmed _ _ (by decide), and_self]
    by_cases hp : "Nullable".toList <+: t.text
    · -- `Nullable(Nullable…` falls through to the end of the dispatch
      have hu : dispatch ("Nullable(".toList ++ t.text ++ [')']) = .ok .unsupported := by
        have hl := lookupSimple_paren (s := "Nullable(".toList ++ t.text ++ [')']) (by simp)
        have hn : parseNullable ("Nullable(".toList ++ t.text ++ [')']) = .ok none := by
          unfold parseNullable
          rw [if_pos (by simp [startsWith]), sliceBytes_wrap _ _ _ (by decide) (by decide)]
          simp only
          exact if_pos (List.isPrefixOf_iff_prefix.mpr hp)
        have hw : isWs 'N' = false := by decide
        unfold dispatch
        rw [hl, hn, parseFixedString_none (by simp [startsWith, List.isPrefixOf]),
          parseArray_none (by simp [startsWith, List.isPrefixOf]), parseMap_none (by simp [startsWith, List.isPrefixOf]),
          parseDecimal_none (by simp [startsWith, List.isPrefixOf]),
          parseEnum8_none (c := 'N') (by simp) hw (by decide), parseEnum16_none (c := 'N') (by simp) hw (by decide),
          parseDateTime_none (c := 'N') (by simp) hw (by decide) (by decide),
          parseDateTime64_none (c := 'N') (by simp) hw (by decide),
          parseSimpleAgg_none (by simp [startsWith, List.isPrefixOf]),
          parseLowCard_none (by simp [startsWith, List.isPrefixOf])]
      rw [resolve_of hu]; simp [headPlan, crashes]
    · rw [resolve_of (dispatch_nullable hp)]
      exact (ih h).1
  | array t ih =>
    rw [text_array, wrap_trimmed _ _ (by decide), and_self, resolve_of (dispatch_array _)]
    exact (ih h).1
  | lowCard t ih =>
    rw [text_lowCard, wrap_trimmed _ _ (by decide), and_self, resolve_of (dispatch_lowCard_raw _)]
    exact (ih h).2
  | fixedString a =>
    rw [text_fixedString, wrap_trimmed _ _ (by decide), and_self]
    have hl := lookupSimple_paren (s := "FixedString(".toList ++ a ++ [')']) (by simp)
    have hf : parseFixedString ("FixedString(".toList ++ a ++ [')']) = .ok (parseUnsigned (2 ^ 64) a) := by
      unfold parseFixedString
      rw [if_pos (by simp [startsWith]), sliceBytes_wrap _ _ _ (by decide) (by decide)]
    have hw : isWs 'F' = false := by decide
    have hd : ∃ hd, dispatch ("FixedString(".toList ++ a ++ [')']) = .ok hd ∧ (hd = .unsupported ∨ ∃ n, hd = .fixedString n) := by
      unfold dispatch
      rw [hl, parseNullable_none (by simp [startsWith, List.isPrefixOf]), hf]
      cases parseUnsigned (2 ^ 64) a with
      | some n => exact ⟨_, rfl, Or.inr ⟨n, rfl⟩⟩
      | none =>
        simp only
        rw [parseArray_none (by simp [startsWith, List.isPrefixOf]), parseMap_none (by simp [startsWith, List.isPrefixOf]),
          parseDecimal_none (by simp [startsWith, List.isPrefixOf]),
          parseEnum8_none (c := 'F') (by simp) hw (by decide), parseEnum16_none (c := 'F') (by simp) hw (by decide),
          parseDateTime_none (c := 'F') (by simp) hw (by decide) (by decide),
          parseDateTime64_none (c := 'F') (by simp) hw (by decide),
          parseSimpleAgg_none (by simp [startsWith, List.isPrefixOf]),
          parseLowCard_none (by simp [startsWith, List.isPrefixOf])]
        exact ⟨_, rfl, Or.inl rfl⟩
    obtain ⟨hd, h1, h2⟩ := hd
    rw [resolve_of h1]
    rcases h2 with rfl | ⟨n, rfl⟩ <;> simp [headPlan, crashes]
  | map k t ih =>
    obtain ⟨h1, h2, h3⟩ := h
    have he : (TypeExpr.map k t).text = "Map(".toList ++ (k ++ ", ".toList ++ t.text) ++ [')'] := by rw [text_map]; simp only [List.append_assoc]
    have hr : ¬ crashes (resolve known tz (TypeExpr.map k t).text) := by
      rw [text_map, resolve_of (dispatch_map_raw h2)]
      simp only [headPlan, crashes, not_or]
      exact ⟨leaf_no_crash tz (fun kw hkw => (h1 kw hkw).2), (ih h3).2⟩
    rw [he, wrap_trimmed _ _ (by decide), and_self, ← he]
    exact hr

/-! Enum declarations of a server. -/

theorem enumEntries_head (items : List (Str × Int)) (hne : items ≠ []) :
    ∃ c cs, enumEntries items = c :: cs ∧ isWs c = false := by
  cases items with
  | nil => contradiction
  | cons it rest =>
    cases rest with
    | nil => exact ⟨'\'', _, by simp [enumEntries, enumEntry]; rfl, by decide⟩
    | cons b rest => exact ⟨'\'', _, by simp [enumEntries, enumEntry]; rfl, by decide⟩

theorem enumInteger_big {v : Int} (h : ¬ (-(2 ^ 15) ≤ v ∧ v < 2 ^ 15)) (r : Str)
    (hr : ∀ c, r.head? = some c → isDigitC c = false) : enumInteger (intChars v ++ r) = none := by
  have hd := natChars_digits v.natAbs
  have hne := natChars_ne_nil v.natAbs
  by_cases hv : v < 0
  · have : intChars v ++ r = '-' :: (natChars v.natAbs ++ r) := by simp [intChars, hv]
    rw [this]
    have h1 : enumInteger ('-' :: (natChars v.natAbs ++ r)) =
        (parseSigned (2 ^ 15) ('-' :: natChars v.natAbs)).map fun v => (v, r) := by
      simp [enumInteger, optMinus, digits1_natChars _ r hr]
    rw [h1]
    have h2 : splitSign ('-' :: natChars v.natAbs) = (true, natChars v.natAbs) := by
      simp [splitSign]
    unfold parseSigned
    simp only [h2]
    rw [if_neg (by simpa using hne), if_pos (natChars_digits_all _), digitsVal_natChars]
    simp only [if_true]
    rw [if_neg (by omega)]
    rfl
  · have : intChars v ++ r = natChars v.natAbs ++ r := by simp [intChars, hv]
    rw [this]
    have hsg : splitSign (natChars v.natAbs) = (false, natChars v.natAbs) := by
      cases hn : natChars v.natAbs with
      | nil => rfl
      | cons c cs =>
        have hc := hd c (by simp [hn])
        have h1 : c ≠ '-' := isDigitC_ne hc (by decide)
        have h2 : c ≠ '+' := isDigitC_ne hc (by decide)
        simp [splitSign, h1, h2]
    have hom : optMinus (natChars v.natAbs ++ r) = ([], natChars v.natAbs ++ r) := by
      cases hn : natChars v.natAbs with
      | nil => exact absurd hn hne
      | cons c cs =>
        have hc := hd c (by simp [hn])
        have h1 : c ≠ '-' := isDigitC_ne hc (by decide)
        simp [optMinus, h1]
    unfold enumInteger
    simp only [hom, digits1_natChars _ r hr, List.nil_append]
    unfold parseSigned
    simp only [hsg]
    rw [if_neg (by simpa using hne), if_pos (natChars_digits_all _), digitsVal_natChars]
    rw [if_neg (by simp), if_neg (by omega)]
    rfl

theorem enumPair_big {it : Str × Int} (h : ¬ (-(2 ^ 15) ≤ it.2 ∧ it.2 < 2 ^ 15)) {c : Char} (r : Str)
    (hc : isDigitC c = false) (pre : Str) (hpre : ∀ c ∈ pre, isWs c = true) :
    enumPair (pre ++ enumEntry it ++ c :: r) = none := by
  have hs : skipWs (pre ++ enumEntry it ++ c :: r) = enumEntry it ++ c :: r := by
    rw [skipWs, List.append_assoc, List.dropWhile_append_of_pos hpre]
    exact skipWs_cons (by decide) _
  unfold enumPair
  rw [hs]
  have he : enumEntry it ++ c :: r = '\'' :: (escapeQ it.1 ++ '\'' :: (' ' :: '=' :: ' ' :: (intText it.2 ++ c :: r))) := by
    simp [enumEntry]
  rw [he, word_escape]
  simp only [Option.bind_eq_bind, Option.bind_some]
  rw [skipWs_space, skipWs_cons (by decide)]
  simp only [tok, if_true, Option.bind_some]
  rw [skipWs_space, intText_skipWs, ← intChars_eq_intText, enumInteger_big h]
  · rfl
  · intro d hd; simp at hd; subst hd; exact hc

theorem enumBody_big (items : List (Str × Int)) (h : ∃ it ∈ items, ¬ (-(2 ^ 15) ≤ it.2 ∧ it.2 < 2 ^ 15))
    (pre : Str) (hpre : ∀ c ∈ pre, isWs c = true) : enumBody (pre ++ enumEntries items ++ [')']) = none := by
  induction items generalizing pre with
  | nil => simp at h
  | cons it rest ih =>
    rw [enumBody]
    cases rest with
    | nil =>
      simp at h
      have := enumPair_big (it := it) (by simpa using h) (c := ')') [] (by decide) pre hpre
      simp only [enumEntries]
      rw [this]
    | cons b rest =>
      have hsplit : pre ++ enumEntries (it :: b :: rest) ++ [')'] =
          pre ++ enumEntry it ++ ',' :: (' ' :: (enumEntries (b :: rest) ++ [')'])) := by
        simp [enumEntries]
      by_cases hit : -(2 ^ 15) ≤ it.2 ∧ it.2 < 2 ^ 15
      · have hp := enumPair_entry hit.1 hit.2 (c := ',') (' ' :: (enumEntries (b :: rest) ++ [')'])) (by decide) (by decide)
          pre hpre
        rw [← hsplit] at hp
        rw [hp]
        have hrest : ∃ it ∈ b :: rest, ¬ (-(2 ^ 15) ≤ it.2 ∧ it.2 < 2 ^ 15) := by
          obtain ⟨x, hx, hx2⟩ := h
          rcases List.mem_cons.mp hx with rfl | hx
          · exact absurd hit hx2
          · exact ⟨x, hx, hx2⟩
        have := ih hrest [' '] (by simp; decide)
        simp only [List.cons_append, List.nil_append] at this
        simp [tok, this]
      · have hp := enumPair_big hit (c := ',') (' ' :: (enumEntries (b :: rest) ++ [')'])) (by decide) pre hpre
        rw [← hsplit] at hp
        rw [hp]

theorem parseEnum_of_none {kw body : Str} (hkw : ∀ c, kw.head? = some c → isWs c = false)
    (hne : kw ≠ []) (hb : ∃ c cs, body = c :: cs ∧ isWs c = false)
    (h : enumBody (body ++ [')']) = none) :
    parseEnum kw (kw ++ '(' :: body ++ [')']) = none := by
  obtain ⟨c, cs, rfl, hc⟩ := hb
  unfold parseEnum
  cases kw with
  | nil => contradiction
  | cons k kw =>
    have hk := hkw k (by simp)
    have h1 : skipWs (k :: kw ++ '(' :: (c :: cs) ++ [')']) = (k :: kw) ++ ('(' :: (c :: cs) ++ [')']) := by
      simp [skipWs, hk]
    rw [h1, strTok_append]
    have hp : isWs '(' = false := by decide
    simp only [Option.bind_eq_bind, Option.bind_some, List.cons_append, skipWs_cons hp, tok, if_true, skipWs_cons hc]
    simp only [List.cons_append] at h
    rw [h]
    rfl

theorem enumDecl_w8 (items : List (Str × Int)) : enumDecl .w8 items = "Enum8(".toList ++ enumEntries items ++ [')'] := rfl
theorem enumDecl_w16 (items : List (Str × Int)) : enumDecl .w16 items = "Enum16(".toList ++ enumEntries items ++ [')'] := rfl

theorem dispatch_enum_none {body : Str} (hb : ∃ c cs, body = c :: cs ∧ isWs c = false)
    (h : enumBody (body ++ [')']) = none) :
    dispatch ("Enum8(".toList ++ body ++ [')']) = .ok .unsupported ∧
    dispatch ("Enum16(".toList ++ body ++ [')']) = .ok .unsupported := by
  have hw : isWs 'E' = false := by decide
  constructor
  case left =>
    have hl := lookupSimple_paren (s := "Enum8(".toList ++ body ++ [')']) (by simp)
    have he : parseEnum8 ("Enum8(".toList ++ body ++ [')']) = none := by
      have := parseEnum_of_none (kw := "Enum8".toList) (by simp; decide) (by decide) hb h
      unfold parseEnum8
      have e : "Enum8(".toList ++ body ++ [')'] = "Enum8".toList ++ '(' :: body ++ [')'] := by simp
      rw [e, this]; rfl
    have h16 : parseEnum16 ("Enum8(".toList ++ body ++ [')']) = none := by
      simp [parseEnum16, parseEnum, skipWs, hw, strTok, tok]
    unfold dispatch
    rw [hl, parseNullable_none (by simp [startsWith, List.isPrefixOf]),
      parseFixedString_none (by simp [startsWith, List.isPrefixOf]),
      parseArray_none (by simp [startsWith, List.isPrefixOf]), parseMap_none (by simp [startsWith, List.isPrefixOf]),
      parseDecimal_none (by simp [startsWith, List.isPrefixOf]), he, h16,
      parseDateTime_none (c := 'E') (by simp) hw (by decide) (by decide),
      parseDateTime64_none (c := 'E') (by simp) hw (by decide), parseSimpleAgg_none (by simp [startsWith, List.isPrefixOf]),
      parseLowCard_none (by simp [startsWith, List.isPrefixOf])]
  case right =>
    have hl := lookupSimple_paren (s := "Enum16(".toList ++ body ++ [')']) (by simp)
    have he : parseEnum16 ("Enum16(".toList ++ body ++ [')']) = none := by
      have := parseEnum_of_none (kw := "Enum16".toList) (by simp; decide) (by decide) hb h
      unfold parseEnum16
      have e : "Enum16(".toList ++ body ++ [')'] = "Enum16".toList ++ '(' :: body ++ [')'] := by simp
      rw [e, this]
    have h8 : parseEnum8 ("Enum16(".toList ++ body ++ [')']) = none := by
      simp [parseEnum8, parseEnum, skipWs, hw, strTok, tok]
    unfold dispatch
    rw [hl, parseNullable_none (by simp [startsWith, List.isPrefixOf]),
      parseFixedString_none (by simp [startsWith, List.isPrefixOf]),
      parseArray_none (by simp [startsWith, List.isPrefixOf]), parseMap_none (by simp [startsWith, List.isPrefixOf]),
      parseDecimal_none (by simp [startsWith, List.isPrefixOf]), h8, he,
      parseDateTime_none (c := 'E') (by simp) hw (by decide) (by decide),
      parseDateTime64_none (c := 'E') (by simp) hw (by decide), parseSimpleAgg_none (by simp [startsWith, List.isPrefixOf]),
      parseLowCard_none (by simp [startsWith, List.isPrefixOf])]

end CH
