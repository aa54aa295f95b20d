import Verif.Lemmas.Names2

/-! The name analysis as a whole accepts exactly the spellings of the grammar, with their meanings. -/

namespace CH
open Spec

theorem asciiLower_eq (c : Char) : asciiLower c = c.toLower := by
  unfold asciiLower Char.toLower
  by_cases h : 65 ≤ c.toNat ∧ c.toNat ≤ 90
  · have h' : c.val ≥ 'A'.val ∧ c.val ≤ 'Z'.val := by
      simp only [ge_iff_le, UInt32.le_iff_toNat_le]; exact h
    rw [if_pos h, dif_pos h']
    have : ∀ n : Fin 26, Char.ofNat (65 + n.val + 32) = (Char.ofNat (65 + n.val)).toLower := by decide
    have hn := this ⟨c.toNat - 65, by omega⟩
    have e : 65 + (c.toNat - 65) = c.toNat := by omega
    simp only [e, Char.ofNat_toNat] at hn
    rw [hn, Char.toLower, dif_pos h']
  · have h' : ¬ (c.val ≥ 'A'.val ∧ c.val ≤ 'Z'.val) := by
      simp only [ge_iff_le, UInt32.le_iff_toNat_le]; exact h
    rw [if_neg h, dif_neg h']

theorem eqIgnoreCase_iff (a b : Str) : eqIgnoreCase a b = true ↔ SameLetters a b := by
  have : (asciiLower : Char → Char) = Char.toLower := funext asciiLower_eq
  unfold eqIgnoreCase SameLetters
  rw [this, beq_iff_eq]

theorem lookupSimple_same {s t : Str} (h : SameLetters s t) (l : List (Str × Head)) :
    lookupSimple s l = lookupSimple t l := by
  induction l with
  | nil => rfl
  | cons p rest ih =>
    obtain ⟨n, hd⟩ := p
    have : eqIgnoreCase s n = eqIgnoreCase t n := by
      rw [Bool.eq_iff_iff, eqIgnoreCase_iff, eqIgnoreCase_iff]
      unfold SameLetters at h ⊢
      rw [h]
    rw [lookupSimple, lookupSimple, this, ih]

theorem lookupSimple_split {s : Str} {l : List (Str × Head)} {h : Head} (hl : lookupSimple s l = some h) :
    ∃ n, (n, h) ∈ l ∧ SameLetters s n := by
  induction l with
  | nil => simp [lookupSimple] at hl
  | cons p rest ih =>
    obtain ⟨n, hd⟩ := p
    rw [lookupSimple] at hl
    split at hl
    · rename_i he
      simp at hl; subst hl
      exact ⟨n, by simp, (eqIgnoreCase_iff _ _).mp he⟩
    · obtain ⟨m, h1, h2⟩ := ih hl
      exact ⟨m, by simp [h1], h2⟩

/-- Keywords that occur in no simple name. -/
def kws : List Str :=
  ["Nullable".toList, "FixedString".toList, "Array".toList, "Map".toList, "Decimal".toList, "Enum8".toList, "Enum16".toList,
   "DateTime".toList, "Timestamp".toList, "SimpleAggregateFunction(".toList, "LowCardinality".toList]

theorem lookupSimple_kw {s kw : Str} (hk : kw ∈ kws) (h : kw <:+: s) : lookupSimple s simpleNames = none := by
  cases hl : lookupSimple s simpleNames with
  | none => rfl
  | some hd =>
    exfalso
    obtain ⟨n, hn, hs⟩ := lookupSimple_split hl
    have hm : kw.map asciiLower <:+: n.map asciiLower := by
      have h1 := h.map asciiLower
      have : s.map asciiLower = n.map asciiLower := by
        have e : (asciiLower : Char → Char) = Char.toLower := funext asciiLower_eq
        rw [e]; exact hs
      rwa [this] at h1
    have key : ∀ kw ∈ kws, ∀ p ∈ simpleNames, ¬ kw.map asciiLower <:+: p.1.map asciiLower := by decide +kernel
    exact key kw hk _ hn hm

theorem startsWith_head {s kw : Str} {c d : Char} (hs : s.head? = some c) (hk : kw.head? = some d) (h : c ≠ d) :
    startsWith s kw = false := by
  rw [startsWith_not_iff]
  rintro ⟨t, rfl⟩
  cases kw with
  | nil => simp at hk
  | cons x xs => simp at hs hk; exact h (by rw [← hs, ← hk])

theorem blank_head {b r : Str} {c : Char} (hb : Blank b) (hc : isWs c = false) :
    ∃ x, (b ++ c :: r).head? = some x ∧ ∀ y, isWs y = false → y ≠ c → x ≠ y := by
  cases b with
  | nil => exact ⟨c, rfl, fun y _ h => Ne.symm h⟩
  | cons x xs =>
    refine ⟨x, rfl, ?_⟩
    rintro y hy _ rfl
    have := (blank_iff _).mp hb x (by simp)
    rw [hy] at this; cases this

theorem parseEnum_skip (kw s : Str) : parseEnum kw (skipWs s) = parseEnum kw s := by
  unfold parseEnum; rw [skipWs_skipWs]
theorem parseDateTime_skip (s : Str) : parseDateTime (skipWs s) = parseDateTime s := by
  unfold parseDateTime; rw [skipWs_skipWs]

/-- What precedes the enum parsers in the order of tests fails on names starting (after blanks) with another letter. -/
theorem early_none {s : Str} (hb : ∃ b c r, Blank b ∧ isWs c = false ∧ (c = 'E' ∨ c = 'D' ∨ c = 'T') ∧ s = b ++ c :: r) :
    parseNullable s = .ok none ∧ parseFixedString s = .ok none ∧ parseArray s = .ok none ∧ parseMap s = .ok none := by
  obtain ⟨b, c, r, hb, hc, hc', rfl⟩ := hb
  obtain ⟨x, hx, hne⟩ := blank_head (r := r) hb hc
  have h : ∀ y, isWs y = false → (y ≠ 'E' ∧ y ≠ 'D' ∧ y ≠ 'T') → x ≠ y := by
    intro y hy hy'
    refine hne y hy ?_
    rcases hc' with rfl | rfl | rfl
    · exact hy'.1
    · exact hy'.2.1
    · exact hy'.2.2
  exact ⟨parseNullable_none (startsWith_head hx (d := 'N') rfl (h _ (by decide) (by decide))),
    parseFixedString_none (startsWith_head hx (d := 'F') rfl (h _ (by decide) (by decide))),
    parseArray_none (startsWith_head hx (d := 'A') rfl (h _ (by decide) (by decide))),
    parseMap_none (startsWith_head hx (d := 'M') rfl (h _ (by decide) (by decide)))⟩

theorem decimal_blank_none {b r : Str} {c : Char} (hb : Blank b) (hc : isWs c = false) (hd : c ≠ 'D') :
    parseDecimal (b ++ c :: r) = none := by
  obtain ⟨x, hx, hne⟩ := blank_head (r := r) hb hc
  exact parseDecimal_none (startsWith_head hx (d := 'D') rfl (hne _ (by decide) (Ne.symm hd)))

theorem decimal_datetime_none {b r : Str} (hb : Blank b) : parseDecimal (b ++ ("DateTime".toList ++ r)) = none := by
  refine parseDecimal_none ?_
  cases b with
  | nil => rfl
  | cons x xs =>
    refine startsWith_head (c := x) rfl (d := 'D') rfl ?_
    rintro rfl
    exact absurd ((blank_iff _).mp hb 'D' (by simp)) (by decide)

theorem enum_blank_none {kw b r : Str} {c : Char} (hk : kw.head? = some 'E') (hb : Blank b) (hc : isWs c = false)
    (hd : c ≠ 'E') : parseEnum kw (b ++ c :: r) = none := by
  rw [← parseEnum_skip, skipWs_of hb (by intro x hx; simp at hx; subst hx; exact hc)]
  exact parseEnum_none hk rfl hc hd

theorem enum8_none_of {s : Str} (h : parseEnum "Enum8".toList s = none) : parseEnum8 s = none := by
  unfold parseEnum8; rw [h]; rfl

/-! ### Each form is recognised -/

theorem dispatch_of_nullable {s i : Str} (h : parseNullable s = .ok (some i)) : dispatch s = .ok (.nullable i) := by
  obtain ⟨c, d, _, _, _, rfl⟩ := (parseNullable_iff _ _).mp h
  have hl := lookupSimple_kw (s := "Nullable".toList ++ c :: (i ++ [d])) (kw := "Nullable".toList) (by decide)
    (List.prefix_append _ _).isInfix
  unfold dispatch
  rw [hl, h]

theorem dispatch_of_fixed {s : Str} {n : Nat} (h : parseFixedString s = .ok (some n)) : dispatch s = .ok (.fixedString n) := by
  obtain ⟨c, d, i, _, _, _, rfl⟩ := (parseFixedString_iff _ _).mp h
  have hl := lookupSimple_kw (s := "FixedString".toList ++ c :: (i ++ [d])) (kw := "FixedString".toList) (by decide)
    (List.prefix_append _ _).isInfix
  unfold dispatch
  rw [hl, parseNullable_none rfl, h]

theorem dispatch_of_array {s i : Str} (h : parseArray s = .ok (some i)) : dispatch s = .ok (.array i) := by
  obtain ⟨c, d, _, _, rfl⟩ := (parseArray_iff _ _).mp h
  have hl := lookupSimple_kw (s := "Array".toList ++ c :: (i ++ [d])) (kw := "Array".toList) (by decide)
    (List.prefix_append _ _).isInfix
  unfold dispatch
  rw [hl, parseNullable_none rfl, parseFixedString_none rfl, h]

theorem dispatch_of_map {s k v : Str} (h : parseMap s = .ok (some (k, v))) : dispatch s = .ok (.map k v) := by
  obtain ⟨r, hr⟩ : ∃ r, s = "Map".toList ++ r := by
    obtain ⟨c, d, x, a, b, k', v', _, _, _, _, _, _, _, _, rfl⟩ := (parseMap_iff _ _ _).mp h
    exact ⟨_, rfl⟩
  subst hr
  have hl := lookupSimple_kw (s := "Map".toList ++ r) (kw := "Map".toList) (by decide)
    (List.prefix_append _ _).isInfix
  unfold dispatch
  rw [hl, parseNullable_none rfl, parseFixedString_none rfl, parseArray_none rfl, h]

theorem dispatch_of_decimal {s : Str} {p sc : Nat} {nb : NoBits} (h : parseDecimal s = some (p, sc, nb)) :
    dispatch s = .ok (.decimal p sc nb) := by
  obtain ⟨r, hr⟩ : ∃ r, s = "Decimal".toList ++ r := by
    rw [← startsWith_iff]
    cases hs : startsWith s "Decimal".toList with
    | true => rfl
    | false => rw [parseDecimal_none hs] at h; cases h
  subst hr
  have hl := lookupSimple_kw (s := "Decimal".toList ++ r) (kw := "Decimal".toList) (by decide)
    (List.prefix_append _ _).isInfix
  unfold dispatch
  rw [hl, parseNullable_none rfl, parseFixedString_none rfl, parseArray_none rfl, parseMap_none rfl, h]

theorem infix_mid (a k b : Str) : k <:+: a ++ (k ++ b) := ⟨a, b, by simp⟩

theorem dispatch_of_enum8 {s : Str} {items : List (Str × Int)} (h : parseEnum "Enum8".toList s = some items) :
    dispatch s = .ok (.enum .w8 (items.map fun (k, v) => (k, asI8 v))) := by
  obtain ⟨b1, b2, body, hb1, hb2, hb, hs⟩ := (parseEnum_iff ⟨'E', "num8".toList, rfl, by decide⟩ _ _).mp h
  have hs' : s = b1 ++ ("Enum8".toList ++ (b2 ++ '(' :: (body ++ [')']))) := by rw [hs]; simp
  have hl : lookupSimple s simpleNames = none :=
    lookupSimple_kw (kw := "Enum8".toList) (by decide) (hs' ▸ infix_mid _ _ _)
  have hE : s = b1 ++ 'E' :: ("num8".toList ++ (b2 ++ '(' :: (body ++ [')']))) := hs'
  obtain ⟨e1, e2, e3, e4⟩ := early_none (s := s) ⟨b1, 'E', _, hb1, by decide, .inl rfl, hE⟩
  have hd : parseDecimal s = none := by rw [hE]; exact decimal_blank_none hb1 (by decide) (by decide)
  unfold dispatch
  rw [hl, e1, e2, e3, e4, hd, parseEnum8, h]
  rfl

theorem dispatch_of_enum16 {s : Str} {items : List (Str × Int)} (h : parseEnum "Enum16".toList s = some items) :
    dispatch s = .ok (.enum .w16 items) := by
  obtain ⟨b1, b2, body, hb1, hb2, hb, hs⟩ := (parseEnum_iff ⟨'E', "num16".toList, rfl, by decide⟩ _ _).mp h
  have hs' : s = b1 ++ ("Enum16".toList ++ (b2 ++ '(' :: (body ++ [')']))) := by rw [hs]; simp
  have hl : lookupSimple s simpleNames = none :=
    lookupSimple_kw (kw := "Enum16".toList) (by decide) (hs' ▸ infix_mid _ _ _)
  have hE : s = b1 ++ 'E' :: ("num16".toList ++ (b2 ++ '(' :: (body ++ [')']))) := hs'
  obtain ⟨e1, e2, e3, e4⟩ := early_none (s := s) ⟨b1, 'E', _, hb1, by decide, .inl rfl, hE⟩
  have hd : parseDecimal s = none := by rw [hE]; exact decimal_blank_none hb1 (by decide) (by decide)
  have h8 : parseEnum8 s = none := by
    refine enum8_none_of ?_
    rw [← parseEnum_skip, hE, skipWs_of hb1 (by intro x hx; simp at hx; subst hx; decide)]
    rfl
  unfold dispatch
  rw [hl, e1, e2, e3, e4, hd, h8, parseEnum16, h]

theorem dispatch_of_datetime {s : Str} {z : Option Str} (h : parseDateTime s = some z) :
    dispatch s = .ok (.datetime z) := by
  obtain ⟨b, kw, arg, hb, hk, ha, hs⟩ := (parseDateTime_iff _ _).mp h
  have hs' : s = b ++ (kw ++ arg) := by rw [hs]; simp
  have hl : lookupSimple s simpleNames = none := by
    rcases hk with rfl | rfl
    · exact lookupSimple_kw (kw := "DateTime".toList) (by decide) (hs' ▸ infix_mid _ _ _)
    · exact lookupSimple_kw (kw := "Timestamp".toList) (by decide) (hs' ▸ infix_mid _ _ _)
  have hc : ∃ c r, isWs c = false ∧ (c = 'D' ∨ c = 'T') ∧ s = b ++ c :: r := by
    rcases hk with rfl | rfl
    · exact ⟨'D', _, by decide, .inl rfl, hs'⟩
    · exact ⟨'T', _, by decide, .inr rfl, hs'⟩
  obtain ⟨c, r, hw, hc, hE⟩ := hc
  obtain ⟨e1, e2, e3, e4⟩ := early_none (s := s) ⟨b, c, r, hb, hw, .inr hc, hE⟩
  have hd : parseDecimal s = none := by
    rcases hk with rfl | rfl
    · rw [hs']; exact decimal_datetime_none hb
    · rw [hs']; exact decimal_blank_none (c := 'T') (r := "imestamp".toList ++ arg) hb (by decide) (by decide)
  have hne : c ≠ 'E' := by rcases hc with rfl | rfl <;> decide
  have h8 : parseEnum8 s = none := enum8_none_of (by rw [hE]; exact enum_blank_none rfl hb hw hne)
  have h16 : parseEnum16 s = none := by rw [hE]; exact enum_blank_none rfl hb hw hne
  unfold dispatch
  rw [hl, e1, e2, e3, e4, hd, h8, h16, h]

theorem dispatch_of_dt64 {s : Str} {p : Nat} {z : Option Str} (h : parseDateTime64 s = some (p, z)) :
    dispatch s = .ok (.dt64 p z) := by
  obtain ⟨b, r, hb, hs⟩ : ∃ b r, Blank b ∧ s = b ++ ("DateTime64".toList ++ r) := by
    obtain ⟨b1, b2, b3, b4, b5, d, arg, hb1, hb2, hb3, hb4, hb5, hn, h32, ha, rfl⟩ := (parseDateTime64_iff _ _ _).mp h
    exact ⟨b1, b2 ++ '(' :: (b3 ++ d ++ b4 ++ arg ++ b5 ++ [')']), hb1, by simp⟩
  have hs2 : s = b ++ ("DateTime".toList ++ ('6' :: '4' :: r)) := hs
  have hl : lookupSimple s simpleNames = none :=
    lookupSimple_kw (kw := "DateTime".toList) (by decide) (hs2 ▸ infix_mid _ _ _)
  have hE : s = b ++ 'D' :: ("ateTime64".toList ++ r) := hs
  obtain ⟨e1, e2, e3, e4⟩ := early_none (s := s) ⟨b, 'D', _, hb, by decide, .inr (.inl rfl), hE⟩
  have hd : parseDecimal s = none := by rw [hs2]; exact decimal_datetime_none hb
  have h8 : parseEnum8 s = none := enum8_none_of (by rw [hE]; exact enum_blank_none rfl hb (by decide) (by decide))
  have h16 : parseEnum16 s = none := by rw [hE]; exact enum_blank_none rfl hb (by decide) (by decide)
  have hdt : parseDateTime s = none := by
    rw [← parseDateTime_skip, hE, skipWs_of hb (by intro x hx; simp at hx; subst hx; decide)]
    rfl
  unfold dispatch
  rw [hl, e1, e2, e3, e4, hd, h8, h16, hdt, h]

theorem dispatch_of_simpleAgg {s : Str} {g : AggFunc} {t : Str} (h : parseSimpleAgg s = some (g, t)) :
    dispatch s = .ok (.simpleAgg g t) := by
  obtain ⟨r, hr⟩ : ∃ r, s = "SimpleAggregateFunction(".toList ++ r := by
    rw [← startsWith_iff]
    cases hs : startsWith s "SimpleAggregateFunction(".toList with
    | true => rfl
    | false => rw [parseSimpleAgg_none hs] at h; cases h
  subst hr
  have hl := lookupSimple_kw (s := "SimpleAggregateFunction(".toList ++ r) (kw := "SimpleAggregateFunction(".toList)
    (by decide) (List.prefix_append _ _).isInfix
  unfold dispatch
  rw [hl, parseNullable_none rfl, parseFixedString_none rfl, parseArray_none rfl, parseMap_none rfl, parseDecimal_none rfl,
    parseEnum8_none (c := 'S') rfl (by decide) (by decide), parseEnum16_none (c := 'S') rfl (by decide) (by decide),
    parseDateTime_none (c := 'S') rfl (by decide) (by decide) (by decide),
    parseDateTime64_none (c := 'S') rfl (by decide) (by decide), h]

theorem dispatch_of_lowCard {s t : Str} (h : parseLowCard s = .ok (some t)) : dispatch s = .ok (.lowCard t) := by
  obtain ⟨r, hr⟩ : ∃ r, s = "LowCardinality".toList ++ r := by
    rw [← startsWith_iff]
    cases hs : startsWith s "LowCardinality".toList with
    | true => rfl
    | false => rw [parseLowCard_none hs] at h; cases h
  subst hr
  have hl := lookupSimple_kw (s := "LowCardinality".toList ++ r) (kw := "LowCardinality".toList) (by decide)
    (List.prefix_append _ _).isInfix
  unfold dispatch
  rw [hl, parseNullable_none rfl, parseFixedString_none rfl, parseArray_none rfl, parseMap_none rfl, parseDecimal_none rfl,
    parseEnum8_none (c := 'L') rfl (by decide) (by decide), parseEnum16_none (c := 'L') rfl (by decide) (by decide),
    parseDateTime_none (c := 'L') rfl (by decide) (by decide) (by decide),
    parseDateTime64_none (c := 'L') rfl (by decide) (by decide), parseSimpleAgg_none rfl, h]

/-- Where a recognised head comes from. -/
def Source (s : Str) : Head → Prop
  | .nullable i => parseNullable s = .ok (some i)
  | .fixedString n => parseFixedString s = .ok (some n)
  | .array i => parseArray s = .ok (some i)
  | .map k v => parseMap s = .ok (some (k, v))
  | .decimal p sc nb => parseDecimal s = some (p, sc, nb)
  | .enum .w8 items => parseEnum8 s = some items
  | .enum .w16 items => parseEnum16 s = some items
  | .datetime z => parseDateTime s = some z
  | .dt64 p z => parseDateTime64 s = some (p, z)
  | .simpleAgg f i => parseSimpleAgg s = some (f, i)
  | .lowCard i => parseLowCard s = .ok (some i)
  | .unsupported => True
  | _ => False

theorem dispatch_source {s : Str} {h : Head} (hd : dispatch s = .ok h) :
    lookupSimple s simpleNames = some h ∨ Source s h := by
  unfold dispatch at hd
  split at hd
  · rename_i h' hl
    simp at hd; subst hd; exact .inl hl
  · right
    split at hd
    · cases hd
    · cases hd
    · cases hd; assumption
    · split at hd
      · cases hd
      · cases hd
      · cases hd; assumption
      · split at hd
        · cases hd
        · cases hd
        · cases hd; assumption
        · split at hd
          · cases hd
          · cases hd
          · cases hd; assumption
          · split at hd
            · cases hd; assumption
            · split at hd
              · cases hd; assumption
              · split at hd
                · cases hd; assumption
                · split at hd
                  · cases hd; assumption
                  · split at hd
                    · cases hd; assumption
                    · split at hd
                      · cases hd; assumption
                      · split at hd
                        · cases hd
                        · cases hd
                        · cases hd; assumption
                        · cases hd; trivial

/-! ### The whole analysis -/

theorem plain_lookup (known : Tz → Bool) (tz : Tz) : ∀ q ∈ plainNames tz,
    ∃ hd, lookupSimple q.1.toList simpleNames = some hd ∧ headPlan known tz hd = q.2 ∧ Complete q.2 := by
  simp only [plainNames, List.forall_mem_cons]
  repeat' refine And.intro ?_ ?_
  all_goals first | exact ⟨_, rfl, rfl, trivial⟩ | simp

theorem lookup_plain (known : Tz → Bool) (tz : Tz) : ∀ q ∈ simpleNames,
    ∃ m : String, (m, headPlan known tz q.2) ∈ plainNames tz ∧ m.toList = q.1 := by
  simp only [simpleNames, List.forall_mem_cons]
  repeat' refine And.intro ?_ ?_
  all_goals first | exact ⟨_, by simp [plainNames, headPlan]; rfl, rfl⟩ |
    (refine ⟨String.ofList _, ?_, String.toList_ofList⟩; simp [plainNames, headPlan]) | simp

theorem spells_resolve {known : Tz → Bool} {tz : Tz} {s : Str} {p : Plan} (h : Spells known tz s p) :
    resolve known tz s = p ∧ Complete p := by
  induction h with
  | @plain n s p h hs =>
    obtain ⟨hd, h1, h2, h3⟩ := plain_lookup known tz _ h
    have : dispatch s = .ok hd := by
      unfold dispatch; rw [lookupSimple_same hs, h1]
    rw [resolve_of this]
    exact ⟨h2, h3⟩
  | nullable hc hd hn _ ih =>
    rw [resolve_of (dispatch_of_nullable ((parseNullable_iff _ _).mpr ⟨_, _, hc, hd, hn, rfl⟩)), headPlan, ih.1]
    exact ⟨rfl, ih.2⟩
  | fixed hc hd h =>
    rw [resolve_of (dispatch_of_fixed ((parseFixedString_iff _ _).mpr ⟨_, _, _, hc, hd, h, rfl⟩)), headPlan]
    exact ⟨rfl, trivial⟩
  | array hc hd _ ih =>
    rw [resolve_of (dispatch_of_array ((parseArray_iff _ _).mpr ⟨_, _, hc, hd, rfl⟩)), headPlan, ih.1]
    exact ⟨rfl, ih.2⟩
  | map hc hd hx ha hab hlen hk hv _ _ ih1 ih2 =>
    rw [resolve_of (dispatch_of_map ((parseMap_iff _ _ _).mpr ⟨_, _, _, _, _, _, _, hc, hd, hx, ha, hab, hlen, hk, hv, rfl⟩)),
      headPlan, ih1.1, ih2.1]
    exact ⟨rfl, ih1.2, ih2.2⟩
  | decimal hx hy hp hs hsp h18 hj =>
    rw [resolve_of (dispatch_of_decimal (parseDecimal_of (.inl ⟨_, _, _, _, _, hx, hy, hp, hs, hsp, h18, hj, rfl, rfl⟩)))]
    exact ⟨rfl, trivial⟩
  | decimal32 hs hj =>
    rw [resolve_of (dispatch_of_decimal (parseDecimal_of (.inr (.inl ⟨_, _, hs, hj, rfl, rfl, rfl⟩))))]
    exact ⟨rfl, trivial⟩
  | decimal64 hs hj =>
    rw [resolve_of (dispatch_of_decimal (parseDecimal_of (.inr (.inr ⟨_, _, hs, hj, rfl, rfl, rfl⟩))))]
    exact ⟨rfl, trivial⟩
  | enum8 h1 h2 h hv =>
    rw [low8_eq hv, resolve_of (dispatch_of_enum8 ((parseEnum_iff (kw := "Enum8".toList)
      ⟨'E', "num8".toList, rfl, by decide⟩ _ _).mpr ⟨_, _, _, h1, h2, h, rfl⟩))]
    exact ⟨rfl, trivial⟩
  | enum16 h1 h2 h =>
    rw [resolve_of (dispatch_of_enum16 ((parseEnum_iff (kw := "Enum16".toList)
      ⟨'E', "num16".toList, rfl, by decide⟩ _ _).mpr ⟨_, _, _, h1, h2, h, rfl⟩))]
    exact ⟨rfl, trivial⟩
  | datetime hb hk ha hz =>
    rw [resolve_of (dispatch_of_datetime ((parseDateTime_iff _ _).mpr ⟨_, _, _, hb, hk, ha, rfl⟩))]
    cases hz with
    | given h => rw [headPlan, if_pos h]; exact ⟨rfl, trivial⟩
    | absent => exact ⟨rfl, trivial⟩
  | dt64 h1 h2 h3 h4 h5 hp h32 ha hz =>
    rw [resolve_of (dispatch_of_dt64 ((parseDateTime64_iff _ _ _).mpr
      ⟨_, _, _, _, _, _, _, h1, h2, h3, h4, h5, hp, h32, ha, rfl⟩))]
    cases hz with
    | given h => rw [headPlan, if_pos h]; exact ⟨rfl, trivial⟩
    | absent => exact ⟨rfl, trivial⟩
  | simpleAgg hps hqs hf ht hc hn hfn hl _ ih =>
    rw [resolve_of (dispatch_of_simpleAgg ((parseSimpleAgg_iff _ _ _).mpr
      ⟨_, _, _, _, _, _, hps, hqs, hf, ht, hc, hn, hfn, hl, rfl⟩)), headPlan, ih.1]
    exact ⟨rfl, ih.2⟩
  | lowCard ha hb ht _ ih =>
    rw [resolve_of (dispatch_of_lowCard ((parseLowCard_iff _ _).mpr ⟨_, _, _, ha, hb, ht, rfl⟩)), headPlan, ih.1]
    exact ⟨rfl, ih.2⟩

theorem resolve_spells (known : Tz → Bool) (tz : Tz) : ∀ (n : Nat) (s : Str), s.length = n →
    Complete (resolve known tz s) → Spells known tz s (resolve known tz s) := by
  intro n
  induction n using Nat.strongRecOn with
  | ind n ih =>
    intro s hl hc
    cases hd : dispatch s with
    | panic =>
      have : resolve known tz s = .crash := by rw [resolve]; split <;> simp_all
      rw [this] at hc; exact hc.elim
    | err e =>
      have : resolve known tz s = .bad e := by rw [resolve]; split <;> simp_all
      rw [this] at hc; exact hc.elim
    | ok h =>
      have hin := dispatch_inners hd
      rw [resolve_of hd] at hc ⊢
      rcases dispatch_source hd with hs | hs
      · obtain ⟨m, hm, hsame⟩ := lookupSimple_split hs
        obtain ⟨k, hk, he⟩ := lookup_plain known tz _ hm
        exact .plain hk (by rw [he]; exact hsame)
      · cases h with
        | num t => exact hs.elim
        | string => exact hs.elim
        | date => exact hs.elim
        | ip k => exact hs.elim
        | nullable i =>
          have hi := ih i.length (by rw [← hl]; exact hin i (by simp [Head.inners])) i rfl hc
          obtain ⟨c, d, h1, h2, h3, rfl⟩ := (parseNullable_iff _ _).mp hs
          exact .nullable h1 h2 h3 hi
        | fixedString m =>
          obtain ⟨c, d, i, h1, h2, h3, rfl⟩ := (parseFixedString_iff _ _).mp hs
          exact .fixed h1 h2 h3
        | array i =>
          have hi := ih i.length (by rw [← hl]; exact hin i (by simp [Head.inners])) i rfl hc
          obtain ⟨c, d, h1, h2, rfl⟩ := (parseArray_iff _ _).mp hs
          exact .array h1 h2 hi
        | map k v =>
          have hk := ih k.length (by rw [← hl]; exact hin k (by simp [Head.inners])) k rfl hc.1
          have hv := ih v.length (by rw [← hl]; exact hin v (by simp [Head.inners])) v rfl hc.2
          obtain ⟨c, d, x, a, b, k', v', h1, h2, h3, h4, h5, h6, h7, h8, rfl⟩ := (parseMap_iff _ _ _).mp hs
          exact .map h1 h2 h3 h4 h5 h6 h7 h8 hk hv
        | decimal p sc nb =>
          rcases parseDecimal_split hs with ⟨x, y, xs, ys, junk, hx, hy, hp, hq, hle, h18, hj, rfl, rfl⟩ |
            ⟨y, junk, hq, hj, rfl, rfl, rfl⟩ | ⟨y, junk, hq, hj, rfl, rfl, rfl⟩
          · exact .decimal hx hy hp hq hle h18 hj
          · exact .decimal32 hq hj
          · exact .decimal64 hq hj
        | enum w items =>
          cases w with
          | w8 =>
            replace hs : parseEnum8 s = some items := hs
            unfold parseEnum8 at hs
            rw [Option.map_eq_some_iff] at hs
            obtain ⟨its, he, rfl⟩ := hs
            obtain ⟨b1, b2, body, h1, h2, h3, rfl⟩ := (parseEnum_iff ⟨'E', "num8".toList, rfl, by decide⟩ _ _).mp he
            exact .enum8 h1 h2 h3 (low8_asI8 its)
          | w16 =>
            obtain ⟨b1, b2, body, h1, h2, h3, rfl⟩ := (parseEnum_iff ⟨'E', "num16".toList, rfl, by decide⟩ _ _).mp hs
            exact .enum16 h1 h2 h3
        | datetime z =>
          obtain ⟨b, kw, arg, h1, h2, h3, rfl⟩ := (parseDateTime_iff _ _).mp hs
          cases z with
          | none => exact .datetime h1 h2 h3 .absent
          | some z =>
            rw [headPlan] at hc ⊢
            by_cases hz : known z = true
            · rw [if_pos hz]; exact .datetime h1 h2 h3 (.given hz)
            · rw [if_neg hz] at hc; exact hc.elim
        | dt64 p z =>
          obtain ⟨b1, b2, b3, b4, b5, d, arg, h1, h2, h3, h4, h5, hn, h32, ha, rfl⟩ := (parseDateTime64_iff _ _ _).mp hs
          cases z with
          | none => exact .dt64 h1 h2 h3 h4 h5 hn h32 ha .absent
          | some z =>
            rw [headPlan] at hc ⊢
            by_cases hz : known z = true
            · rw [if_pos hz]; exact .dt64 h1 h2 h3 h4 h5 hn h32 ha (.given hz)
            · rw [if_neg hz] at hc; exact hc.elim
        | simpleAgg f i =>
          have hi := ih i.length (by rw [← hl]; exact hin i (by simp [Head.inners])) i rfl hc
          obtain ⟨ps, qs, f', fs, ts, m, h1, h2, h3, h4, h5, h6, h7, h8, rfl⟩ := (parseSimpleAgg_iff _ _ _).mp hs
          exact .simpleAgg h1 h2 h3 h4 h5 h6 h7 h8 hi
        | lowCard i =>
          have hi := ih i.length (by rw [← hl]; exact hin i (by simp [Head.inners])) i rfl hc
          obtain ⟨a, b, ts, h1, h2, h3, rfl⟩ := (parseLowCard_iff _ _).mp hs
          exact .lowCard h1 h2 h3 hi
        | unsupported => exact hc.elim

end CH
