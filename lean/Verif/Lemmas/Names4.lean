import Verif.Lemmas.Names3
import Verif.Lemmas.Reader

/-! Which texts make the analysis of a type name panic. -/

namespace CH
open Spec

/-- A slice between the brackets fails exactly when there are no brackets. -/
theorem sliceBytes_none_iff {kw r : Str} {n : Nat} (hn : byteLen kw = n) :
    sliceBytes (kw ++ r) (n + 1) (byteLen (kw ++ r) - 1) = none ↔
      ¬ ∃ c d i, Ascii c ∧ Ascii d ∧ r = c :: (i ++ [d]) := by
  constructor
  · rintro h ⟨c, d, i, h1, h2, h3⟩
    rw [(sliceBytes_iff hn).mpr ⟨c, d, h1, h2, h3⟩] at h; cases h
  · intro h
    cases hs : sliceBytes (kw ++ r) (n + 1) (byteLen (kw ++ r) - 1) with
    | none => rfl
    | some i =>
      obtain ⟨c, d, h1, h2, h3⟩ := (sliceBytes_iff hn).mp hs
      exact (h ⟨c, d, i, h1, h2, h3⟩).elim

theorem parseNullable_panic (s : Str) : parseNullable s = .panic ↔
    ∃ r, s = "Nullable".toList ++ r ∧ ¬ ∃ c d i, Ascii c ∧ Ascii d ∧ r = c :: (i ++ [d]) := by
  constructor
  · intro h
    unfold parseNullable at h
    split at h
    · rename_i hs
      obtain ⟨r, rfl⟩ := (startsWith_iff _ _).mp hs
      split at h
      · rename_i hi
        exact ⟨r, rfl, (sliceBytes_none_iff (kw := "Nullable".toList) (n := 8) (by decide)).mp hi⟩
      · split at h <;> simp at h
    · simp at h
  · rintro ⟨r, rfl, h⟩
    unfold parseNullable
    rw [if_pos (startsWith_append _ _), (sliceBytes_none_iff (kw := "Nullable".toList) (n := 8) (by decide)).mpr h]

theorem parseFixedString_panic (s : Str) : parseFixedString s = .panic ↔
    ∃ r, s = "FixedString".toList ++ r ∧ ¬ ∃ c d i, Ascii c ∧ Ascii d ∧ r = c :: (i ++ [d]) := by
  constructor
  · intro h
    unfold parseFixedString at h
    split at h
    · rename_i hs
      obtain ⟨r, rfl⟩ := (startsWith_iff _ _).mp hs
      split at h
      · rename_i hi
        exact ⟨r, rfl, (sliceBytes_none_iff (kw := "FixedString".toList) (n := 11) (by decide)).mp hi⟩
      · simp at h
    · simp at h
  · rintro ⟨r, rfl, h⟩
    unfold parseFixedString
    rw [if_pos (startsWith_append _ _), (sliceBytes_none_iff (kw := "FixedString".toList) (n := 11) (by decide)).mpr h]

theorem parseArray_panic (s : Str) : parseArray s = .panic ↔
    ∃ r, s = "Array".toList ++ r ∧ ¬ ∃ c d i, Ascii c ∧ Ascii d ∧ r = c :: (i ++ [d]) := by
  constructor
  · intro h
    unfold parseArray at h
    split at h
    · rename_i hs
      obtain ⟨r, rfl⟩ := (startsWith_iff _ _).mp hs
      split at h
      · rename_i hi
        exact ⟨r, rfl, (sliceBytes_none_iff (kw := "Array".toList) (n := 5) (by decide)).mp hi⟩
      · simp at h
    · simp at h
  · rintro ⟨r, rfl, h⟩
    unfold parseArray
    rw [if_pos (startsWith_append _ _), (sliceBytes_none_iff (kw := "Array".toList) (n := 5) (by decide)).mpr h]

/-- Cutting a body at a byte offset into two parts without the byte between them. -/
theorem cut_iff (p : Nat) (body : Str) : (∃ k v, takeBytes p body = some k ∧ dropBytes (p + 1) body = some v) ↔
    ∃ k x v, Ascii x ∧ body = k ++ x :: v ∧ p = (String.ofList k).utf8ByteSize := by
  constructor
  · rintro ⟨k', v', hk, hv⟩
    obtain ⟨q, hq, hl⟩ := takeBytes_split hk
    obtain ⟨o, ho, hl'⟩ := dropBytes_split hv
    have hpre : k' <+: o := by
      rcases List.prefix_or_prefix_of_prefix (hq ▸ List.prefix_append k' q) (ho ▸ List.prefix_append o v') with h | h
      · exact h
      · obtain ⟨t, ht⟩ := h
        have := congrArg byteLen ht
        rw [byteLen_append] at this; omega
    obtain ⟨t, rfl⟩ := hpre
    rw [byteLen_append] at hl'
    obtain ⟨x, rfl, hx⟩ := byteLen_one (q := t) (by omega)
    refine ⟨k', x, v', hx, ?_, ?_⟩
    · rw [ho]; simp
    · rw [byteLen_utf8, hl]
  · rintro ⟨k, x, v, hx, rfl, hp⟩
    rw [byteLen_utf8] at hp
    subst hp
    refine ⟨k, v, takeBytes_append _ _, ?_⟩
    have := dropBytes_append (k ++ [x]) v
    rw [byteLen_append] at this
    simp only [byteLen, (ascii_iff x).mpr hx] at this
    simpa using this

theorem parseMap_panic (s : Str) : parseMap s = .panic ↔
    (∃ r, s = "Map".toList ++ r ∧ ¬ ∃ c d i, Ascii c ∧ Ascii d ∧ r = c :: (i ++ [d])) ∨
    ∃ c d a b, Ascii c ∧ Ascii d ∧ ',' ∉ a ∧
      (¬ ∃ k x v, Ascii x ∧ a ++ ',' :: b = k ++ x :: v ∧ a.length = (String.ofList k).utf8ByteSize) ∧
      s = "Map".toList ++ c :: (a ++ ',' :: b ++ [d]) := by
  constructor
  · intro h
    unfold parseMap at h
    split at h
    · rename_i hs
      obtain ⟨r, rfl⟩ := (startsWith_iff _ _).mp hs
      split at h
      · rename_i hi
        exact .inl ⟨r, rfl, (sliceBytes_none_iff (kw := "Map".toList) (n := 3) (by decide)).mp hi⟩
      · rename_i body hi
        obtain ⟨c, d, hc, hd, rfl⟩ := (sliceBytes_iff (kw := "Map".toList) (n := 3) (by decide)).mp hi
        split at h
        · simp at h
        · rename_i p hp
          obtain ⟨a, b, rfl, ha, rfl⟩ := (charPos_iff _ _ _).mp hp
          split at h
          · simp at h
          · rename_i hno
            refine .inr ⟨c, d, a, b, hc, hd, ha, ?_, rfl⟩
            intro hx
            obtain ⟨k, v, hk, hv⟩ := (cut_iff _ _).mpr hx
            exact hno k v hk hv
    · simp at h
  · rintro (⟨r, rfl, h⟩ | ⟨c, d, a, b, hc, hd, ha, h, rfl⟩)
    · unfold parseMap
      rw [if_pos (startsWith_append _ _), (sliceBytes_none_iff (kw := "Map".toList) (n := 3) (by decide)).mpr h]
    · unfold parseMap
      rw [if_pos (startsWith_append _ _),
        (sliceBytes_iff (kw := "Map".toList) (n := 3) (by decide)).mpr ⟨c, d, hc, hd, rfl⟩]
      dsimp only
      rw [(charPos_iff _ _ _).mpr ⟨a, b, rfl, ha, rfl⟩]
      dsimp only
      split
      · rename_i k v hk hv
        exact (h ((cut_iff _ _).mp ⟨k, v, hk, hv⟩)).elim
      · rfl

theorem lcLo_none (n : Nat) (s : Str) : lcLo n s = none ↔
    ∃ a x r, (∀ c ∈ a, Ascii c ∧ c ≠ '(') ∧ ¬ Ascii x ∧ s = a ++ x :: r := by
  induction s generalizing n with
  | nil => simp [lcLo]
  | cons c cs ih =>
    rw [lcLo]
    by_cases hc : c = '('
    · subst hc
      simp only [if_true, reduceCtorEq, false_iff]
      rintro ⟨a, x, r, ha, hx, h⟩
      cases a with
      | nil => simp at h; exact hx (h.1 ▸ (by unfold Ascii; decide : Ascii '('))
      | cons y ys => simp at h; exact (ha y (by simp)).2 h.1.symm
    · rw [if_neg hc]
      by_cases hs : c.utf8Size = 1
      · rw [if_pos hs, ih]
        have hac := (ascii_iff _).mp hs
        constructor
        · rintro ⟨a, x, r, ha, hx, rfl⟩
          refine ⟨c :: a, x, r, ?_, hx, rfl⟩
          intro d hd
          rcases List.mem_cons.mp hd with rfl | hd
          · exact ⟨hac, hc⟩
          · exact ha d hd
        · rintro ⟨a, x, r, ha, hx, h⟩
          cases a with
          | nil => simp at h; exact (hx (h.1 ▸ hac)).elim
          | cons y ys => simp at h; exact ⟨ys, x, r, fun d hd => ha d (by simp [hd]), hx, h.2⟩
      · rw [if_neg hs]
        simp only [true_iff]
        exact ⟨[], c, cs, by simp, fun h => hs ((ascii_iff _).mpr h), rfl⟩

theorem lcHi_none (s : Str) : lcHi s = none ↔
    ∃ b x r, (∀ c ∈ b, Ascii c ∧ c ≠ ')') ∧ ¬ Ascii x ∧ s = b ++ x :: r := by
  induction s with
  | nil => simp [lcHi]
  | cons c cs ih =>
    rw [lcHi]
    by_cases hc : c = ')'
    · subst hc
      simp only [if_true, reduceCtorEq, false_iff]
      rintro ⟨a, x, r, ha, hx, h⟩
      cases a with
      | nil => simp at h; exact hx (h.1 ▸ (by unfold Ascii; decide : Ascii ')'))
      | cons y ys => simp at h; exact (ha y (by simp)).2 h.1.symm
    · rw [if_neg hc]
      by_cases hs : c.utf8Size = 1
      · rw [if_pos hs, ih]
        have hac := (ascii_iff _).mp hs
        constructor
        · rintro ⟨a, x, r, ha, hx, rfl⟩
          refine ⟨c :: a, x, r, ?_, hx, rfl⟩
          intro d hd
          rcases List.mem_cons.mp hd with rfl | hd
          · exact ⟨hac, hc⟩
          · exact ha d hd
        · rintro ⟨a, x, r, ha, hx, h⟩
          cases a with
          | nil => simp at h; exact (hx (h.1 ▸ hac)).elim
          | cons y ys => simp at h; exact ⟨ys, x, r, fun d hd => ha d (by simp [hd]), hx, h.2⟩
      · rw [if_neg hs]
        simp only [true_iff]
        exact ⟨[], c, cs, by simp, fun h => hs ((ascii_iff _).mpr h), rfl⟩

theorem parseLowCard_panic (s : Str) : parseLowCard s = .panic ↔
    (∃ a x r, (∀ c ∈ a, Ascii c ∧ c ≠ '(') ∧ ¬ Ascii x ∧ s = "LowCardinality".toList ++ a ++ x :: r) ∨
    ∃ a x i b, (∀ c ∈ a, Ascii c ∧ c ≠ '(') ∧ (∀ c ∈ b, Ascii c ∧ c ≠ ')') ∧ ¬ Ascii x ∧
      s = "LowCardinality".toList ++ a ++ '(' :: (i ++ x :: b) := by
  constructor
  · intro h
    unfold parseLowCard at h
    split at h
    · rename_i hs
      obtain ⟨r, rfl⟩ := (startsWith_iff _ _).mp hs
      have hdrop : ("LowCardinality".toList ++ r).drop 14 = r := rfl
      rw [hdrop] at h
      split at h
      · rename_i hlo
        obtain ⟨a, x, q, ha, hx, rfl⟩ := (lcLo_none _ _).mp hlo
        exact .inl ⟨a, x, q, ha, hx, by simp⟩
      · simp at h
      · rename_i m x body hlo
        have hx := lcLo_result hlo
        subst hx
        obtain ⟨a, ha, rfl⟩ := (lcLo_iff _ _ _).mp ⟨_, hlo⟩
        split at h
        · rename_i hhi
          obtain ⟨b, x, q, hb, hx, hbody⟩ := (lcHi_none _).mp hhi
          have hbody : body = q.reverse ++ x :: b.reverse := by
            have := congrArg List.reverse hbody
            simpa using this
          subst hbody
          exact .inr ⟨a, x, q.reverse, b.reverse, ha, fun c hc => hb c (by simpa using hc), hx, by simp⟩
        · simp at h
        · simp at h
    · simp at h
  · rintro (⟨a, x, r, ha, hx, rfl⟩ | ⟨a, x, i, b, ha, hb, hx, rfl⟩)
    · unfold parseLowCard
      have e : "LowCardinality".toList ++ a ++ x :: r = "LowCardinality".toList ++ (a ++ x :: r) := by simp
      rw [e, if_pos (startsWith_append _ _)]
      have hdrop : ("LowCardinality".toList ++ (a ++ x :: r)).drop 14 = a ++ x :: r := rfl
      rw [hdrop, (lcLo_none 14 _).mpr ⟨a, x, r, ha, hx, rfl⟩]
    · unfold parseLowCard
      have e : "LowCardinality".toList ++ a ++ '(' :: (i ++ x :: b) =
          "LowCardinality".toList ++ (a ++ '(' :: (i ++ x :: b)) := by simp
      rw [e, if_pos (startsWith_append _ _)]
      have hdrop : ("LowCardinality".toList ++ (a ++ '(' :: (i ++ x :: b))).drop 14 = a ++ '(' :: (i ++ x :: b) := rfl
      rw [hdrop]
      obtain ⟨m, hm⟩ := (lcLo_iff 14 (a ++ '(' :: (i ++ x :: b)) (i ++ x :: b)).mpr ⟨a, ha, rfl⟩
      rw [hm]
      dsimp only
      rw [(lcHi_none (i ++ x :: b).reverse).mpr
        ⟨b.reverse, x, i.reverse, fun c hc => hb c (by simpa using hc), hx, by simp⟩]

/-- Some parser panics on the whole text. -/
theorem dispatch_panic_source {s : Str} (h : dispatch s = .panic) : parseNullable s = .panic ∨ parseFixedString s = .panic ∨
    parseArray s = .panic ∨ parseMap s = .panic ∨ parseLowCard s = .panic := by
  unfold dispatch at h
  split at h
  · cases h
  split at h
  · exact .inl ‹_›
  · cases h
  · cases h
  split at h
  · exact .inr (.inl ‹_›)
  · cases h
  · cases h
  split at h
  · exact .inr (.inr (.inl ‹_›))
  · cases h
  · cases h
  split at h
  · exact .inr (.inr (.inr (.inl ‹_›)))
  · cases h
  · cases h
  split at h
  · cases h
  split at h
  · cases h
  split at h
  · cases h
  split at h
  · cases h
  split at h
  · cases h
  split at h
  · cases h
  split at h
  · exact .inr (.inr (.inr (.inr ‹_›)))
  · cases h
  · cases h
  · cases h

theorem dispatch_nullable_panic {s : Str} (h : parseNullable s = .panic) : dispatch s = .panic := by
  obtain ⟨r, rfl, _⟩ := (parseNullable_panic _).mp h
  have hl := lookupSimple_kw (s := "Nullable".toList ++ r) (kw := "Nullable".toList) (by decide)
    (List.prefix_append _ _).isInfix
  unfold dispatch
  rw [hl, h]

theorem dispatch_fixed_panic {s : Str} (h : parseFixedString s = .panic) : dispatch s = .panic := by
  obtain ⟨r, rfl, _⟩ := (parseFixedString_panic _).mp h
  have hl := lookupSimple_kw (s := "FixedString".toList ++ r) (kw := "FixedString".toList) (by decide)
    (List.prefix_append _ _).isInfix
  unfold dispatch
  rw [hl, parseNullable_none rfl, h]

theorem dispatch_array_panic {s : Str} (h : parseArray s = .panic) : dispatch s = .panic := by
  obtain ⟨r, rfl, _⟩ := (parseArray_panic _).mp h
  have hl := lookupSimple_kw (s := "Array".toList ++ r) (kw := "Array".toList) (by decide)
    (List.prefix_append _ _).isInfix
  unfold dispatch
  rw [hl, parseNullable_none rfl, parseFixedString_none rfl, h]

theorem dispatch_map_panic {s : Str} (h : parseMap s = .panic) : dispatch s = .panic := by
  obtain ⟨r, hr⟩ : ∃ r, s = "Map".toList ++ r := by
    rw [← startsWith_iff]
    cases hs : startsWith s "Map".toList with
    | true => rfl
    | false => rw [parseMap_none hs] at h; cases h
  subst hr
  have hl := lookupSimple_kw (s := "Map".toList ++ r) (kw := "Map".toList) (by decide)
    (List.prefix_append _ _).isInfix
  unfold dispatch
  rw [hl, parseNullable_none rfl, parseFixedString_none rfl, parseArray_none rfl, h]

theorem dispatch_lowCard_panic {s : Str} (h : parseLowCard s = .panic) : dispatch s = .panic := by
  obtain ⟨r, hr⟩ : ∃ r, s = "LowCardinality".toList ++ r := by
    rw [← startsWith_iff]
    cases hs : startsWith s "LowCardinality".toList with
    | true => rfl
    | false => rw [parseLowCard_none hs] at h; cases h
  subst hr
  have hl := lookupSimple_kw (s := "LowCardinality".toList ++ r) (kw := "LowCardinality".toList) (by decide)
    (List.prefix_append _ _).isInfix
  unfold dispatch
  rw [hl, parseNullable_none rfl, parseFixedString_none rfl, parseArray_none rfl, parseMap_none rfl, parseDecimal_none rfl,
    parseEnum8_none (c := 'L') rfl (by decide) (by decide), parseEnum16_none (c := 'L') rfl (by decide) (by decide),
    parseDateTime_none (c := 'L') rfl (by decide) (by decide) (by decide),
    parseDateTime64_none (c := 'L') rfl (by decide) (by decide), parseSimpleAgg_none rfl, h]

theorem resolve_crash (known : Tz → Bool) (tz : Tz) {s : Str} (h : dispatch s = .panic) : resolve known tz s = .crash := by
  rw [resolve]; split <;> simp_all

theorem panics_crashes (known : Tz → Bool) (tz : Tz) {s : Str} (h : Panics s) : crashes (resolve known tz s) := by
  induction h with
  | @bracket kw r hk h =>
    have : dispatch (kw ++ r) = .panic := by
      simp only [List.mem_cons, List.not_mem_nil, or_false] at hk
      rcases hk with rfl | rfl | rfl | rfl
      · exact dispatch_nullable_panic ((parseNullable_panic _).mpr ⟨r, rfl, h⟩)
      · exact dispatch_fixed_panic ((parseFixedString_panic _).mpr ⟨r, rfl, h⟩)
      · exact dispatch_array_panic ((parseArray_panic _).mpr ⟨r, rfl, h⟩)
      · exact dispatch_map_panic ((parseMap_panic _).mpr (.inl ⟨r, rfl, h⟩))
    rw [resolve_crash known tz this]; trivial
  | mapComma hc hd ha h =>
    rw [resolve_crash known tz (dispatch_map_panic ((parseMap_panic _).mpr (.inr ⟨_, _, _, _, hc, hd, ha, h, rfl⟩)))]; trivial
  | lowCardOpen ha hx =>
    rw [resolve_crash known tz (dispatch_lowCard_panic ((parseLowCard_panic _).mpr (.inl ⟨_, _, _, ha, hx, rfl⟩)))]; trivial
  | lowCardClose ha hb hx =>
    rw [resolve_crash known tz (dispatch_lowCard_panic ((parseLowCard_panic _).mpr (.inr ⟨_, _, _, _, ha, hb, hx, rfl⟩)))]; trivial
  | nullable hc hd hn h ih =>
    rw [resolve_of (dispatch_of_nullable ((parseNullable_iff _ _).mpr ⟨_, _, hc, hd, hn, rfl⟩)), headPlan]; exact ih
  | array hc hd h ih =>
    rw [resolve_of (dispatch_of_array ((parseArray_iff _ _).mpr ⟨_, _, hc, hd, rfl⟩)), headPlan]; exact ih
  | mapKey hc hd hx ha hab hlen hk hv h ih =>
    rw [resolve_of (dispatch_of_map ((parseMap_iff _ _ _).mpr ⟨_, _, _, _, _, _, _, hc, hd, hx, ha, hab, hlen, hk, hv, rfl⟩)),
      headPlan]
    exact .inl ih
  | mapValue hc hd hx ha hab hlen hk hv h ih =>
    rw [resolve_of (dispatch_of_map ((parseMap_iff _ _ _).mpr ⟨_, _, _, _, _, _, _, hc, hd, hx, ha, hab, hlen, hk, hv, rfl⟩)),
      headPlan]
    exact .inr ih
  | simpleAgg hps hqs hf ht hc hn hfn hl h ih =>
    rw [resolve_of (dispatch_of_simpleAgg ((parseSimpleAgg_iff _ _ _).mpr ⟨_, _, _, _, _, _, hps, hqs, hf, ht, hc, hn, hfn, hl, rfl⟩)),
      headPlan]
    exact ih
  | lowCard ha hb ht h ih =>
    rw [resolve_of (dispatch_of_lowCard ((parseLowCard_iff _ _).mpr ⟨_, _, _, ha, hb, ht, rfl⟩)), headPlan]; exact ih

theorem dispatch_panics {s : Str} (h : dispatch s = .panic) : Panics s := by
  rcases dispatch_panic_source h with h | h | h | h | h
  · obtain ⟨r, rfl, hr⟩ := (parseNullable_panic _).mp h
    exact .bracket (by simp) hr
  · obtain ⟨r, rfl, hr⟩ := (parseFixedString_panic _).mp h
    exact .bracket (by simp) hr
  · obtain ⟨r, rfl, hr⟩ := (parseArray_panic _).mp h
    exact .bracket (by simp) hr
  · rcases (parseMap_panic _).mp h with ⟨r, rfl, hr⟩ | ⟨c, d, a, b, hc, hd, ha, hn, rfl⟩
    · exact .bracket (by simp) hr
    · exact .mapComma hc hd ha hn
  · rcases (parseLowCard_panic _).mp h with ⟨a, x, r, ha, hx, rfl⟩ | ⟨a, x, i, b, ha, hb, hx, rfl⟩
    · exact .lowCardOpen ha hx
    · exact .lowCardClose ha hb hx

theorem crashes_panics (known : Tz → Bool) (tz : Tz) : ∀ (n : Nat) (s : Str), s.length = n →
    crashes (resolve known tz s) → Panics s := by
  intro n
  induction n using Nat.strongRecOn with
  | ind n ih =>
    intro s hl hc
    cases hd : dispatch s with
    | panic => exact dispatch_panics hd
    | err e =>
      have : resolve known tz s = .bad e := by rw [resolve]; split <;> simp_all
      rw [this] at hc; exact hc.elim
    | ok h =>
      have hin := dispatch_inners hd
      rw [resolve_of hd] at hc
      rcases dispatch_source hd with hs | hs
      · obtain ⟨m, hm, hsame⟩ := lookupSimple_split hs
        have key : ∀ q ∈ simpleNames, ¬ crashes (headPlan known tz q.2) := by
          simp only [simpleNames, List.forall_mem_cons]
          repeat' refine And.intro ?_ ?_
          all_goals first | exact fun h => h | simp
        exact (key _ hm hc).elim
      · cases h with
        | num t => exact hs.elim
        | string => exact hs.elim
        | date => exact hs.elim
        | ip k => exact hs.elim
        | nullable i =>
          have hi := ih i.length (by rw [← hl]; exact hin i (by simp [Head.inners])) i rfl hc
          obtain ⟨c, d, h1, h2, h3, rfl⟩ := (parseNullable_iff _ _).mp hs
          exact .nullable h1 h2 h3 hi
        | fixedString m => exact hc.elim
        | array i =>
          have hi := ih i.length (by rw [← hl]; exact hin i (by simp [Head.inners])) i rfl hc
          obtain ⟨c, d, h1, h2, rfl⟩ := (parseArray_iff _ _).mp hs
          exact .array h1 h2 hi
        | map k v =>
          have hk := ih k.length (by rw [← hl]; exact hin k (by simp [Head.inners])) k rfl
          have hv := ih v.length (by rw [← hl]; exact hin v (by simp [Head.inners])) v rfl
          obtain ⟨c, d, x, a, b, k', v', h1, h2, h3, h4, h5, h6, h7, h8, rfl⟩ := (parseMap_iff _ _ _).mp hs
          rcases hc with hc | hc
          · exact .mapKey h1 h2 h3 h4 h5 h6 h7 h8 (hk hc)
          · exact .mapValue h1 h2 h3 h4 h5 h6 h7 h8 (hv hc)
        | decimal p sc nb => exact hc.elim
        | enum w items => exact hc.elim
        | datetime z =>
          cases z with
          | none => exact hc.elim
          | some z =>
            rw [headPlan] at hc
            by_cases hz : known z = true
            · rw [if_pos hz] at hc; exact hc.elim
            · rw [if_neg hz] at hc; exact hc.elim
        | dt64 p z =>
          cases z with
          | none => exact hc.elim
          | some z =>
            rw [headPlan] at hc
            by_cases hz : known z = true
            · rw [if_pos hz] at hc; exact hc.elim
            · rw [if_neg hz] at hc; exact hc.elim
        | simpleAgg f i =>
          have hi := ih i.length (by rw [← hl]; exact hin i (by simp [Head.inners])) i rfl hc
          obtain ⟨ps, qs, f', fs, ts, m, h1, h2, h3, h4, h5, h6, h7, h8, rfl⟩ := (parseSimpleAgg_iff _ _ _).mp hs
          exact .simpleAgg h1 h2 h3 h4 h5 h6 h7 h8 hi
        | lowCard i =>
          have hi := ih i.length (by rw [← hl]; exact hin i (by simp [Head.inners])) i rfl hc
          obtain ⟨a, b, ts, h1, h2, h3, rfl⟩ := (parseLowCard_iff _ _).mp hs
          exact .lowCard h1 h2 h3 hi
        | unsupported => exact hc.elim

/-- A plan with an error or a panic in it reads no column, whatever the bytes. -/
theorem load_complete (p : Plan) : ∀ {size : Nat} {bs : Bytes} {c : Col} {r : Bytes}, p.load size bs = .ok c r → Complete p := by
  induction p with
  | nullable p ih =>
    intro size bs c r h
    rw [Plan.load] at h
    obtain ⟨_, _, _, h⟩ := bind_eq_ok h
    obtain ⟨_, _, _, h⟩ := bind_eq_ok h
    obtain ⟨_, _, h, _⟩ := bind_eq_ok h
    exact ih h
  | array p ih =>
    intro size bs c r h
    rw [Plan.load] at h
    obtain ⟨_, _, _, h⟩ := bind_eq_ok h
    obtain ⟨_, _, h, _⟩ := bind_eq_ok h
    exact ih h
  | map k v ihk ihv =>
    intro size bs c r h
    rw [Plan.load] at h
    obtain ⟨_, _, _, h⟩ := bind_eq_ok h
    obtain ⟨_, _, hk, h⟩ := bind_eq_ok h
    obtain ⟨_, _, hv, _⟩ := bind_eq_ok h
    exact ⟨ihk hk, ihv hv⟩
  | simpleAgg f p ih =>
    intro size bs c r h
    rw [Plan.load] at h
    obtain ⟨_, _, h, _⟩ := bind_eq_ok h
    exact ih h
  | lowCard p ih =>
    intro size bs c r h
    rw [Plan.load] at h
    split at h
    · obtain ⟨_, _, h, _⟩ := bind_eq_ok h
      exact ih h
    · obtain ⟨_, _, _, h⟩ := bind_eq_ok h
      split at h
      · cases h
      · obtain ⟨flags, _, _, h⟩ := bind_eq_ok h
        cases hf : IdxTy.fromFlags flags with
        | none => simp only [hf] at h; cases h
        | some ity =>
          simp only [hf] at h
          split at h
          · cases h
          · split at h
            · cases h
            · obtain ⟨_, _, _, h⟩ := bind_eq_ok h
              obtain ⟨_, _, h, _⟩ := bind_eq_ok h
              exact ih h
  | bad e => intro size bs c r h; cases h
  | crash => intro size bs c r h; cases h
  | _ => intro size bs c r h; trivial

end CH
