import Verif.Lemmas.Types
import Verif.Spec.Names

/-! The type-name parsers accept exactly the spellings of the grammar. -/

namespace CH
open Spec

theorem isWs_iff (c : Char) : isWs c = true ↔ c.toNat ∈ whiteSpace := by
  simp only [isWs, whiteSpace, Bool.or_eq_true, Bool.and_eq_true, decide_eq_true_eq, beq_iff_eq, List.mem_cons,
    List.not_mem_nil, or_false]
  omega

theorem isWs_false_iff (c : Char) : isWs c = false ↔ c.toNat ∉ whiteSpace := by
  rw [← isWs_iff]; simp

theorem ascii_iff (c : Char) : c.utf8Size = 1 ↔ Ascii c := by
  unfold Ascii Char.utf8Size Char.toNat
  simp only [UInt32.le_iff_toNat_le]
  have h1 : (127 : UInt32).toNat = 127 := rfl
  have h2 : (2047 : UInt32).toNat = 2047 := rfl
  have h3 : (65535 : UInt32).toNat = 65535 := rfl
  repeat' split
  all_goals constructor
  all_goals intro h
  all_goals first | rfl | omega | skip
  all_goals simp_all <;> omega

/-! ### Trimming -/

theorem dropWhile_split (p : Char → Bool) (s : Str) :
    ∃ a, (∀ c ∈ a, p c = true) ∧ s = a ++ s.dropWhile p ∧ (∀ c, (s.dropWhile p).head? = some c → p c = false) := by
  induction s with
  | nil => exact ⟨[], by simp, by simp, by simp⟩
  | cons x xs ih =>
    by_cases hx : p x = true
    · obtain ⟨a, h1, h2, h3⟩ := ih
      refine ⟨x :: a, ?_, ?_, ?_⟩
      · intro c hc; cases hc with
        | head => exact hx
        | tail _ h => exact h1 c h
      · rw [List.dropWhile_cons_of_pos hx, List.cons_append, ← h2]
      · rwa [List.dropWhile_cons_of_pos hx]
    · refine ⟨[], by simp, ?_, ?_⟩
      · rw [List.dropWhile_cons_of_neg hx]; rfl
      · rw [List.dropWhile_cons_of_neg hx]; intro c hc; simp at hc; subst hc; simpa using hx

theorem dropWhile_of_split {p : Char → Bool} {a t : Str} (h1 : ∀ c ∈ a, p c = true)
    (h2 : ∀ c, t.head? = some c → p c = false) : (a ++ t).dropWhile p = t := by
  induction a with
  | nil => exact dropWhile_head h2
  | cons x xs ih =>
    rw [List.cons_append, List.dropWhile_cons_of_pos (h1 x (by simp))]
    exact ih fun c hc => h1 c (by simp [hc])

theorem trimMatches_iff (p : Char → Bool) (s t : Str) : trimMatches p s = t ↔
    ∃ a b, (∀ c ∈ a, p c = true) ∧ (∀ c ∈ b, p c = true) ∧ s = a ++ t ++ b ∧
      (∀ c, t.head? = some c → p c = false) ∧ (∀ c, t.getLast? = some c → p c = false) := by
  constructor
  · intro h
    obtain ⟨a, ha, hs, hh⟩ := dropWhile_split p s
    obtain ⟨b, hb, hs', hh'⟩ := dropWhile_split p (s.dropWhile p).reverse
    unfold trimMatches at h
    generalize s.dropWhile p = u at hs hh hs' hh' h
    have hu : u = t ++ b.reverse := by
      have := congrArg List.reverse hs'
      rw [List.reverse_reverse, List.reverse_append, h] at this
      exact this
    refine ⟨a, b.reverse, ha, fun c hc => hb c (by simpa using hc), ?_, ?_, ?_⟩
    · rw [hs, hu, List.append_assoc]
    · intro c hc
      refine hh c ?_
      rw [hu]
      cases t with
      | nil => simp at hc
      | cons x xs => simpa using hc
    · intro c hc
      refine hh' c ?_
      rw [← h] at hc
      simpa using hc
  · rintro ⟨a, b, ha, hb, rfl, h1, h2⟩
    unfold trimMatches
    by_cases ht : t = []
    · subst ht
      have : (a ++ [] ++ b).dropWhile p = [] := by
        rw [List.append_nil, ← List.append_nil (a ++ b)]
        refine dropWhile_of_split ?_ (by simp)
        intro c hc
        rcases List.mem_append.mp hc with h | h
        · exact ha c h
        · exact hb c h
      rw [this]; rfl
    · rw [List.append_assoc, dropWhile_of_split ha]
      · rw [List.reverse_append, dropWhile_of_split]
        · simp
        · intro c hc; exact hb c (by simpa using hc)
        · intro c hc; exact h2 c (by simpa using hc)
      · intro c hc
        refine h1 c ?_
        cases t with
        | nil => exact absurd rfl ht
        | cons x xs => simpa using hc

theorem blank_iff (b : Str) : Blank b ↔ ∀ c ∈ b, isWs c = true := by
  simp only [Blank, isWs_iff]

theorem trim_iff (s t : Str) : trim s = t ↔ Padded t s := by
  have h : trim s = trimMatches isWs s := rfl
  rw [h, trimMatches_iff]
  simp only [Padded, blank_iff, isWs_false_iff]

/-! ### Numbers -/

theorem digitCh_eq (d : Nat) : digitChar d = Char.ofNat (48 + d) := rfl

theorem isDigitC_char {c : Char} (h : isDigitC c = true) : c = Char.ofNat (48 + (c.toNat - 48)) ∧ c.toNat - 48 < 10 := by
  simp only [isDigitC, Bool.and_eq_true, decide_eq_true_eq] at h
  refine ⟨?_, by omega⟩
  have : 48 + (c.toNat - 48) = c.toNat := by omega
  rw [this, Char.ofNat_toNat]

theorem numeral_digits {s : Str} {v : Nat} (h : Numeral s v) :
    s ≠ [] ∧ (∀ c ∈ s, isDigitC c = true) ∧ digitsVal s = v := by
  induction h with
  | digit h =>
    refine ⟨by simp, ?_, ?_⟩
    · intro c hc; simp at hc; subst hc; exact digitChar_isDigit h
    · have := digitChar_toNat h
      rw [digitCh_eq] at this
      simp [digitsVal, this]
  | @more s v d _ h ih =>
    refine ⟨by simp, ?_, ?_⟩
    · intro c hc
      rcases List.mem_append.mp hc with h' | h'
      · exact ih.2.1 c h'
      · simp at h'; subst h'; exact digitChar_isDigit h
    · rw [digitsVal_append, ih.2.2]
      have := digitChar_toNat h
      rw [digitCh_eq] at this
      omega

theorem digits_numeral : ∀ (n : Nat) (s : Str), s.length = n → s ≠ [] → (∀ c ∈ s, isDigitC c = true) →
    Numeral s (digitsVal s) := by
  intro n
  induction n with
  | zero => intro s hl hne; exact absurd (List.length_eq_zero_iff.mp hl) hne
  | succ n ih =>
    intro s hl hne hd
    obtain ⟨r, c, rfl⟩ : ∃ r c, s = r ++ [c] := ⟨s.dropLast, s.getLast hne, (List.dropLast_concat_getLast hne).symm⟩
    have hc := isDigitC_char (hd c (by simp))
    rw [digitsVal_append]
    by_cases hr : r = []
    · subst hr
      have := Numeral.digit hc.2
      rw [← hc.1] at this
      simpa [digitsVal] using this
    · have := Numeral.more (ih r (by simp at hl; exact hl) hr fun c h => hd c (by simp [h])) hc.2
      rw [← hc.1, Nat.mul_comm] at this
      exact this

theorem numeral_iff (s : Str) (v : Nat) :
    Numeral s v ↔ s ≠ [] ∧ (∀ c ∈ s, isDigitC c = true) ∧ digitsVal s = v :=
  ⟨numeral_digits, fun h => h.2.2 ▸ digits_numeral _ s rfl h.1 h.2.1⟩

theorem numeral_head {s : Str} {v : Nat} (h : Numeral s v) : ∃ c r, s = c :: r ∧ isDigitC c = true := by
  obtain ⟨h1, h2, _⟩ := numeral_digits h
  cases s with
  | nil => exact absurd rfl h1
  | cons c r => exact ⟨c, r, rfl, h2 c (by simp)⟩

theorem parseUnsigned_iff (bound : Nat) (s : Str) (v : Nat) : parseUnsigned bound s = some v ↔ Unsigned bound s v := by
  have key : ∀ d : Str, (if d.isEmpty then none else if d.all isDigitC then
      if digitsVal d < bound then some (digitsVal d) else none else none) = some v ↔ Numeral d v ∧ v < bound := by
    intro d
    rw [numeral_iff]
    by_cases h1 : d = []
    · simp [h1]
    · by_cases h2 : d.all isDigitC = true
      · rw [if_neg (by simpa using h1), if_pos h2]
        have h2' : ∀ c ∈ d, isDigitC c = true := by simpa using h2
        by_cases h3 : digitsVal d < bound
        · rw [if_pos h3]
          simp only [Option.some.injEq]
          exact ⟨fun h => ⟨⟨h1, h2', h⟩, h ▸ h3⟩, fun h => h.1.2.2⟩
        · rw [if_neg h3]
          simp only [reduceCtorEq, false_iff]
          rintro ⟨⟨_, _, h⟩, h'⟩; omega
      · rw [if_neg (by simpa using h1), if_neg h2]
        simp only [reduceCtorEq, false_iff]
        rintro ⟨⟨_, h, _⟩, _⟩
        exact h2 (by simpa using h)
  unfold parseUnsigned
  dsimp only
  rw [key]
  unfold Unsigned
  refine and_congr_left fun _ => ?_
  cases s with
  | nil => simp [stripPlus]
  | cons c r =>
    rw [stripPlus]
    by_cases hc : c = '+'
    · subst hc
      rw [if_pos rfl]
      constructor
      · intro h; exact .inr ⟨r, rfl, h⟩
      · rintro (h | ⟨r', h, h'⟩)
        · obtain ⟨c, r', h1, h2⟩ := numeral_head h
          cases h1; exact absurd h2 (by decide)
        · cases h; exact h'
    · rw [if_neg hc]
      constructor
      · exact .inl
      · rintro (h | ⟨r', h, h'⟩)
        · exact h
        · cases h; exact absurd rfl hc

/-! ### Quoted words and the small parsers -/

theorem tok_iff (c : Char) (s r : Str) : tok c s = some r ↔ s = c :: r := by
  cases s with
  | nil => simp [tok]
  | cons d ds =>
    rw [tok]
    by_cases h : d = c
    · subst h; simp
    · simp [h]

theorem strTok_iff (p s r : Str) : strTok p s = some r ↔ s = p ++ r := by
  induction p generalizing s with
  | nil => simp [strTok]
  | cons c cs ih =>
    rw [strTok]
    cases h : tok c s with
    | none =>
      simp only [reduceCtorEq, false_iff]
      rintro rfl
      simp [tok] at h
    | some u =>
      rw [tok_iff] at h
      subst h
      simp only [ih, List.cons_append, List.cons.injEq, true_and]

theorem skipWs_split (s : Str) : ∃ b, Blank b ∧ s = b ++ skipWs s ∧ (∀ c, (skipWs s).head? = some c → isWs c = false) := by
  obtain ⟨a, h1, h2, h3⟩ := dropWhile_split isWs s
  exact ⟨a, (blank_iff a).mpr h1, h2, h3⟩

theorem skipWs_of {b t : Str} (hb : Blank b) (ht : ∀ c, t.head? = some c → isWs c = false) : skipWs (b ++ t) = t :=
  dropWhile_of_split ((blank_iff b).mp hb) ht

theorem skipWs_blank {b : Str} (hb : Blank b) (t : Str) : skipWs (b ++ t) = skipWs t := by
  obtain ⟨a, h1, h2, h3⟩ := skipWs_split t
  have : skipWs (b ++ t) = skipWs ((b ++ a) ++ skipWs t) := by rw [List.append_assoc, ← h2]
  rw [this]
  refine skipWs_of ?_ h3
  intro c hc
  rcases List.mem_append.mp hc with h | h
  · exact hb c h
  · exact h1 c h

theorem blank_nil : Blank [] := by intro c hc; cases hc

theorem skipWs_skipWs (s : Str) : skipWs (skipWs s) = skipWs s := by
  obtain ⟨b, h1, h2, h3⟩ := skipWs_split s
  have := skipWs_of blank_nil h3
  simpa using this

theorem tok_skip_iff {c : Char} (hc : isWs c = false) (s r : Str) :
    tok c (skipWs s) = some r ↔ ∃ b, Blank b ∧ s = b ++ c :: r := by
  rw [tok_iff]
  constructor
  · intro h
    obtain ⟨b, h1, h2, _⟩ := skipWs_split s
    exact ⟨b, h1, by rw [← h]; exact h2⟩
  · rintro ⟨b, hb, rfl⟩
    exact skipWs_of hb (by intro d hd; simp at hd; subst hd; exact hc)

theorem strTok_skip_iff {p : Str} (hp : ∃ c q, p = c :: q ∧ isWs c = false) (s r : Str) :
    strTok p (skipWs s) = some r ↔ ∃ b, Blank b ∧ s = b ++ p ++ r := by
  rw [strTok_iff]
  constructor
  · intro h
    obtain ⟨b, h1, h2, _⟩ := skipWs_split s
    exact ⟨b, h1, by rw [List.append_assoc, ← h]; exact h2⟩
  · rintro ⟨b, hb, rfl⟩
    rw [List.append_assoc]
    obtain ⟨c, q, rfl, hc⟩ := hp
    exact skipWs_of hb (by intro d hd; simp at hd; subst hd; exact hc)

theorem wordBody_of {q w : Str} (h : Quoted q w) (r : Str) : wordBody (q ++ '\'' :: r) = some (w, r) := by
  induction h with
  | nil => rw [List.nil_append, wordBody.eq_def]; simp
  | escape d _ ih =>
    simp only [List.cons_append]
    rw [wordBody, if_neg (by decide), if_pos rfl]
    simp [ih]
  | plain c h1 h2 _ ih =>
    rw [List.cons_append, wordBody.eq_def]
    simp [h1, h2, ih]

theorem wordBody_split {s w r : Str} (h : wordBody s = some (w, r)) : ∃ q, Quoted q w ∧ s = q ++ '\'' :: r := by
  fun_induction wordBody s generalizing w r
  · simp at h
  · simp at h
    obtain ⟨rfl, rfl⟩ := h
    exact ⟨[], .nil, by simp_all⟩
  · simp at h
  · rename_i ih
    simp only [Option.map_eq_some_iff, Prod.exists, Prod.mk.injEq] at h
    obtain ⟨w', r', h, rfl, rfl⟩ := h
    obtain ⟨q, hq, rfl⟩ := ih h
    exact ⟨_ :: _ :: q, .escape _ hq, by simp_all⟩
  · rename_i h1 h2 ih
    simp only [Option.map_eq_some_iff, Prod.exists, Prod.mk.injEq] at h
    obtain ⟨w', r', h, rfl, rfl⟩ := h
    obtain ⟨q, hq, rfl⟩ := ih h
    exact ⟨_ :: q, .plain _ (by simpa using h1) (by simpa using h2) hq, rfl⟩

theorem word_skip_iff (s w r : Str) :
    word (skipWs s) = some (w, r) ↔ ∃ b q, Blank b ∧ Quoted q w ∧ s = b ++ '\'' :: (q ++ '\'' :: r) := by
  unfold word
  constructor
  · intro h
    rw [Option.bind_eq_some_iff] at h
    obtain ⟨u, hu, hw⟩ := h
    obtain ⟨b, hb, rfl⟩ := (tok_skip_iff (by decide) _ _).mp hu
    obtain ⟨q, hq, rfl⟩ := wordBody_split hw
    exact ⟨b, q, hb, hq, rfl⟩
  · rintro ⟨b, q, hb, hq, rfl⟩
    rw [Option.bind_eq_some_iff]
    exact ⟨_, (tok_skip_iff (by decide) _ _).mpr ⟨b, hb, rfl⟩, wordBody_of hq r⟩

/-! ### Enums -/

theorem digits1_split {s d r : Str} (h : digits1 s = some (d, r)) :
    s = d ++ r ∧ d ≠ [] ∧ (∀ c ∈ d, isDigitC c = true) ∧ (∀ c, r.head? = some c → isDigitC c = false) := by
  unfold digits1 at h
  dsimp only at h
  split at h
  · simp at h
  · rename_i hne
    simp only [Option.some.injEq, Prod.mk.injEq] at h
    obtain ⟨rfl, rfl⟩ := h
    obtain ⟨a, h1, h2, h3⟩ := dropWhile_split isDigitC s
    have ha : s.takeWhile isDigitC = a := by
      have := List.takeWhile_append_dropWhile (p := isDigitC) (l := s)
      rw [h2] at this
      have h4 := dropWhile_of_split h1 h3
      rw [h4] at this
      have := List.append_cancel_right this
      rw [← h2] at this
      exact this
    rw [ha]
    refine ⟨h2, ?_, h1, h3⟩
    intro h; rw [ha, h] at hne; simp at hne

theorem digits1_iff (s d r : Str) : digits1 s = some (d, r) ↔
    s = d ++ r ∧ d ≠ [] ∧ (∀ c ∈ d, isDigitC c = true) ∧ (∀ c, r.head? = some c → isDigitC c = false) :=
  ⟨digits1_split, fun h => h.1 ▸ digits1_all d r h.2.2.1 h.2.1 h.2.2.2⟩

/-- A 16-bit number of an enum, read from digits. -/
theorem parseSigned_digits {d : Str} (hne : d ≠ []) (hd : ∀ c ∈ d, isDigitC c = true) (v : Int) :
    parseSigned (2 ^ 15) d = some v ↔ v = digitsVal d ∧ digitsVal d < 2 ^ 15 := by
  cases d with
  | nil => exact absurd rfl hne
  | cons c r =>
    have hc := hd c (by simp)
    have h1 : c ≠ '+' := isDigitC_ne hc (by decide)
    have h2 : c ≠ '-' := isDigitC_ne hc (by decide)
    have hs : splitSign (c :: r) = (false, c :: r) := by rw [splitSign, if_neg h1, if_neg h2]
    unfold parseSigned
    dsimp only
    rw [hs]
    dsimp only
    rw [if_neg (by simp), if_pos (by simpa using hd), if_neg (by simp)]
    by_cases hv : digitsVal (c :: r) < 2 ^ 15
    · rw [if_pos hv]; simp only [Option.some.injEq]
      exact ⟨fun h => ⟨h.symm, hv⟩, fun h => h.1.symm⟩
    · rw [if_neg hv]; simp only [reduceCtorEq, false_iff]; exact fun h => hv h.2

theorem parseSigned_minus {d : Str} (hne : d ≠ []) (hd : ∀ c ∈ d, isDigitC c = true) (v : Int) :
    parseSigned (2 ^ 15) ('-' :: d) = some v ↔ v = -(digitsVal d : Int) ∧ digitsVal d ≤ 2 ^ 15 := by
  have hs : splitSign ('-' :: d) = (true, d) := rfl
  unfold parseSigned
  dsimp only
  rw [hs]
  dsimp only
  rw [if_neg (by simpa using hne), if_pos (by simpa using hd), if_pos rfl]
  by_cases hv : digitsVal d ≤ 2 ^ 15
  · rw [if_pos hv]; simp only [Option.some.injEq]
    exact ⟨fun h => ⟨h.symm, hv⟩, fun h => h.1.symm⟩
  · rw [if_neg hv]; simp only [reduceCtorEq, false_iff]; exact fun h => hv h.2

theorem enumInteger_iff (s : Str) (v : Int) (r : Str) : enumInteger s = some (v, r) ↔
    ∃ i, s = i ++ r ∧ Signed16 i v ∧ (∀ c, r.head? = some c → isDigitC c = false) := by
  unfold enumInteger
  constructor
  · intro h
    split at h
    · simp at h
    · rename_i d r' hd
      obtain ⟨h1, h2, h3, h4⟩ := digits1_split hd
      simp only [Option.map_eq_some_iff, Prod.mk.injEq] at h
      obtain ⟨v', hp, rfl, rfl⟩ := h
      cases s with
      | nil => simp [optMinus] at h1; exact absurd h1.1 h2
      | cons c t =>
        rw [optMinus] at h1 hp
        by_cases hc : c = '-'
        · subst hc
          rw [if_pos rfl] at h1 hp
          simp only at h1 hp
          subst h1
          refine ⟨'-' :: d, rfl, .inr ⟨d, digitsVal d, rfl, digits_numeral _ d rfl h2 h3, ?_⟩, h4⟩
          exact (parseSigned_minus h2 h3 v').mp hp
        · rw [if_neg hc] at h1 hp
          simp only [List.nil_append] at h1 hp
          refine ⟨d, h1, .inl ⟨digitsVal d, digits_numeral _ d rfl h2 h3, ?_⟩, h4⟩
          exact (parseSigned_digits h2 h3 v').mp hp
  · rintro ⟨i, rfl, hi, hr⟩
    rcases hi with ⟨n, hn, rfl, hb⟩ | ⟨d, n, rfl, hn, rfl, hb⟩
    · obtain ⟨h1, h2, rfl⟩ := numeral_digits hn
      have ho : optMinus (i ++ r) = ([], i ++ r) := by
        cases i with
        | nil => exact absurd rfl h1
        | cons c t =>
          rw [List.cons_append, optMinus, if_neg (isDigitC_ne (h2 c (by simp)) (by decide))]
      rw [ho, (digits1_iff _ _ _).mpr ⟨rfl, h1, h2, hr⟩]
      simp only [List.nil_append]
      rw [(parseSigned_digits h1 h2 _).mpr ⟨rfl, hb⟩]; rfl
    · obtain ⟨h1, h2, rfl⟩ := numeral_digits hn
      have ho : optMinus ('-' :: d ++ r) = (['-'], d ++ r) := rfl
      rw [ho, (digits1_iff _ _ _).mpr ⟨rfl, h1, h2, hr⟩]
      simp only [List.cons_append, List.nil_append]
      rw [(parseSigned_minus h1 h2 _).mpr ⟨rfl, hb⟩]; rfl

theorem signed_head {i : Str} {v : Int} (h : Signed16 i v) : ∃ c t, i = c :: t ∧ isWs c = false := by
  rcases h with ⟨n, hn, _⟩ | ⟨r, n, rfl, _⟩
  · obtain ⟨c, t, h1, h2⟩ := numeral_head hn
    exact ⟨c, t, h1, isDigitC_notWs h2⟩
  · exact ⟨'-', r, rfl, by decide⟩

theorem enumPair_split {s : Str} {it : Str × Int} {r : Str} (h : enumPair s = some (it, r)) :
    ∃ e, s = e ++ r ∧ EnumEntry e it := by
  unfold enumPair at h
  simp only [Option.bind_eq_bind, Option.pure_def, Option.bind_eq_some_iff] at h
  obtain ⟨⟨w, r1⟩, hw, r2, ht, ⟨v, r3⟩, hi, hp⟩ := h
  simp only [Option.some.injEq, Prod.mk.injEq] at hp
  obtain ⟨rfl, rfl⟩ := hp
  obtain ⟨b1, q, hb1, hq, rfl⟩ := (word_skip_iff _ _ _).mp hw
  obtain ⟨b2, hb2, rfl⟩ := (tok_skip_iff (by decide) _ _).mp ht
  obtain ⟨b3, hb3, h3, _⟩ := skipWs_split r2
  obtain ⟨i, hi', hs, hd⟩ := (enumInteger_iff _ _ _).mp hi
  obtain ⟨b4, hb4, h4, _⟩ := skipWs_split r3
  refine ⟨b1 ++ '\'' :: (q ++ '\'' :: (b2 ++ '=' :: (b3 ++ i ++ b4))), ?_,
    b1, q, b2, b3, i, b4, rfl, hb1, hb2, hb3, hb4, hq, hs⟩
  have : r2 = b3 ++ i ++ b4 ++ skipWs r3 := by
    rw [List.append_assoc, ← h4, List.append_assoc, ← hi']; exact h3
  generalize skipWs r3 = u at *
  subst this
  simp

theorem enumPair_of {e : Str} {it : Str × Int} (h : EnumEntry e it) {c : Char} (hw : isWs c = false)
    (hd : isDigitC c = false) (r : Str) : enumPair (e ++ c :: r) = some (it, c :: r) := by
  obtain ⟨b1, q, b2, b3, i, b4, rfl, hb1, hb2, hb3, hb4, hq, hs⟩ := h
  have hw' : ∀ d, (c :: r).head? = some d → isWs d = false := by intro d hd; simp at hd; subst hd; exact hw
  have e1 : b1 ++ '\'' :: (q ++ '\'' :: (b2 ++ '=' :: (b3 ++ i ++ b4))) ++ c :: r =
      b1 ++ '\'' :: (q ++ '\'' :: (b2 ++ '=' :: (b3 ++ (i ++ (b4 ++ c :: r))))) := by simp
  have e2 := (word_skip_iff (b1 ++ '\'' :: (q ++ '\'' :: (b2 ++ '=' :: (b3 ++ (i ++ (b4 ++ c :: r)))))) it.1 _).mpr
    ⟨b1, q, hb1, hq, rfl⟩
  have e3 := (tok_skip_iff (c := '=') (by decide) (b2 ++ '=' :: (b3 ++ (i ++ (b4 ++ c :: r)))) _).mpr ⟨b2, hb2, rfl⟩
  have e4 : skipWs (b3 ++ (i ++ (b4 ++ c :: r))) = i ++ (b4 ++ c :: r) := by
    obtain ⟨d, t, rfl, hd'⟩ := signed_head hs
    exact skipWs_of hb3 (by intro x hx; simp at hx; subst hx; exact hd')
  have e5 := (enumInteger_iff (i ++ (b4 ++ c :: r)) it.2 (b4 ++ c :: r)).mpr ⟨i, rfl, hs, by
    intro x hx
    cases b4 with
    | nil => simp at hx; subst hx; exact hd
    | cons y ys =>
      simp at hx; subst hx
      cases hdig : isDigitC y with
      | false => rfl
      | true => exact absurd ((blank_iff _).mp hb4 y (by simp)) (by rw [isDigitC_notWs hdig]; decide)⟩
  unfold enumPair
  rw [e1, e2]
  simp only [Option.bind_eq_bind, Option.pure_def, Option.bind_some]
  rw [e3]
  simp only [Option.bind_some]
  rw [e4, e5]
  simp only [Option.bind_some]
  rw [skipWs_of hb4 hw']

theorem enumBody_eq (s : Str) : enumBody s = (enumPair s).bind fun pr =>
    match tok ',' pr.2 with
    | none => some ([pr.1], pr.2)
    | some r' => (enumBody r').map fun psr => (pr.1 :: psr.1, psr.2) := by
  rw [enumBody]
  split
  · rename_i h; rw [h]; rfl
  · rename_i p r h
    rw [h]; simp only [Option.bind_some]
    split
    · rename_i h'; rw [h']
    · rename_i r' h'; rw [h']

theorem enumBody_split : ∀ (n : Nat) (s : Str) (items : List (Str × Int)) (r : Str), s.length = n →
    enumBody s = some (items, r) → ∃ e, s = e ++ r ∧ EnumEntries e items := by
  intro n
  induction n using Nat.strongRecOn with
  | ind n ih =>
    intro s items r hl h
    rw [enumBody_eq, Option.bind_eq_some_iff] at h
    obtain ⟨⟨it, u⟩, hp, h⟩ := h
    have hlen := enumPair_length hp
    obtain ⟨e, rfl, he⟩ := enumPair_split hp
    dsimp only at h
    split at h
    · simp only [Option.some.injEq, Prod.mk.injEq] at h
      obtain ⟨rfl, rfl⟩ := h
      exact ⟨e, rfl, .one he⟩
    · rename_i r' ht
      rw [tok_iff] at ht
      subst ht
      simp only [Option.map_eq_some_iff, Prod.mk.injEq] at h
      obtain ⟨⟨ps, r1⟩, hb, rfl, rfl⟩ := h
      obtain ⟨e', rfl, he'⟩ := ih r'.length (by simp at hlen hl; omega) r' ps r1 rfl hb
      exact ⟨e ++ ',' :: e', by simp, .more he he'⟩

theorem enumBody_of {e : Str} {items : List (Str × Int)} (h : EnumEntries e items) :
    enumBody (e ++ [')']) = some (items, [')']) := by
  induction h with
  | one h =>
    rw [enumBody_eq, enumPair_of h (by decide) (by decide)]
    simp [tok]
  | @more e r it items h _ ih =>
    have : e ++ ',' :: r ++ [')'] = e ++ ',' :: (r ++ [')']) := by simp
    rw [this, enumBody_eq, enumPair_of h (by decide) (by decide)]
    simp [tok, ih]

theorem enumBody_skip (s : Str) : enumBody (skipWs s) = enumBody s := by
  have : enumPair (skipWs s) = enumPair s := by unfold enumPair; rw [skipWs_skipWs]
  rw [enumBody_eq, enumBody_eq s, this]

theorem parseEnum_iff {kw : Str} (hk : ∃ c q, kw = c :: q ∧ isWs c = false) (s : Str) (items : List (Str × Int)) :
    parseEnum kw s = some items ↔ ∃ b1 b2 body, Blank b1 ∧ Blank b2 ∧ EnumEntries body items ∧
      s = b1 ++ kw ++ b2 ++ '(' :: (body ++ [')']) := by
  unfold parseEnum
  simp only [Option.bind_eq_bind, Option.bind_eq_some_iff]
  constructor
  · rintro ⟨r1, h1, r2, h2, ⟨its, r3⟩, h3, r4, h4, h5⟩
    dsimp only at h4 h5
    split at h5
    · rename_i he
      simp only [Option.some.injEq] at h5
      subst h5
      obtain ⟨b1, hb1, rfl⟩ := (strTok_skip_iff hk _ _).mp h1
      obtain ⟨b2, hb2, rfl⟩ := (tok_skip_iff (by decide) _ _).mp h2
      rw [enumBody_skip] at h3
      obtain ⟨e, rfl, he'⟩ := enumBody_split _ _ _ _ rfl h3
      rw [tok_iff] at h4
      simp at he
      subst h4; subst he
      exact ⟨b1, b2, e, hb1, hb2, he', by simp⟩
    · simp at h5
  · rintro ⟨b1, b2, body, hb1, hb2, hb, rfl⟩
    refine ⟨b2 ++ '(' :: (body ++ [')']), (strTok_skip_iff hk _ _).mpr ⟨b1, hb1, by simp⟩, body ++ [')'],
      (tok_skip_iff (by decide) _ _).mpr ⟨b2, hb2, rfl⟩, (items, [')']), ?_, [], ?_, ?_⟩
    · rw [enumBody_skip, enumBody_of hb]
    · simp [tok]
    · simp

theorem low8_asI8 (items : List (Str × Int)) : Low8 items (items.map fun (k, v) => (k, asI8 v)) := by
  induction items with
  | nil => simp [Low8]
  | cons it items ih =>
    obtain ⟨k, v⟩ := it
    refine ⟨rfl, ⟨?_, ?_, (v + 128) / 256, ?_⟩, ih⟩
    all_goals unfold asI8; omega

theorem low8_eq {items items' : List (Str × Int)} (h : Low8 items items') :
    items' = items.map fun (k, v) => (k, asI8 v) := by
  induction items generalizing items' with
  | nil =>
    cases items' with
    | nil => rfl
    | cons a b => exact absurd h (by simp [Low8])
  | cons it items ih =>
    obtain ⟨k, v⟩ := it
    cases items' with
    | nil => exact absurd h (by simp [Low8])
    | cons a b =>
      obtain ⟨m, w⟩ := a
      obtain ⟨rfl, ⟨h1, h2, j, h3⟩, h4⟩ := h
      rw [ih h4]
      have : w = asI8 v := by unfold asI8; omega
      simp [this]

/-! ### Times -/

theorem dateTimeTz_iff (s w r : Str) : dateTimeTz s = some (w, r) ↔
    ∃ b1 b2 b3 b4 q, Blank b1 ∧ Blank b2 ∧ Blank b3 ∧ Blank b4 ∧ Quoted q w ∧ (∀ c, r.head? = some c → isWs c = false) ∧
      s = b1 ++ '(' :: (b2 ++ '\'' :: (q ++ '\'' :: (b3 ++ ')' :: (b4 ++ r)))) := by
  unfold dateTimeTz
  simp only [Option.bind_eq_bind, Option.pure_def, Option.bind_eq_some_iff]
  constructor
  · rintro ⟨r1, h1, ⟨w', r2⟩, h2, r3, h3, h4⟩
    simp only [Option.some.injEq, Prod.mk.injEq] at h4
    obtain ⟨rfl, rfl⟩ := h4
    obtain ⟨b1, hb1, rfl⟩ := (tok_skip_iff (by decide) _ _).mp h1
    obtain ⟨b2, q, hb2, hq, rfl⟩ := (word_skip_iff _ _ _).mp h2
    obtain ⟨b3, hb3, rfl⟩ := (tok_skip_iff (by decide) _ _).mp h3
    obtain ⟨b4, hb4, h4, h5⟩ := skipWs_split r3
    exact ⟨b1, b2, b3, b4, q, hb1, hb2, hb3, hb4, hq, h5, by rw [← h4]⟩
  · rintro ⟨b1, b2, b3, b4, q, hb1, hb2, hb3, hb4, hq, h5, rfl⟩
    refine ⟨_, (tok_skip_iff (by decide) _ _).mpr ⟨b1, hb1, rfl⟩, (w, _), (word_skip_iff _ _ _).mpr ⟨b2, q, hb2, hq, rfl⟩,
      _, (tok_skip_iff (by decide) _ _).mpr ⟨b3, hb3, rfl⟩, ?_⟩
    rw [skipWs_of hb4 h5]

theorem parseDateTime_iff (s : Str) (z : Option Str) : parseDateTime s = some z ↔
    ∃ b kw arg, Blank b ∧ (kw = "DateTime".toList ∨ kw = "Timestamp".toList) ∧ ZoneArg arg z ∧ s = b ++ kw ++ arg := by
  have harg : ∀ r : Str, (match dateTimeTz r with
      | some (w, r') => if r'.isEmpty then some (some w) else none
      | none => if r.isEmpty then some none else none) = some z ↔ ZoneArg r z := by
    intro r
    constructor
    · intro h
      split at h
      · rename_i w r' hd
        split at h
        · rename_i he
          simp at he h
          subst he; subst h
          obtain ⟨b1, b2, b3, b4, q, hb1, hb2, hb3, hb4, hq, _, rfl⟩ := (dateTimeTz_iff _ _ _).mp hd
          rw [List.append_nil]
          exact .given hb1 hb2 hb3 hb4 hq
        · simp at h
      · split at h
        · rename_i he
          simp at he h
          subst he; subst h
          exact .absent
        · simp at h
    · intro h
      cases h with
      | absent => rfl
      | @given b1 b2 b3 b4 q w h1 h2 h3 h4 hq =>
        have := (dateTimeTz_iff (b1 ++ '(' :: (b2 ++ '\'' :: (q ++ '\'' :: (b3 ++ ')' :: b4)))) w []).mpr
          ⟨b1, b2, b3, b4, q, h1, h2, h3, h4, hq, by simp, by simp⟩
        rw [this]; rfl
  unfold parseDateTime
  dsimp only
  constructor
  · intro h
    split at h
    · simp at h
    · rename_i r hk
      have h := (harg r).mp h
      split at hk
      · rename_i r' hs
        cases hk
        obtain ⟨b, hb, rfl⟩ := (strTok_skip_iff ⟨'D', "ateTime".toList, rfl, by decide⟩ _ _).mp hs
        exact ⟨b, _, r, hb, .inl rfl, h, rfl⟩
      · obtain ⟨b, hb, rfl⟩ := (strTok_skip_iff ⟨'T', "imestamp".toList, rfl, by decide⟩ _ _).mp hk
        exact ⟨b, _, r, hb, .inr rfl, h, rfl⟩
  · rintro ⟨b, kw, arg, hb, hk, ha, rfl⟩
    rcases hk with rfl | rfl
    · have e : strTok "DateTime".toList (skipWs (b ++ "DateTime".toList ++ arg)) = some arg :=
        (strTok_skip_iff ⟨'D', "ateTime".toList, rfl, by decide⟩ _ arg).mpr ⟨b, hb, rfl⟩
      rw [e]
      exact (harg arg).mpr ha
    · have h1 : strTok "DateTime".toList (skipWs (b ++ "Timestamp".toList ++ arg)) = none := by
        rw [List.append_assoc, skipWs_of hb (by intro c hc; simp at hc; subst hc; decide)]
        rfl
      have e : strTok "Timestamp".toList (skipWs (b ++ "Timestamp".toList ++ arg)) = some arg :=
        (strTok_skip_iff ⟨'T', "imestamp".toList, rfl, by decide⟩ _ arg).mpr ⟨b, hb, rfl⟩
      rw [h1, e]
      exact (harg arg).mpr ha

theorem dt64Tz_iff (s w r : Str) : dt64Tz s = some (w, r) ↔
    ∃ b1 b2 q, Blank b1 ∧ Blank b2 ∧ Quoted q w ∧ s = b1 ++ ',' :: (b2 ++ '\'' :: (q ++ '\'' :: r)) := by
  unfold dt64Tz
  simp only [Option.bind_eq_bind, Option.bind_eq_some_iff]
  constructor
  · rintro ⟨r1, h1, h2⟩
    obtain ⟨b1, hb1, rfl⟩ := (tok_skip_iff (by decide) _ _).mp h1
    obtain ⟨b2, q, hb2, hq, rfl⟩ := (word_skip_iff _ _ _).mp h2
    exact ⟨b1, b2, q, hb1, hb2, hq, rfl⟩
  · rintro ⟨b1, b2, q, hb1, hb2, hq, rfl⟩
    exact ⟨_, (tok_skip_iff (by decide) _ _).mpr ⟨b1, hb1, rfl⟩, (word_skip_iff _ _ _).mpr ⟨b2, q, hb2, hq, rfl⟩⟩

theorem not_digit_blank {b r : Str} {c : Char} (hb : Blank b) (hc : isDigitC c = false) :
    ∀ x, (b ++ c :: r).head? = some x → isDigitC x = false := by
  intro x hx
  cases b with
  | nil => simp at hx; subst hx; exact hc
  | cons y ys =>
    simp at hx; subst hx
    cases hdig : isDigitC y with
    | false => rfl
    | true => exact absurd ((blank_iff _).mp hb y (by simp)) (by rw [isDigitC_notWs hdig]; decide)

theorem parseDateTime64_iff (s : Str) (p : Nat) (z : Option Str) : parseDateTime64 s = some (p, z) ↔
    ∃ b1 b2 b3 b4 b5 d arg, Blank b1 ∧ Blank b2 ∧ Blank b3 ∧ Blank b4 ∧ Blank b5 ∧ Numeral d p ∧ p < 2 ^ 32 ∧ ZoneArg2 arg z ∧
      s = b1 ++ "DateTime64".toList ++ b2 ++ '(' :: (b3 ++ d ++ b4 ++ arg ++ b5 ++ [')']) := by
  have hk : ∃ c q, "DateTime64".toList = c :: q ∧ isWs c = false := ⟨'D', "ateTime64".toList, rfl, by decide⟩
  have num : ∀ {d : Str}, d ≠ [] → (∀ c ∈ d, isDigitC c = true) → ∀ p, parseUnsigned (2 ^ 32) d = some p ↔
      Numeral d p ∧ p < 2 ^ 32 := by
    intro d h1 h2 p
    rw [parseUnsigned_iff]
    unfold Unsigned
    refine and_congr_left fun _ => ⟨?_, .inl⟩
    rintro (h | ⟨r, rfl, _⟩)
    · exact h
    · exact absurd (h2 '+' (by simp)) (by decide)
  unfold parseDateTime64
  simp only [Option.bind_eq_bind, Option.bind_eq_some_iff]
  constructor
  · rintro ⟨r1, h1, r2, h2, ⟨d, r3⟩, h3, p', h4, r6, h6, h7⟩
    dsimp only at h4 h6 h7
    obtain ⟨b1, hb1, rfl⟩ := (strTok_skip_iff hk _ _).mp h1
    obtain ⟨b2, hb2, rfl⟩ := (tok_skip_iff (by decide) _ _).mp h2
    obtain ⟨b3, hb3, h3', _⟩ := skipWs_split r2
    obtain ⟨hd1, hd2, hd3, hd4⟩ := digits1_split h3
    obtain ⟨b4, hb4, h4', _⟩ := skipWs_split r3
    obtain ⟨hn, h32⟩ := (num hd2 hd3 p').mp h4
    split at h7
    · rename_i he
      simp only [List.isEmpty_iff] at he
      subst he
      simp only [Option.some.injEq, Prod.mk.injEq] at h7
      obtain ⟨rfl, rfl⟩ := h7
      have hr2 : r2 = b3 ++ d ++ b4 ++ skipWs r3 := by
        rw [List.append_assoc, ← h4', List.append_assoc, ← hd1]; exact h3'
      generalize skipWs r3 = u at h6 hr2 ⊢
      cases hz : dt64Tz u with
      | none =>
        rw [hz] at h6
        obtain ⟨b5, hb5, h5⟩ := (tok_skip_iff (by decide) _ _).mp h6
        dsimp only at h5
        refine ⟨b1, b2, b3, b4, b5, d, [], hb1, hb2, hb3, hb4, hb5, hn, h32, .absent, ?_⟩
        rw [hr2, h5]; simp
      | some wr =>
        obtain ⟨w, r'⟩ := wr
        rw [hz] at h6
        obtain ⟨b5, hb5, h5⟩ := (tok_skip_iff (by decide) _ _).mp h6
        dsimp only at h5
        obtain ⟨c1, c2, q, hc1, hc2, hq, rfl⟩ := (dt64Tz_iff _ _ _).mp hz
        refine ⟨b1, b2, b3, b4 ++ c1, b5, d, _, hb1, hb2, hb3, ?_, hb5, hn, h32, .given hc2 hq, ?_⟩
        · intro c hc
          rcases List.mem_append.mp hc with h | h
          · exact hb4 c h
          · exact hc1 c h
        · rw [hr2, h5]; simp
    · simp at h7
  · rintro ⟨b1, b2, b3, b4, b5, d, arg, hb1, hb2, hb3, hb4, hb5, hn, h32, ha, rfl⟩
    obtain ⟨hd2, hd3, _⟩ := numeral_digits hn
    have e1 := (strTok_skip_iff hk (b1 ++ "DateTime64".toList ++ b2 ++ '(' :: (b3 ++ d ++ b4 ++ arg ++ b5 ++ [')'])) _).mpr
      ⟨b1, hb1, by rw [List.append_assoc (b1 ++ _)]⟩
    refine ⟨_, e1, _, (tok_skip_iff (by decide) _ _).mpr ⟨b2, hb2, rfl⟩, (d, b4 ++ (arg ++ (b5 ++ [')']))), ?_, p,
      (num hd2 hd3 p).mpr ⟨hn, h32⟩, [], ?_, ?_⟩
    · have : skipWs (b3 ++ d ++ b4 ++ arg ++ b5 ++ [')']) = d ++ (b4 ++ (arg ++ (b5 ++ [')']))) := by
        have e : b3 ++ d ++ b4 ++ arg ++ b5 ++ [')'] = b3 ++ (d ++ (b4 ++ (arg ++ (b5 ++ [')'])))) := by simp
        rw [e]
        obtain ⟨c, t, rfl, hc⟩ := numeral_head hn
        exact skipWs_of hb3 (by intro x hx; simp at hx; subst hx; exact isDigitC_notWs hc)
      rw [this]
      refine (digits1_iff _ _ _).mpr ⟨rfl, hd2, hd3, ?_⟩
      cases ha with
      | absent =>
        have e : b4 ++ ([] ++ (b5 ++ [')'])) = (b4 ++ b5) ++ ')' :: [] := by simp
        rw [e]
        refine not_digit_blank ?_ (by decide)
        intro c hc
        rcases List.mem_append.mp hc with h | h
        · exact hb4 c h
        · exact hb5 c h
      | given h1 h => exact not_digit_blank hb4 (by decide)
    · dsimp only
      cases ha with
      | absent =>
        have e : skipWs (b4 ++ ([] ++ (b5 ++ [')']))) = [')'] := by
          rw [skipWs_blank hb4, List.nil_append]
          exact skipWs_of hb5 (by intro x hx; simp at hx; subst hx; decide)
        rw [e]
        rfl
      | @given b q w h1 hq =>
        have e : skipWs (b4 ++ (',' :: (b ++ '\'' :: (q ++ ['\''])) ++ (b5 ++ [')']))) =
            ',' :: (b ++ '\'' :: (q ++ '\'' :: (b5 ++ [')']))) := by
          rw [skipWs_of hb4 (by intro x hx; simp at hx; subst hx; decide)]; simp
        have e' : dt64Tz (',' :: (b ++ '\'' :: (q ++ '\'' :: (b5 ++ [')'])))) = some (w, b5 ++ [')']) :=
          (dt64Tz_iff _ w (b5 ++ [')'])).mpr ⟨[], b, q, blank_nil, h1, hq, rfl⟩
        rw [e, e']
        dsimp only
        exact (tok_skip_iff (by decide) _ _).mpr ⟨b5, hb5, rfl⟩
    · dsimp only
      cases ha with
      | absent =>
        have e : skipWs (b4 ++ ([] ++ (b5 ++ [')']))) = [')'] := by
          rw [skipWs_blank hb4, List.nil_append]
          exact skipWs_of hb5 (by intro x hx; simp at hx; subst hx; decide)
        rw [e]
        rfl
      | @given b q w h1 hq =>
        have e : skipWs (b4 ++ (',' :: (b ++ '\'' :: (q ++ ['\''])) ++ (b5 ++ [')']))) =
            ',' :: (b ++ '\'' :: (q ++ '\'' :: (b5 ++ [')']))) := by
          rw [skipWs_of hb4 (by intro x hx; simp at hx; subst hx; decide)]; simp
        have e' : dt64Tz (',' :: (b ++ '\'' :: (q ++ '\'' :: (b5 ++ [')'])))) = some (w, b5 ++ [')']) :=
          (dt64Tz_iff _ w (b5 ++ [')'])).mpr ⟨[], b, q, blank_nil, h1, hq, rfl⟩
        rw [e, e']
        rfl

/-! ### Brackets -/

theorem takeBytes_split {n : Nat} {s p : Str} (h : takeBytes n s = some p) : ∃ q, s = p ++ q ∧ byteLen p = n := by
  fun_induction takeBytes n s generalizing p with
  | case1 => simp at h; subst h; exact ⟨_, rfl, rfl⟩
  | case2 => simp at h
  | case3 n c cs hc ih =>
    simp only [Option.map_eq_some_iff] at h
    obtain ⟨p', hp, rfl⟩ := h
    obtain ⟨q, rfl, hl⟩ := ih hp
    exact ⟨q, rfl, by rw [byteLen, hl]; omega⟩
  | case4 => simp at h

theorem dropBytes_split {n : Nat} {s r : Str} (h : dropBytes n s = some r) : ∃ o, s = o ++ r ∧ byteLen o = n := by
  fun_induction dropBytes n s with
  | case1 => simp at h; subst h; exact ⟨[], rfl, rfl⟩
  | case2 => simp at h
  | case3 n c cs hc ih =>
    obtain ⟨q, rfl, hl⟩ := ih h
    exact ⟨c :: q, rfl, by rw [byteLen, hl]; omega⟩
  | case4 => simp at h

theorem byteLen_one {q : Str} (h : byteLen q = 1) : ∃ d, q = [d] ∧ Ascii d := by
  cases q with
  | nil => simp [byteLen] at h
  | cons d t =>
    rw [byteLen] at h
    have h1 := utf8Size_pos d
    have h2 : byteLen t = 0 := by omega
    cases t with
    | nil => exact ⟨d, rfl, (ascii_iff d).mp (by omega)⟩
    | cons e u => rw [byteLen] at h2; have := utf8Size_pos e; omega

theorem sliceBytes_iff {kw r inner : Str} {n : Nat} (hn : byteLen kw = n) :
    sliceBytes (kw ++ r) (n + 1) (byteLen (kw ++ r) - 1) = some inner ↔
      ∃ c d, Ascii c ∧ Ascii d ∧ r = c :: (inner ++ [d]) := by
  constructor
  · intro h
    unfold sliceBytes at h
    split at h
    · rename_i hle
      split at h
      · rename_i p hp
        obtain ⟨q, hq, hl⟩ := takeBytes_split hp
        obtain ⟨o, rfl, ho⟩ := dropBytes_split h
        have hb := congrArg byteLen hq
        rw [byteLen_append (o ++ inner), hl] at hb
        have hq1 : byteLen q = 1 := by omega
        obtain ⟨d, rfl, hd⟩ := byteLen_one hq1
        rw [List.append_assoc] at hq
        have hpre : kw <+: o := by
          rcases List.prefix_or_prefix_of_prefix (List.prefix_append kw r) (hq ▸ List.prefix_append o _) with h | h
          · exact h
          · obtain ⟨t, ht⟩ := h
            have := congrArg byteLen ht
            rw [byteLen_append] at this; omega
        obtain ⟨t, rfl⟩ := hpre
        rw [byteLen_append] at ho
        obtain ⟨c, rfl, hc⟩ := byteLen_one (q := t) (by omega)
        rw [List.append_assoc] at hq
        have := List.append_cancel_left hq
        exact ⟨c, d, hc, hd, by simpa using this⟩
      · simp at h
    · simp at h
  · rintro ⟨c, d, hc, hd, rfl⟩
    have h := sliceBytes_wrap (kw ++ [c]) inner d ((ascii_iff d).mpr hd) (n := n + 1)
      (by rw [byteLen_append, hn]; simp [byteLen, (ascii_iff c).mpr hc])
    have e : kw ++ [c] ++ inner ++ [d] = kw ++ c :: (inner ++ [d]) := by simp
    rw [e] at h
    exact h

theorem startsWith_iff (s p : Str) : startsWith s p = true ↔ ∃ r, s = p ++ r := by
  unfold startsWith
  rw [List.isPrefixOf_iff_prefix]
  exact ⟨fun ⟨r, h⟩ => ⟨r, h.symm⟩, fun ⟨r, h⟩ => ⟨r, h.symm⟩⟩

theorem startsWith_not_iff (s p : Str) : startsWith s p = false ↔ ¬ p <+: s := by
  unfold startsWith
  rw [Bool.eq_false_iff, ne_eq, List.isPrefixOf_iff_prefix]

theorem parseNullable_iff (s i : Str) : parseNullable s = .ok (some i) ↔
    ∃ c d, Ascii c ∧ Ascii d ∧ ¬ "Nullable".toList <+: i ∧ s = "Nullable".toList ++ c :: (i ++ [d]) := by
  constructor
  · intro h
    unfold parseNullable at h
    split at h
    · rename_i hs
      obtain ⟨r, rfl⟩ := (startsWith_iff _ _).mp hs
      split at h
      · simp at h
      · rename_i i' hi
        obtain ⟨c, d, hc, hd, rfl⟩ := (sliceBytes_iff (kw := "Nullable".toList) (n := 8) (by decide)).mp hi
        split at h
        · simp at h
        · rename_i hn
          simp at h
          subst h
          exact ⟨c, d, hc, hd, (startsWith_not_iff _ _).mp (by simpa using hn), rfl⟩
    · simp at h
  · rintro ⟨c, d, hc, hd, hn, rfl⟩
    unfold parseNullable
    rw [if_pos (startsWith_append _ _),
      (sliceBytes_iff (kw := "Nullable".toList) (n := 8) (by decide)).mpr ⟨c, d, hc, hd, rfl⟩]
    dsimp only
    rw [if_neg (by rw [(startsWith_not_iff _ _).mpr hn]; decide)]

theorem parseFixedString_iff (s : Str) (n : Nat) : parseFixedString s = .ok (some n) ↔
    ∃ c d i, Ascii c ∧ Ascii d ∧ Unsigned (2 ^ 64) i n ∧ s = "FixedString".toList ++ c :: (i ++ [d]) := by
  constructor
  · intro h
    unfold parseFixedString at h
    split at h
    · rename_i hs
      obtain ⟨r, rfl⟩ := (startsWith_iff _ _).mp hs
      split at h
      · simp at h
      · rename_i i hi
        obtain ⟨c, d, hc, hd, rfl⟩ := (sliceBytes_iff (kw := "FixedString".toList) (n := 11) (by decide)).mp hi
        exact ⟨c, d, i, hc, hd, (parseUnsigned_iff _ _ _).mp (by simpa using h), rfl⟩
    · simp at h
  · rintro ⟨c, d, i, hc, hd, hn, rfl⟩
    unfold parseFixedString
    rw [if_pos (startsWith_append _ _),
      (sliceBytes_iff (kw := "FixedString".toList) (n := 11) (by decide)).mpr ⟨c, d, hc, hd, rfl⟩]
    dsimp only
    rw [(parseUnsigned_iff _ _ _).mpr hn]

theorem parseArray_iff (s i : Str) : parseArray s = .ok (some i) ↔
    ∃ c d, Ascii c ∧ Ascii d ∧ s = "Array".toList ++ c :: (i ++ [d]) := by
  constructor
  · intro h
    unfold parseArray at h
    split at h
    · rename_i hs
      obtain ⟨r, rfl⟩ := (startsWith_iff _ _).mp hs
      split at h
      · simp at h
      · rename_i i' hi
        obtain ⟨c, d, hc, hd, rfl⟩ := (sliceBytes_iff (kw := "Array".toList) (n := 5) (by decide)).mp hi
        simp at h
        subst h
        exact ⟨c, d, hc, hd, rfl⟩
    · simp at h
  · rintro ⟨c, d, hc, hd, rfl⟩
    unfold parseArray
    rw [if_pos (startsWith_append _ _),
      (sliceBytes_iff (kw := "Array".toList) (n := 5) (by decide)).mpr ⟨c, d, hc, hd, rfl⟩]

theorem charPos_iff (ch : Char) (s : Str) (p : Nat) : charPos ch s = some p ↔
    ∃ a b, s = a ++ ch :: b ∧ ch ∉ a ∧ a.length = p := by
  induction s generalizing p with
  | nil => simp [charPos]
  | cons c cs ih =>
    rw [charPos]
    by_cases hc : c = ch
    · subst hc
      rw [if_pos rfl]
      constructor
      · intro h; simp at h; subst h; exact ⟨[], cs, rfl, by simp, rfl⟩
      · rintro ⟨a, b, h, hn, rfl⟩
        cases a with
        | nil => rfl
        | cons x xs => simp at h; exact absurd (by simp [h.1]) hn
    · rw [if_neg hc]
      simp only [Option.map_eq_some_iff]
      constructor
      · rintro ⟨q, hq, rfl⟩
        obtain ⟨a, b, rfl, hn, rfl⟩ := (ih q).mp hq
        exact ⟨c :: a, b, rfl, by simp [hn, Ne.symm hc], rfl⟩
      · rintro ⟨a, b, h, hn, rfl⟩
        cases a with
        | nil => simp at h; exact absurd h.1 hc
        | cons x xs =>
          simp at h
          obtain ⟨rfl, rfl⟩ := h
          exact ⟨xs.length, (ih _).mpr ⟨xs, b, rfl, fun h => hn (by simp [h]), rfl⟩, rfl⟩

theorem byteLen_utf8 (s : Str) : (String.ofList s).utf8ByteSize = byteLen s := by
  induction s with
  | nil => rfl
  | cons c cs ih =>
    have : String.ofList (c :: cs) = String.ofList [c] ++ String.ofList cs := by rw [← String.ofList_append]; rfl
    rw [this, String.utf8ByteSize_append, ih, byteLen]
    simp

theorem parseMap_iff (s k v : Str) : parseMap s = .ok (some (k, v)) ↔
    ∃ c d x a b k' v', Ascii c ∧ Ascii d ∧ Ascii x ∧ ',' ∉ a ∧ a ++ ',' :: b = k' ++ x :: v' ∧
      a.length = (String.ofList k').utf8ByteSize ∧ Padded k k' ∧ Padded v v' ∧
      s = "Map".toList ++ c :: (a ++ ',' :: b ++ [d]) := by
  constructor
  · intro h
    unfold parseMap at h
    split at h
    · rename_i hs
      obtain ⟨r, rfl⟩ := (startsWith_iff _ _).mp hs
      split at h
      · simp at h
      · rename_i body hi
        obtain ⟨c, d, hc, hd, rfl⟩ := (sliceBytes_iff (kw := "Map".toList) (n := 3) (by decide)).mp hi
        split at h
        · simp at h
        · rename_i p hp
          obtain ⟨a, b, rfl, ha, rfl⟩ := (charPos_iff _ _ _).mp hp
          split at h
          · rename_i k' v' hk hv
            simp only [Out.ok.injEq, Option.some.injEq, Prod.mk.injEq] at h
            obtain ⟨q, hq, hl⟩ := takeBytes_split hk
            obtain ⟨o, ho, hl'⟩ := dropBytes_split hv
            have hpre : k' <+: o := by
              rcases List.prefix_or_prefix_of_prefix (hq ▸ List.prefix_append k' q) (ho ▸ List.prefix_append o v') with h | h
              · exact h
              · obtain ⟨t, ht⟩ := h
                have := congrArg byteLen ht
                rw [byteLen_append] at this; omega
            obtain ⟨t, rfl⟩ := hpre
            rw [byteLen_append] at hl'
            obtain ⟨x, rfl, hx⟩ := byteLen_one (q := t) (by omega)
            refine ⟨c, d, x, a, b, k', v', hc, hd, hx, ha, ?_, ?_, (trim_iff _ _).mp h.1, (trim_iff _ _).mp h.2, rfl⟩
            · rw [ho]; simp
            · rw [byteLen_utf8, hl]
          · simp at h
    · simp at h
  · rintro ⟨c, d, x, a, b, k', v', hc, hd, hx, ha, hab, hl, hk, hv, rfl⟩
    unfold parseMap
    rw [if_pos (startsWith_append _ _),
      (sliceBytes_iff (kw := "Map".toList) (n := 3) (by decide)).mpr ⟨c, d, hc, hd, rfl⟩]
    dsimp only
    rw [(charPos_iff _ _ _).mpr ⟨a, b, rfl, ha, rfl⟩]
    dsimp only
    rw [byteLen_utf8] at hl
    have e1 : takeBytes a.length (a ++ ',' :: b) = some k' := by
      rw [hl, hab]; exact takeBytes_append _ _
    have e2 : dropBytes (a.length + 1) (a ++ ',' :: b) = some v' := by
      rw [hab]
      have := dropBytes_append (k' ++ [x]) v'
      rw [byteLen_append, ← hl] at this
      simp only [byteLen, (ascii_iff x).mpr hx] at this
      simpa using this
    rw [e1, e2]
    dsimp only
    rw [(trim_iff _ _).mpr hk, (trim_iff _ _).mpr hv]

end CH
