import Verif.Spec.Types

/-! Numbers and quoted words as text. -/

namespace CH
open Spec

theorem digitChar_toNat {n : Nat} (h : n < 10) : (digitChar n).toNat = 48 + n := by
  have : ∀ n : Fin 10, (digitChar n.val).toNat = 48 + n.val := by decide
  exact this ⟨n, h⟩

theorem digitChar_isDigit {n : Nat} (h : n < 10) : isDigitC (digitChar n) = true := by
  simp [isDigitC, digitChar_toNat h]; omega

theorem natChars_lt {n : Nat} (h : n < 10) : natChars n = [digitChar n] := by
  rw [natChars, if_pos h]

theorem natChars_ge {n : Nat} (h : ¬ n < 10) : natChars n = natChars (n / 10) ++ [digitChar (n % 10)] := by
  rw [natChars, if_neg h]

theorem natChars_ne_nil (n : Nat) : natChars n ≠ [] := by
  rw [natChars]; split <;> simp

theorem natChars_digits (n : Nat) : ∀ c ∈ natChars n, isDigitC c = true := by
  induction n using Nat.strongRecOn with
  | _ n ih =>
    by_cases h : n < 10
    · rw [natChars_lt h]; simp [digitChar_isDigit h]
    · rw [natChars_ge h]
      intro c hc
      simp only [List.mem_append, List.mem_singleton] at hc
      rcases hc with hc | hc
      · exact ih (n / 10) (by omega) c hc
      · subst hc; exact digitChar_isDigit (by omega)

theorem natChars_digits_all (n : Nat) : (natChars n).all isDigitC = true := by
  simpa using natChars_digits n

theorem digitsVal_append (a : Str) (c : Char) : digitsVal (a ++ [c]) = digitsVal a * 10 + (c.toNat - 48) := by
  simp [digitsVal, List.foldl_append]

theorem digitsVal_natChars (n : Nat) : digitsVal (natChars n) = n := by
  induction n using Nat.strongRecOn with
  | _ n ih =>
    by_cases h : n < 10
    · rw [natChars_lt h]; simp [digitsVal, digitChar_toNat h]
    · rw [natChars_ge h, digitsVal_append, ih (n / 10) (by omega), digitChar_toNat (by omega)]; omega

theorem isDigitC_ne {c d : Char} (hc : isDigitC c = true) (hd : isDigitC d = false) : c ≠ d := by
  intro h; subst h; simp [hc] at hd

theorem parseUnsigned_natChars {b n : Nat} (h : n < b) : parseUnsigned b (natChars n) = some n := by
  have hd := natChars_digits n
  have hne := natChars_ne_nil n
  have hm : stripPlus (natChars n) = natChars n := by
    cases hn : natChars n with
    | nil => rfl
    | cons c cs =>
      have : c ≠ '+' := isDigitC_ne (hd c (by simp [hn])) (by decide)
      simp [stripPlus, this]
  unfold parseUnsigned
  simp only [hm]
  rw [if_neg (by simpa using hne), if_pos (natChars_digits_all n), digitsVal_natChars, if_pos h]

theorem digits1_natChars (n : Nat) (r : Str) (hr : ∀ c, r.head? = some c → isDigitC c = false) :
    digits1 (natChars n ++ r) = some (natChars n, r) := by
  have hd := natChars_digits n
  have h1 : (natChars n ++ r).takeWhile isDigitC = natChars n := by
    rw [List.takeWhile_append_of_pos hd]
    cases r with
    | nil => simp
    | cons c r => simp [hr c (by simp)]
  have h2 : (natChars n ++ r).dropWhile isDigitC = r := by
    rw [List.dropWhile_append_of_pos hd]
    cases r with
    | nil => simp
    | cons c r => simp [hr c (by simp)]
  unfold digits1
  simp only [h1, h2]
  rw [if_neg (by simpa using natChars_ne_nil n)]

theorem digits1_all (d r : Str) (hd : ∀ c ∈ d, isDigitC c = true) (hne : d ≠ [])
    (hr : ∀ c, r.head? = some c → isDigitC c = false) : digits1 (d ++ r) = some (d, r) := by
  have h1 : (d ++ r).takeWhile isDigitC = d := by
    rw [List.takeWhile_append_of_pos hd]
    cases r with
    | nil => simp
    | cons c r => simp [hr c (by simp)]
  have h2 : (d ++ r).dropWhile isDigitC = r := by
    rw [List.dropWhile_append_of_pos hd]
    cases r with
    | nil => simp
    | cons c r => simp [hr c (by simp)]
  unfold digits1
  simp only [h1, h2]
  rw [if_neg (by simpa using hne)]

theorem enumInteger_intChars {v : Int} (h1 : -(2 ^ 15) ≤ v) (h2 : v < 2 ^ 15) (r : Str)
    (hr : ∀ c, r.head? = some c → isDigitC c = false) : enumInteger (intChars v ++ r) = some (v, r) := by
  have hd := natChars_digits v.natAbs
  have hne := natChars_ne_nil v.natAbs
  by_cases hv : v < 0
  · have : intChars v ++ r = '-' :: (natChars v.natAbs ++ r) := by simp [intChars, hv]
    rw [this]
    have h1 : enumInteger ('-' :: (natChars v.natAbs ++ r)) =
        (parseSigned (2 ^ 15) ('-' :: natChars v.natAbs)).map fun v => (v, r) := by
      simp [enumInteger, optMinus, digits1_natChars _ r hr]
    rw [h1]
    have h2 : splitSign ('-' :: natChars v.natAbs) = (true, natChars v.natAbs) := by
      simp [splitSign]
    unfold parseSigned
    simp only [h2]
    rw [if_neg (by simpa using hne), if_pos (natChars_digits_all _), digitsVal_natChars]
    simp only [if_true]
    rw [if_pos (by omega)]
    simp; omega
  · have : intChars v ++ r = natChars v.natAbs ++ r := by simp [intChars, hv]
    rw [this]
    have hsg : splitSign (natChars v.natAbs) = (false, natChars v.natAbs) := by
      cases hn : natChars v.natAbs with
      | nil => rfl
      | cons c cs =>
        have hc := hd c (by simp [hn])
        have h1 : c ≠ '-' := isDigitC_ne hc (by decide)
        have h2 : c ≠ '+' := isDigitC_ne hc (by decide)
        simp [splitSign, h1, h2]
    have hom : optMinus (natChars v.natAbs ++ r) = ([], natChars v.natAbs ++ r) := by
      cases hn : natChars v.natAbs with
      | nil => exact absurd hn hne
      | cons c cs =>
        have hc := hd c (by simp [hn])
        have h1 : c ≠ '-' := isDigitC_ne hc (by decide)
        simp [optMinus, h1]
    unfold enumInteger
    simp only [hom, digits1_natChars _ r hr, List.nil_append]
    unfold parseSigned
    simp only [hsg]
    rw [if_neg (by simpa using hne), if_pos (natChars_digits_all _), digitsVal_natChars]
    rw [if_neg (by simp), if_pos (by omega)]
    simp; omega

theorem natChars_eq_toDigits (n : Nat) : natChars n = Nat.toDigits 10 n := by
  induction n using Nat.strongRecOn with
  | _ n ih =>
    have hc : ∀ n : Fin 10, digitChar n.val = Nat.digitChar n.val := by decide
    by_cases h : n < 10
    · rw [natChars_lt h, Nat.toDigits_of_lt_base h]; simp [hc ⟨n, h⟩]
    · rw [natChars_ge h, Nat.toDigits_of_base_le (by omega) (by omega), ih (n / 10) (by omega)]
      simp [hc ⟨n % 10, by omega⟩]

theorem intChars_eq_intText (v : Int) : intChars v = intText v := by
  unfold intText
  rw [Int.toString_eq_repr]
  cases v with
  | ofNat n =>
    have : ¬ (Int.ofNat n < 0) := by simp
    simp [intChars, Int.repr, Nat.repr_eq_ofList_toDigits, natChars_eq_toDigits]
  | negSucc n =>
    have : (Int.negSucc n < 0) := Int.negSucc_lt_zero n
    simp [intChars, Int.repr, this, Nat.repr_eq_ofList_toDigits, natChars_eq_toDigits]

/-! Quoted words. -/

theorem wordBody_escape (n r : Str) : wordBody (escapeQ n ++ '\'' :: r) = some (n, r) := by
  induction n with
  | nil => simp [escapeQ, wordBody.eq_def]
  | cons c n ih =>
    simp only [escapeQ]
    split
    · rename_i h
      simp only [List.cons_append]
      rw [wordBody.eq_def]
      simp only
      rw [if_neg (by decide), if_pos trivial, ih]
      rfl
    · rename_i h
      simp only [not_or] at h
      simp only [List.cons_append]
      rw [wordBody.eq_def]
      simp only
      rw [if_neg h.1, if_neg h.2, ih]
      rfl

theorem escapeQ_plain {n : Str} (h : plainText n) : escapeQ n = n := by
  induction n with
  | nil => rfl
  | cons c n ih =>
    have hc := h c (by simp)
    rw [escapeQ, if_neg (by simp [hc]), ih (fun c hc => h c (by simp [hc]))]

theorem word_escape (n r : Str) : word ('\'' :: (escapeQ n ++ '\'' :: r)) = some (n, r) := by
  simp [word, tok, wordBody_escape]

theorem word_plain {n : Str} (h : plainText n) (r : Str) : word ('\'' :: (n ++ '\'' :: r)) = some (n, r) := by
  have := word_escape n r
  rwa [escapeQ_plain h] at this

theorem skipWs_cons {c : Char} (h : isWs c = false) (s : Str) : skipWs (c :: s) = c :: s := by
  simp [skipWs, h]
theorem skipWs_space (s : Str) : skipWs (' ' :: s) = skipWs s := by
  have : isWs ' ' = true := by decide
  simp [skipWs, this]

theorem isDigitC_notWs {c : Char} (h : isDigitC c = true) : isWs c = false := by
  simp only [isDigitC, Bool.and_eq_true, decide_eq_true_eq] at h
  simp only [isWs]
  simp only [Bool.or_eq_false_iff, Bool.and_eq_false_iff, decide_eq_false_iff_not, beq_eq_false_iff_ne]
  omega

theorem intText_skipWs (v : Int) (r : Str) : skipWs (intText v ++ r) = intText v ++ r := by
  rw [← intChars_eq_intText]
  unfold intChars
  split
  · exact skipWs_cons (by decide) _
  · cases h : natChars v.natAbs with
    | nil => exact absurd h (natChars_ne_nil _)
    | cons c cs =>
      exact skipWs_cons (isDigitC_notWs (natChars_digits v.natAbs c (by rw [h]; simp))) _

/-- One entry followed by a character that ends it. -/
theorem enumPair_entry {it : Str × Int} (h1 : -(2 ^ 15) ≤ it.2) (h2 : it.2 < 2 ^ 15) {c : Char} (r : Str)
    (hc : isDigitC c = false) (hw : isWs c = false) (pre : Str) (hpre : ∀ c ∈ pre, isWs c = true) :
    enumPair (pre ++ enumEntry it ++ c :: r) = some (it, c :: r) := by
  have hs : skipWs (pre ++ enumEntry it ++ c :: r) = enumEntry it ++ c :: r := by
    rw [skipWs, List.append_assoc, List.dropWhile_append_of_pos hpre]
    exact skipWs_cons (by decide) _
  unfold enumPair
  rw [hs]
  have he : enumEntry it ++ c :: r = '\'' :: (escapeQ it.1 ++ '\'' :: (' ' :: '=' :: ' ' :: (intText it.2 ++ c :: r))) := by
    simp [enumEntry]
  rw [he, word_escape]
  simp only [Option.bind_eq_bind, Option.bind_some]
  rw [skipWs_space, skipWs_cons (by decide)]
  simp only [tok, if_true, Option.bind_some]
  rw [skipWs_space, intText_skipWs, ← intChars_eq_intText, enumInteger_intChars h1 h2]
  · simp only [Option.bind_some, Option.pure_def]
    rw [skipWs_cons hw]
  · intro d hd; simp at hd; subst hd; exact hc

theorem enumBody_entries (items : List (Str × Int)) (hne : items ≠ [])
    (h : ∀ it ∈ items, -(2 ^ 15) ≤ it.2 ∧ it.2 < 2 ^ 15) (pre : Str) (hpre : ∀ c ∈ pre, isWs c = true) :
    enumBody (pre ++ enumEntries items ++ [')']) = some (items, [')']) := by
  induction items generalizing pre with
  | nil => contradiction
  | cons it rest ih =>
    have hit := h it (by simp)
    rw [enumBody]
    cases rest with
    | nil =>
      have := enumPair_entry hit.1 hit.2 (c := ')') [] (by decide) (by decide) pre hpre
      simp only [enumEntries]
      rw [this]
      simp [tok]
    | cons b rest =>
      have hsplit : pre ++ enumEntries (it :: b :: rest) ++ [')'] =
          pre ++ enumEntry it ++ ',' :: (' ' :: (enumEntries (b :: rest) ++ [')'])) := by
        simp [enumEntries]
      have hp := enumPair_entry hit.1 hit.2 (c := ',') (' ' :: (enumEntries (b :: rest) ++ [')'])) (by decide) (by decide)
        pre hpre
      rw [← hsplit] at hp
      rw [hp]
      have := ih (by simp) (fun x hx => h x (by simp [hx])) [' '] (by simp; decide)
      simp only [List.cons_append, List.nil_append] at this
      simp [tok, this]

/-- The name as written by the client: entries separated by commas without space. -/
theorem enumBody_written (items : List (Str × Int)) (hne : items ≠ [])
    (h : ∀ it ∈ items, plainText it.1 ∧ -(2 ^ 15) ≤ it.2 ∧ it.2 < 2 ^ 15) :
    enumBody (joinComma (items.map enumItemName) ++ [')']) = some (items, [')']) := by
  have hn : ∀ it : Str × Int, plainText it.1 → enumItemName it = enumEntry it := by
    intro it hp
    simp [enumItemName, enumEntry, escapeQ_plain hp, intChars_eq_intText]
  induction items with
  | nil => contradiction
  | cons it rest ih =>
    obtain ⟨hp, hit⟩ := h it (by simp)
    rw [enumBody]
    cases rest with
    | nil =>
      have := enumPair_entry hit.1 hit.2 (c := ')') [] (by decide) (by decide) [] (by simp)
      have he : joinComma (List.map enumItemName [it]) = enumEntry it := by simp [joinComma, hn it hp]
      rw [List.nil_append] at this
      rw [he, this]
      simp [tok]
    | cons b rest =>
      have hp' := enumPair_entry hit.1 hit.2 (c := ',') (joinComma ((b :: rest).map enumItemName) ++ [')'])
        (by decide) (by decide) [] (by simp)
      have hsplit : joinComma ((it :: b :: rest).map enumItemName) ++ [')'] =
          [] ++ enumEntry it ++ ',' :: (joinComma ((b :: rest).map enumItemName) ++ [')']) := by
        simp [joinComma, hn it hp]
      rw [hsplit, hp']
      have := ih (by simp) (fun x hx => h x (by simp [hx]))
      rw [List.map_cons] at this
      simp [tok, this]

end CH
