import Verif.Spec.Options
import Verif.Lemmas.Text

/-! Lemmas on options, durations and quoting. -/

namespace CH
open Spec

theorem digit_iff (c : Char) : Digit c ↔ isDigitC c = true := by
  simp only [Digit, isDigitC, Bool.and_eq_true, decide_eq_true_eq, Char.le_def, UInt32.le_iff_toNat_le]
  exact Iff.rfl

theorem denotes_iff (s : Str) (n : Nat) : Denotes s n ↔ s ≠ [] ∧ s.all isDigitC = true ∧ digitsVal s = n := by
  constructor
  · intro h
    induction h with
    | one h => simp [digitsVal, (digit_iff _).mp h]
    | snoc h hc ih =>
      refine ⟨by simp, by simp only [List.all_append, ih.2.1, List.all_cons, (digit_iff _).mp hc, List.all_nil]; rfl, ?_⟩
      rw [digitsVal_append, ih.2.2]
      simp [Nat.mul_comm]
  · rintro ⟨hne, hd, rfl⟩
    obtain ⟨k, hk⟩ : ∃ k, s.length = k := ⟨_, rfl⟩
    induction k generalizing s with
    | zero => exact absurd (List.length_eq_zero_iff.mp hk) hne
    | succ k ih =>
      obtain rfl | ⟨s', c, rfl⟩ := List.eq_nil_or_concat s
      · exact absurd rfl hne
      · simp only [List.concat_eq_append] at *
        simp only [List.all_append, List.all_cons, List.all_nil, Bool.and_true, Bool.and_eq_true] at hd
        by_cases hs : s' = []
        · subst hs
          have : digitsVal ([] ++ [c]) = c.toNat - '0'.toNat := by simp [digitsVal]
          rw [this]
          exact .one ((digit_iff c).mpr hd.2)
        · rw [digitsVal_append, Nat.mul_comm]
          exact .snoc (ih s' hs hd.1 (by simpa using hk)) ((digit_iff c).mpr hd.2)

theorem parseUsize_iff (s : Str) (n : Nat) : parseUsize s = some n ↔ IsUsize s n := by
  rw [parseUsize, parseUnsigned, IsUsize]
  constructor
  · intro h
    simp only at h
    split at h
    · simp at h
    rename_i hne
    split at h
    · rename_i hd
      split at h
      · rename_i hb
        simp only [Option.some.injEq] at h
        subst h
        refine ⟨hb, ?_⟩
        have hden : Denotes (stripPlus s) (digitsVal (stripPlus s)) :=
          (denotes_iff _ _).mpr ⟨by simpa using hne, hd, rfl⟩
        cases s with
        | nil => exact absurd rfl hne
        | cons c r =>
          by_cases hc : c = '+'
          · subst hc; simp only [stripPlus, if_true] at hden ⊢; exact .inr ⟨r, rfl, hden⟩
          · simp only [stripPlus, if_neg hc] at hden ⊢; exact .inl hden
      · simp at h
    · simp at h
  · rintro ⟨hb, h | ⟨d, rfl, h⟩⟩
    · obtain ⟨h1, h2, h3⟩ := (denotes_iff _ _).mp h
      have hs : stripPlus s = s := by
        cases s with
        | nil => rfl
        | cons c r =>
          have : isDigitC c = true := by simp only [List.all_cons, Bool.and_eq_true] at h2; exact h2.1
          rw [stripPlus, if_neg (isDigitC_ne this (by decide))]
      simp [hs, h1, h2, h3, hb]
    · obtain ⟨h1, h2, h3⟩ := (denotes_iff _ _).mp h
      simp [stripPlus, h1, h2, h3, hb]

theorem span_digits {d r : Str} (hd : d.all isDigitC = true) (hr : ∀ c, r.head? = some c → isDigitC c = false) :
    (d ++ r).takeWhile isDigitC = d ∧ (d ++ r).dropWhile isDigitC = r := by
  induction d with
  | nil =>
    cases r with
    | nil => simp
    | cons c r => simp [hr c rfl]
  | cons c d ih =>
    simp only [List.all_cons, Bool.and_eq_true] at hd
    simp [hd.1, ih hd.2]

theorem parseDuration_iff (s : Str) (ms : Nat) : parseDuration s = some ms ↔ IsDuration s ms := by
  rw [parseDuration, IsDuration]
  constructor
  · intro h
    have hsplit := List.takeWhile_append_dropWhile (p := isDigitC) (l := s)
    generalize hl : s.takeWhile isDigitC = left at h hsplit
    generalize hr : s.dropWhile isDigitC = right at h hsplit
    have hld : left.all isDigitC = true := by
      rw [← hl]; exact List.all_takeWhile
    cases hp : parseUnsigned (2 ^ 64) left with
    | none => simp [hp] at h
    | some n =>
      rw [hp] at h
      simp only at h
      obtain ⟨hn, hden | ⟨d, rfl, _⟩⟩ := (parseUsize_iff left n).mp hp
      · split at h
        · rename_i hs
          simp only [Option.some.injEq] at h
          exact ⟨left, n, hden, hn, .inl ⟨by rw [← hsplit, hs]; rfl, by omega⟩⟩
        · split at h
          · rename_i hs
            simp only [Option.some.injEq] at h
            exact ⟨left, n, hden, hn, .inr ⟨by rw [← hsplit, hs]; rfl, h.symm⟩⟩
          · simp at h
      · simp at hld; exact absurd hld.1 (by decide)
  · rintro ⟨d, n, hden, hn, h⟩
    have hd := (denotes_iff _ _).mp hden
    have hp : parseUnsigned (2 ^ 64) d = some n := (parseUsize_iff d n).mpr ⟨hn, .inl hden⟩
    rcases h with ⟨rfl, rfl⟩ | ⟨rfl, rfl⟩
    · obtain ⟨e1, e2⟩ := span_digits (d := d) (r := "s".toList) hd.2.1 (by intro c hc; simp at hc; subst hc; decide)
      simp only [e1, e2, hp]
      rw [if_pos (by decide), Nat.mul_comm]
    · obtain ⟨e1, e2⟩ := span_digits (d := d) (r := "ms".toList) hd.2.1 (by intro c hc; simp at hc; subst hc; decide)
      simp only [e1, e2, hp]
      rw [if_neg (by decide), if_pos (by decide)]

theorem parseBool_iff (s : Str) (b : Bool) : parseBool s = some b ↔ IsBool s b := by
  rw [parseBool, IsBool]
  split
  · rename_i h; subst h; simp
  · rename_i h1
    split
    · rename_i h; subst h; simp
    · rename_i h2; simp only [h1, h2, false_and, or_self, reduceCtorEq]

theorem parseOptDuration_iff (s : Str) (d : Option Nat) : parseOptDuration s = some d ↔ IsOptDuration s d := by
  rw [parseOptDuration, IsOptDuration]
  split
  · rename_i h
    subst h
    simp only [Option.some.injEq, true_and]
    constructor
    · exact fun h => .inl h.symm
    · rintro (rfl | ⟨ms, _, hd⟩)
      · rfl
      · have h := (parseDuration_iff _ _).mpr hd
        rw [show parseDuration "none".toList = none by decide] at h
        simp at h
  · rename_i h
    simp only [h, false_and, false_or, Option.map_eq_some_iff]
    constructor
    · rintro ⟨ms, h1, rfl⟩; exact ⟨ms, rfl, (parseDuration_iff _ _).mp h1⟩
    · rintro ⟨ms, rfl, h1⟩; exact ⟨ms, (parseDuration_iff _ _).mpr h1, rfl⟩

theorem parseCompression_iff (s : Str) (b : Bool) : parseCompression s = some b ↔ IsCompression s b := by
  rw [parseCompression, IsCompression]
  split
  · rename_i h; subst h; simp
  · rename_i h1
    split
    · rename_i h; subst h; simp
    · rename_i h2; simp only [h1, h2, false_and, or_self, reduceCtorEq]

theorem splitComma_ne (s : Str) : splitComma s ≠ [] := by
  cases s with
  | nil => simp [splitComma]
  | cons c cs =>
    rw [splitComma]; split
    · simp
    · split <;> simp

theorem splitComma_join (s : Str) : ((splitComma s).intersperse [',']).flatten = s := by
  induction s with
  | nil => rfl
  | cons c cs ih =>
    rw [splitComma]
    split
    · rename_i h
      subst h
      cases hs : splitComma cs with
      | nil => exact absurd hs (splitComma_ne cs)
      | cons w ws => rw [hs] at ih; simp [← ih]
    · cases hs : splitComma cs with
      | nil => exact absurd hs (splitComma_ne cs)
      | cons w ws =>
        rw [hs] at ih
        cases ws with
        | nil => simp at ih; simp [ih]
        | cons w' ws => simp at ih; simp [ih]

theorem splitComma_nocomma (s : Str) : ∀ h ∈ splitComma s, ',' ∉ h := by
  induction s with
  | nil => simp [splitComma]
  | cons c cs ih =>
    rw [splitComma]
    split
    · intro h hh
      simp only [List.mem_cons] at hh
      rcases hh with rfl | hh
      · simp
      · exact ih h hh
    · rename_i hc
      cases hs : splitComma cs with
      | nil => exact absurd hs (splitComma_ne cs)
      | cons w ws =>
        rw [hs] at ih
        intro h hh
        simp only [List.mem_cons] at hh
        rcases hh with rfl | hh
        · simp only [List.mem_cons, not_or]; exact ⟨fun e => hc e.symm, ih w (by simp)⟩
        · exact ih h (by simp [hh])

theorem splitComma_single {h : Str} (hh : ',' ∉ h) : splitComma h = [h] := by
  induction h with
  | nil => rfl
  | cons c cs ih =>
    simp only [List.mem_cons, not_or] at hh
    rw [splitComma, if_neg (fun e => hh.1 e.symm), ih hh.2]

theorem splitComma_append {h : Str} (hh : ',' ∉ h) (r : Str) : splitComma (h ++ ',' :: r) = h :: splitComma r := by
  induction h with
  | nil => simp [splitComma]
  | cons c cs ih =>
    simp only [List.mem_cons, not_or] at hh
    rw [List.cons_append, splitComma, if_neg (fun e => hh.1 e.symm), ih hh.2]

theorem splitComma_unique (hs : List Str) (hne : hs ≠ []) (hc : ∀ h ∈ hs, ',' ∉ h) :
    splitComma (hs.intersperse [',']).flatten = hs := by
  induction hs with
  | nil => exact absurd rfl hne
  | cons h hs ih =>
    cases hs with
    | nil => simpa using splitComma_single (hc h (by simp))
    | cons h' hs =>
      have := ih (by simp) fun x hx => hc x (by simp [hx])
      simp only [List.intersperse_cons₂, List.flatten_cons, List.cons_append, List.nil_append]
      rw [splitComma_append (hc h (by simp)), this]

theorem mapM_some_iff {f : α → Option β} (l : List α) (r : List β) : l.mapM f = some r ↔ l.map f = r.map some := by
  induction l generalizing r with
  | nil => cases r <;> simp
  | cons a l ih =>
    rw [List.mapM_cons]
    cases hf : f a with
    | none => cases r <;> simp [hf]
    | some b =>
      cases hm : l.mapM f with
      | none =>
        cases r with
        | nil => simp
        | cons c r =>
          simp only [List.map_cons, hf, List.cons.injEq, Option.some.injEq]
          have : ¬ l.map f = r.map some := fun e => by have := (ih r).mpr e; rw [hm] at this; simp at this
          simp [this]
      | some bs =>
        have := (ih bs).mp hm
        cases r with
        | nil => simp
        | cons c r =>
          simp only [List.map_cons, hf, this, List.cons.injEq, Option.some.injEq]
          constructor
          · intro h
            simp at h
            simp [h.1, h.2]
          · rintro ⟨rfl, h⟩
            have := (List.map_inj_right (f := some) (by simp)).mp h
            simp [this]

theorem parseHosts_iff (lib : UrlLib) (s : Str) (as : List Addr) : parseHosts lib s = some as ↔ IsHosts lib s as := by
  rw [parseHosts, mapM_some_iff, IsHosts]
  constructor
  · intro h
    exact ⟨splitComma s, (splitComma_join s).symm, splitComma_ne s, splitComma_nocomma s, h⟩
  · rintro ⟨hs, rfl, h1, h2, h3⟩
    rw [splitComma_unique hs h1 h2, h3]

end CH
