import Verif.Lemmas.Names

/-! Decimals, aggregate functions, low cardinality, and the choice between the forms. -/

namespace CH
open Spec

/-! ### Decimals -/

theorem lastPos_iff (s : Str) (e : Nat) : lastPos ')' s = some e ↔
    ∃ a junk, s = a ++ ')' :: junk ∧ ')' ∉ junk ∧ a.length = e := by
  have hnone : ∀ s, lastPos ')' s = none ↔ ')' ∉ s := by
    intro s
    induction s with
    | nil => simp [lastPos]
    | cons c cs ih =>
      rw [lastPos]
      cases h : lastPos ')' cs with
      | some i =>
        have : ¬ (lastPos ')' cs = none) := by rw [h]; simp
        rw [ih] at this
        simp only [reduceCtorEq, List.mem_cons, false_iff]
        exact fun h => h (.inr (Classical.not_not.mp this))
      | none =>
        have := ih.mp h
        by_cases hc : c = ')'
        · simp [hc]
        · simp [hc, this, Ne.symm hc]
  induction s generalizing e with
  | nil => simp [lastPos]
  | cons c cs ih =>
    rw [lastPos]
    cases h : lastPos ')' cs with
    | some i =>
      obtain ⟨a, junk, rfl, hj, rfl⟩ := (ih i).mp h
      simp only [Option.some.injEq]
      constructor
      · rintro rfl; exact ⟨c :: a, junk, rfl, hj, rfl⟩
      · rintro ⟨a', junk', h1, h2, rfl⟩
        cases a' with
        | nil =>
          simp at h1
          exact absurd (by rw [← h1.2]; simp) h2
        | cons x xs =>
          simp at h1
          have := (ih xs.length).mpr ⟨xs, junk', h1.2, h2, rfl⟩
          rw [h] at this
          simp at this
          simp [this]
    | none =>
      have hn := (hnone cs).mp h
      by_cases hc : c = ')'
      · subst hc
        simp only [if_true, Option.some.injEq]
        constructor
        · rintro rfl; exact ⟨[], cs, rfl, hn, rfl⟩
        · rintro ⟨a', junk', h1, h2, rfl⟩
          cases a' with
          | nil => rfl
          | cons x xs =>
            simp at h1
            exact absurd (by rw [h1.2]; simp) hn
      · simp only [if_neg hc, reduceCtorEq, false_iff]
        rintro ⟨a', junk', h1, h2, rfl⟩
        cases a' with
        | nil => simp at h1; exact hc h1.1
        | cons x xs =>
          simp at h1
          exact absurd (by rw [h1.2]; simp) hn

theorem splitComma_ne (s : Str) : splitComma s ≠ [] := by
  cases s with
  | nil => simp [splitComma]
  | cons c cs =>
    rw [splitComma]
    split
    · simp
    · split <;> simp

theorem splitComma_one_inv {s a : Str} (h : splitComma s = [a]) : s = a ∧ ',' ∉ a := by
  induction s generalizing a with
  | nil => simp [splitComma] at h; subst h; simp
  | cons c cs ih =>
    rw [splitComma] at h
    split at h
    · simp only [List.cons.injEq] at h
      exact absurd h.2 (splitComma_ne cs)
    · rename_i hc
      split at h
      · rename_i he; exact absurd he (splitComma_ne cs)
      · rename_i w ws he
        simp only [List.cons.injEq] at h
        obtain ⟨rfl, rfl⟩ := h
        obtain ⟨rfl, hn⟩ := ih he
        exact ⟨rfl, by simp [hn, Ne.symm hc]⟩

theorem splitComma_two_inv {s a b : Str} (h : splitComma s = [a, b]) : s = a ++ ',' :: b ∧ ',' ∉ a ∧ ',' ∉ b := by
  induction s generalizing a with
  | nil => simp [splitComma] at h
  | cons c cs ih =>
    rw [splitComma] at h
    split at h
    · rename_i hc
      simp only [List.cons.injEq] at h
      obtain ⟨rfl, h⟩ := h
      obtain ⟨rfl, hn⟩ := splitComma_one_inv h
      subst hc
      exact ⟨rfl, by simp, hn⟩
    · rename_i hc
      split at h
      · simp at h
      · rename_i w ws he
        simp only [List.cons.injEq] at h
        obtain ⟨rfl, rfl⟩ := h
        obtain ⟨rfl, h1, h2⟩ := ih he
        exact ⟨rfl, by simp [h1, Ne.symm hc], h2⟩

theorem unsigned_chars {b : Nat} {s : Str} {v : Nat} (h : Unsigned b s v) :
    s ≠ [] ∧ ∀ c ∈ s, isDigitC c = true ∨ c = '+' := by
  rcases h.1 with h' | ⟨r, rfl, h'⟩
  · obtain ⟨h1, h2, _⟩ := numeral_digits h'
    exact ⟨h1, fun c hc => .inl (h2 c hc)⟩
  · obtain ⟨h1, h2, _⟩ := numeral_digits h'
    refine ⟨by simp, fun c hc => ?_⟩
    rcases List.mem_cons.mp hc with rfl | hc
    · exact .inr rfl
    · exact .inl (h2 c hc)

theorem unsigned_no {b : Nat} {s : Str} {v : Nat} (h : Unsigned b s v) {d : Char} (h1 : isDigitC d = false) (h2 : d ≠ '+') :
    d ∉ s := by
  intro hd
  rcases (unsigned_chars h).2 d hd with h | h
  · rw [h] at h1; cases h1
  · exact h2 h

theorem padded_no {b : Nat} {s t : Str} {v : Nat} (h : Unsigned b s v) (hp : Padded s t) {d : Char}
    (h1 : isDigitC d = false) (h2 : d ≠ '+') (h3 : isWs d = false) : d ∉ t := by
  obtain ⟨x, y, hx, hy, rfl, _⟩ := hp
  intro hd
  have h3 := (isWs_false_iff d).mp h3
  rcases List.mem_append.mp hd with hd | hd
  · rcases List.mem_append.mp hd with hd | hd
    · exact h3 (hx d hd)
    · exact unsigned_no h h1 h2 hd
  · exact h3 (hy d hd)

theorem padded_length {s t : Str} (hp : Padded s t) : s.length ≤ t.length := by
  obtain ⟨x, y, _, _, rfl, _⟩ := hp
  simp; omega

/-- The three spellings of a decimal. -/
def DecForm (s : Str) (p sc : Nat) (nb : NoBits) : Prop :=
  (∃ x y xs ys junk, Padded x xs ∧ Padded y ys ∧ Unsigned 256 x p ∧ Unsigned 256 y sc ∧ sc ≤ p ∧ p ≤ 18 ∧
    ('(' ∉ junk ∧ ')' ∉ junk) ∧ nb = (if p ≤ 9 then .n32 else .n64) ∧
    s = "Decimal(".toList ++ xs ++ ',' :: (ys ++ ')' :: junk)) ∨
  (∃ y junk, Unsigned 256 y sc ∧ ('(' ∉ junk ∧ ')' ∉ junk) ∧ p = 9 ∧ nb = .n32 ∧
    s = "Decimal32(".toList ++ y ++ ')' :: junk) ∨
  (∃ y junk, Unsigned 256 y sc ∧ ('(' ∉ junk ∧ ')' ∉ junk) ∧ p = 18 ∧ nb = .n64 ∧
    s = "Decimal64(".toList ++ y ++ ')' :: junk)

theorem fromPrecision_iff (p : Nat) (nb : NoBits) :
    NoBits.fromPrecision p = some nb ↔ p ≤ 18 ∧ nb = (if p ≤ 9 then .n32 else .n64) := by
  unfold NoBits.fromPrecision
  by_cases h1 : p ≤ 9
  · rw [if_pos h1, if_pos h1]; simp only [Option.some.injEq]
    exact ⟨fun h => ⟨by omega, h.symm⟩, fun h => h.2.symm⟩
  · rw [if_neg h1, if_neg h1]
    by_cases h2 : p ≤ 18
    · rw [if_pos h2]; simp only [Option.some.injEq]
      exact ⟨fun h => ⟨h2, h.symm⟩, fun h => h.2.symm⟩
    · rw [if_neg h2]; simp [h2]

theorem parseDecimal_split {s : Str} {p sc : Nat} {nb : NoBits} (h : parseDecimal s = some (p, sc, nb)) :
    DecForm s p sc nb := by
  unfold parseDecimal at h
  split at h
  · simp at h
  split at h
  · simp at h
  dsimp only at h
  have hsplit := List.takeWhile_append_dropWhile (p := fun c : Char => decide (c ≠ '(')) (l := s)
  obtain ⟨_, _, _, hhead⟩ := dropWhile_split (fun c : Char => decide (c ≠ '(')) s
  generalize s.dropWhile (fun c : Char => decide (c ≠ '(')) = tail at h hsplit hhead
  generalize s.takeWhile (fun c : Char => decide (c ≠ '(')) = head at h hsplit
  split at h
  · simp at h
  · rename_i x rest
    have hx : x = '(' := by
      have := hhead x rfl
      simpa using this
    subst hx
    split at h
    · simp at h
    · rename_i hno
      have hno : '(' ∉ rest := by simpa using hno
      split at h
      · simp at h
      · rename_i e he
        obtain ⟨params, junk, rfl, hj, rfl⟩ := (lastPos_iff _ _).mp he
        rw [List.take_left] at h
        have hjj : '(' ∉ junk ∧ ')' ∉ junk := ⟨fun hm => hno (by simp [hm]), hj⟩
        subst hsplit
        split at h
        · rename_i hh
          subst hh
          simp only [Option.map_eq_some_iff, Prod.mk.injEq] at h
          obtain ⟨sc', hu, rfl, rfl, rfl⟩ := h
          exact .inr (.inl ⟨params, junk, (parseUnsigned_iff _ _ _).mp hu, hjj, rfl, rfl, by simp⟩)
        · split at h
          · rename_i hh
            subst hh
            simp only [Option.map_eq_some_iff, Prod.mk.injEq] at h
            obtain ⟨sc', hu, rfl, rfl, rfl⟩ := h
            exact .inr (.inr ⟨params, junk, (parseUnsigned_iff _ _ _).mp hu, hjj, rfl, rfl, by simp⟩)
          · split at h
            · rename_i hh
              subst hh
              split at h
              · rename_i ps ss hps
                split at h
                · rename_i p' s' hp hs
                  split at h
                  · simp at h
                  · rename_i hle
                    simp only [Option.map_eq_some_iff, Prod.mk.injEq] at h
                    obtain ⟨nb', hnb, rfl, rfl, rfl⟩ := h
                    obtain ⟨h18, hnb⟩ := (fromPrecision_iff _ _).mp hnb
                    have : ∃ a b, splitComma params = [a, b] ∧ trim a = ps ∧ trim b = ss := by
                      generalize splitComma params = l at hps
                      match l, hps with
                      | [a, b], hps => simp at hps; exact ⟨a, b, rfl, hps.1, hps.2⟩
                    obtain ⟨a, b, hab, ha, hb⟩ := this
                    obtain ⟨rfl, _, _⟩ := splitComma_two_inv hab
                    refine .inl ⟨ps, ss, a, b, junk, (trim_iff _ _).mp ha, (trim_iff _ _).mp hb,
                      (parseUnsigned_iff _ _ _).mp hp, (parseUnsigned_iff _ _ _).mp hs, by omega, h18, hjj, hnb, by simp⟩
                · simp at h
              · simp at h
            · simp at h

theorem parseDecimal_of {s : Str} {p sc : Nat} {nb : NoBits} (h : DecForm s p sc nb) :
    parseDecimal s = some (p, sc, nb) := by
  rcases h with ⟨x, y, xs, ys, junk, hx, hy, hp, hs, hle, h18, hj, rfl, rfl⟩ | ⟨y, junk, hs, hj, rfl, rfl, rfl⟩ |
    ⟨y, junk, hs, hj, rfl, rfl, rfl⟩
  · have hlx : 1 ≤ xs.length := by
      have := padded_length hx
      have := List.length_pos_iff.mpr (unsigned_chars hp).1
      omega
    have hly : 1 ≤ ys.length := by
      have := padded_length hy
      have := List.length_pos_iff.mpr (unsigned_chars hs).1
      omega
    have e : "Decimal(".toList ++ xs ++ ',' :: (ys ++ ')' :: junk) = "Decimal".toList ++ '(' :: ((xs ++ ',' :: ys) ++ ')' :: junk) := by
      simp
    rw [e]
    have hlen : 12 ≤ byteLen ("Decimal".toList ++ '(' :: ((xs ++ ',' :: ys) ++ ')' :: junk)) := by
      refine Nat.le_trans ?_ (le_byteLen _)
      simp; omega
    unfold parseDecimal
    rw [if_neg (by omega), if_neg (by rw [startsWith_append]; decide)]
    dsimp only
    have h1 : ("Decimal".toList ++ '(' :: ((xs ++ ',' :: ys) ++ ')' :: junk)).takeWhile (fun c => decide (c ≠ '(')) =
      "Decimal".toList := rfl
    have h2 : ("Decimal".toList ++ '(' :: ((xs ++ ',' :: ys) ++ ')' :: junk)).dropWhile (fun c => decide (c ≠ '(')) =
      '(' :: ((xs ++ ',' :: ys) ++ ')' :: junk) := rfl
    rw [h1, h2]
    dsimp only
    have hno : '(' ∉ (xs ++ ',' :: ys) ++ ')' :: junk := by
      have a1 := padded_no hp hx (d := '(') (by decide) (by decide) (by decide)
      have a2 := padded_no hs hy (d := '(') (by decide) (by decide) (by decide)
      simp [a1, a2, hj.1]
    rw [if_neg (by simpa using hno), (lastPos_iff _ _).mpr ⟨_, junk, rfl, hj.2, rfl⟩]
    dsimp only
    rw [List.take_left, if_neg (by decide), if_neg (by decide), if_pos rfl,
      splitComma_two (a := xs) (b := ys)
        (fun c hc h => padded_no hp hx (d := ',') (by decide) (by decide) (by decide) (h ▸ hc))
        (fun c hc h => padded_no hs hy (d := ',') (by decide) (by decide) (by decide) (h ▸ hc))]
    simp only [List.map_cons, List.map_nil]
    rw [(trim_iff _ _).mpr hx, (trim_iff _ _).mpr hy, (parseUnsigned_iff _ _ _).mpr hp, (parseUnsigned_iff _ _ _).mpr hs]
    dsimp only
    rw [if_neg (by omega), (fromPrecision_iff p _).mpr ⟨h18, rfl⟩]
    rfl
  · have hly : 1 ≤ y.length := List.length_pos_iff.mpr (unsigned_chars hs).1
    have e : "Decimal32(".toList ++ y ++ ')' :: junk = "Decimal32".toList ++ '(' :: (y ++ ')' :: junk) := by simp
    rw [e]
    have hlen : 12 ≤ byteLen ("Decimal32".toList ++ '(' :: (y ++ ')' :: junk)) := by
      refine Nat.le_trans ?_ (le_byteLen _)
      simp; omega
    unfold parseDecimal
    have hst : startsWith ("Decimal32".toList ++ '(' :: (y ++ ')' :: junk)) "Decimal".toList = true := rfl
    rw [if_neg (by omega), if_neg (by rw [hst]; decide)]
    dsimp only
    have h1 : ("Decimal32".toList ++ '(' :: (y ++ ')' :: junk)).takeWhile (fun c => decide (c ≠ '(')) =
      "Decimal32".toList := rfl
    have h2 : ("Decimal32".toList ++ '(' :: (y ++ ')' :: junk)).dropWhile (fun c => decide (c ≠ '(')) =
      '(' :: (y ++ ')' :: junk) := rfl
    rw [h1, h2]
    dsimp only
    have hno : '(' ∉ y ++ ')' :: junk := by
      have a1 := unsigned_no hs (d := '(') (by decide) (by decide)
      simp [a1, hj.1]
    rw [if_neg (by simpa using hno), (lastPos_iff _ _).mpr ⟨_, junk, rfl, hj.2, rfl⟩]
    dsimp only
    rw [List.take_left, if_pos rfl, (parseUnsigned_iff _ _ _).mpr hs]
    rfl
  · have hly : 1 ≤ y.length := List.length_pos_iff.mpr (unsigned_chars hs).1
    have e : "Decimal64(".toList ++ y ++ ')' :: junk = "Decimal64".toList ++ '(' :: (y ++ ')' :: junk) := by simp
    rw [e]
    have hlen : 12 ≤ byteLen ("Decimal64".toList ++ '(' :: (y ++ ')' :: junk)) := by
      refine Nat.le_trans ?_ (le_byteLen _)
      simp; omega
    unfold parseDecimal
    have hst : startsWith ("Decimal64".toList ++ '(' :: (y ++ ')' :: junk)) "Decimal".toList = true := rfl
    rw [if_neg (by omega), if_neg (by rw [hst]; decide)]
    dsimp only
    have h1 : ("Decimal64".toList ++ '(' :: (y ++ ')' :: junk)).takeWhile (fun c => decide (c ≠ '(')) =
      "Decimal64".toList := rfl
    have h2 : ("Decimal64".toList ++ '(' :: (y ++ ')' :: junk)).dropWhile (fun c => decide (c ≠ '(')) =
      '(' :: (y ++ ')' :: junk) := rfl
    rw [h1, h2]
    dsimp only
    have hno : '(' ∉ y ++ ')' :: junk := by
      have a1 := unsigned_no hs (d := '(') (by decide) (by decide)
      simp [a1, hj.1]
    rw [if_neg (by simpa using hno), (lastPos_iff _ _).mpr ⟨_, junk, rfl, hj.2, rfl⟩]
    dsimp only
    rw [List.take_left, if_neg (by decide), if_pos rfl, (parseUnsigned_iff _ _ _).mpr hs]
    rfl

/-! ### Aggregate functions -/

theorem AggFunc.parse_iff (s : Str) (g : AggFunc) : AggFunc.parse s = some g ↔
    ∃ n, (n, g) ∈ aggNames ∧ s = String.toList n := by
  constructor
  · intro h
    have step : ∀ {a : Str} {x : AggFunc} {rest : Option AggFunc}, (if s = a then some x else rest) = some g →
        (s = a ∧ x = g) ∨ rest = some g := by
      intro a x rest h
      by_cases hs : s = a
      · rw [if_pos hs] at h; exact .inl ⟨hs, Option.some.inj h⟩
      · rw [if_neg hs] at h; exact .inr h
    unfold AggFunc.parse at h
    replace h := step h
    rcases h with ⟨hs, rfl⟩ | h
    · exact ⟨_, by decide, hs⟩
    replace h := step h
    rcases h with ⟨hs, rfl⟩ | h
    · exact ⟨_, by decide, hs⟩
    replace h := step h
    rcases h with ⟨hs, rfl⟩ | h
    · exact ⟨_, by decide, hs⟩
    replace h := step h
    rcases h with ⟨hs, rfl⟩ | h
    · exact ⟨_, by decide, hs⟩
    replace h := step h
    rcases h with ⟨hs, rfl⟩ | h
    · exact ⟨_, by decide, hs⟩
    replace h := step h
    rcases h with ⟨hs, rfl⟩ | h
    · exact ⟨_, by decide, hs⟩
    replace h := step h
    rcases h with ⟨hs, rfl⟩ | h
    · exact ⟨_, by decide, hs⟩
    replace h := step h
    rcases h with ⟨hs, rfl⟩ | h
    · exact ⟨_, by decide, hs⟩
    replace h := step h
    rcases h with ⟨hs, rfl⟩ | h
    · exact ⟨_, by decide, hs⟩
    replace h := step h
    rcases h with ⟨hs, rfl⟩ | h
    · exact ⟨_, by decide, hs⟩
    replace h := step h
    rcases h with ⟨hs, rfl⟩ | h
    · exact ⟨_, by decide, hs⟩
    replace h := step h
    rcases h with ⟨hs, rfl⟩ | h
    · exact ⟨_, by decide, hs⟩
    replace h := step h
    rcases h with ⟨hs, rfl⟩ | h
    · exact ⟨_, by decide, hs⟩
    replace h := step h
    rcases h with ⟨hs, rfl⟩ | h
    · exact ⟨_, by decide, hs⟩
    replace h := step h
    rcases h with ⟨hs, rfl⟩ | h
    · exact ⟨_, by decide, hs⟩
    replace h := step h
    rcases h with ⟨hs, rfl⟩ | h
    · exact ⟨_, by decide, hs⟩
    cases h
  · rintro ⟨n, hn, rfl⟩
    have : ∀ p ∈ aggNames, AggFunc.parse p.1.toList = some p.2 := by decide
    exact this _ hn

theorem aggName_head {n : String} {g : AggFunc} (h : (n, g) ∈ aggNames) :
    ∃ c cs, n.toList = c :: cs ∧ c ≠ '(' ∧ c ≠ ')' := by
  simp only [aggNames, List.mem_cons, Prod.mk.injEq, List.not_mem_nil, or_false] at h
  rcases h with h | h | h | h | h | h | h | h | h | h | h | h | h | h | h | h <;>
    (obtain ⟨rfl, rfl⟩ := h; exact ⟨_, _, rfl, by decide, by decide⟩)

theorem isParen_iff (c : Char) : (c == '(' || c == ')') = true ↔ c = '(' ∨ c = ')' := by simp

theorem parseSimpleAgg_iff (s : Str) (g : AggFunc) (t : Str) : parseSimpleAgg s = some (g, t) ↔
    ∃ ps qs f fs ts n, (∀ c ∈ ps, c = '(' ∨ c = ')') ∧ (∀ c ∈ qs, c = '(' ∨ c = ')') ∧ Padded f fs ∧ Padded t ts ∧ ',' ∉ fs ∧
      (n, g) ∈ aggNames ∧ f = String.toList n ∧ (∀ c, ts.getLast? = some c → c ≠ '(' ∧ c ≠ ')') ∧
      s = "SimpleAggregateFunction(".toList ++ ps ++ fs ++ ',' :: (ts ++ qs ++ [')']) := by
  constructor
  · intro h
    unfold parseSimpleAgg at h
    split at h
    · rename_i hs
      rw [Bool.and_eq_true] at hs
      obtain ⟨r, rfl⟩ := (startsWith_iff _ _).mp hs.1
      have hlast := hs.2
      simp only [endsWithChar, decide_eq_true_eq] at hlast
      have hdrop : ("SimpleAggregateFunction(".toList ++ r).drop 23 = '(' :: r := rfl
      rw [hdrop] at h
      dsimp only at h
      generalize hargs : trimMatches (fun c => c == '(' || c == ')') ('(' :: r) = args at h
      obtain ⟨a, b, ha, hb, hr, h1, h2⟩ := (trimMatches_iff _ _ _).mp hargs
      split at h
      · simp at h
      · rename_i p hp
        obtain ⟨fs, ts, rfl, hc, rfl⟩ := (charPos_iff _ _ _).mp hp
        rw [List.take_left] at h
        have hdr : (fs ++ ',' :: ts).drop (fs.length + 1) = ts := by simp
        rw [hdr] at h
        split at h
        · simp at h
        · rename_i f hf
          simp only [Option.some.injEq, Prod.mk.injEq] at h
          obtain ⟨rfl, rfl⟩ := h
          obtain ⟨n, hn, hfn⟩ := (AggFunc.parse_iff _ _).mp hf
          cases a with
          | nil =>
            have : '(' :: r = fs ++ ',' :: ts ++ b := by simpa using hr
            cases fs with
            | nil => simp at this
            | cons x xs =>
              have hx : '(' = x := by simpa using congrArg List.head? this
              have := h1 x (by simp)
              rw [← hx] at this
              exact absurd this (by decide)
          | cons x ps =>
            have hx : x = '(' := by simp at hr; exact hr.1.symm
            subst hx
            have hr' : r = ps ++ fs ++ ',' :: ts ++ b := by simpa using hr
            have hlt : ∀ c, ts.getLast? = some c → c ≠ '(' ∧ c ≠ ')' := by
              intro c hc
              have := h2 c (by
                cases ts with
                | nil => simp at hc
                | cons y ys =>
                  have e : fs ++ ',' :: y :: ys = (fs ++ [',']) ++ (y :: ys) := by simp
                  rw [e, List.getLast?_append, hc]; rfl)
              constructor
              · rintro rfl; simp at this
              · rintro rfl; simp at this
            by_cases hbn : b = []
            · subst hbn
              exfalso
              have e : "SimpleAggregateFunction(".toList ++ r =
                  ("SimpleAggregateFunction(".toList ++ ps ++ fs) ++ (',' :: ts) := by rw [hr']; simp
              rw [e, List.getLast?_append] at hlast
              cases ts with
              | nil => simp at hlast
              | cons y ys =>
                have e2 : (',' :: y :: ys).getLast? = (y :: ys).getLast? := by simp
                rw [e2] at hlast
                cases hl : (y :: ys).getLast? with
                | none => simp at hl
                | some c =>
                  rw [hl] at hlast
                  simp at hlast
                  exact (hlt c hl).2 hlast
            · obtain ⟨qs, d, rfl⟩ : ∃ qs d, b = qs ++ [d] :=
                ⟨b.dropLast, b.getLast hbn, (List.dropLast_concat_getLast hbn).symm⟩
              have hd : d = ')' := by
                have e : "SimpleAggregateFunction(".toList ++ r =
                  ("SimpleAggregateFunction(".toList ++ ps ++ fs ++ ',' :: ts ++ qs) ++ [d] := by rw [hr']; simp
                rw [e, List.getLast?_concat] at hlast
                simpa using hlast
              subst hd
              refine ⟨ps, qs, trim fs, fs, ts, n, fun c hc => (isParen_iff c).mp (ha c (by simp [hc])),
                fun c hc => (isParen_iff c).mp (hb c (by simp [hc])), (trim_iff _ _).mp rfl, (trim_iff _ _).mp rfl, hc, hn,
                hfn, hlt, ?_⟩
              rw [hr']; simp
    · simp at h
  · rintro ⟨ps, qs, f, fs, ts, n, hps, hqs, hf, ht, hc, hn, rfl, hl, rfl⟩
    obtain ⟨c0, cs0, hc0, hne1, hne2⟩ := aggName_head hn
    have e : "SimpleAggregateFunction(".toList ++ ps ++ fs ++ ',' :: (ts ++ qs ++ [')']) =
        "SimpleAggregateFunction(".toList ++ (ps ++ fs ++ ',' :: (ts ++ qs ++ [')'])) := by simp
    rw [e]
    unfold parseSimpleAgg
    have hend : endsWithChar ("SimpleAggregateFunction(".toList ++ (ps ++ fs ++ ',' :: (ts ++ qs ++ [')']))) ')' = true := by
      have e2 : "SimpleAggregateFunction(".toList ++ (ps ++ fs ++ ',' :: (ts ++ qs ++ [')'])) =
        ("SimpleAggregateFunction(".toList ++ ps ++ fs ++ ',' :: ts ++ qs) ++ [')'] := by simp
      rw [e2, endsWithChar, List.getLast?_concat]; rfl
    rw [if_pos (by rw [startsWith_append, hend]; rfl)]
    have hdrop : ("SimpleAggregateFunction(".toList ++ (ps ++ fs ++ ',' :: (ts ++ qs ++ [')']))).drop 23 =
        '(' :: (ps ++ fs ++ ',' :: (ts ++ qs ++ [')'])) := rfl
    rw [hdrop]
    dsimp only
    have htrim : trimMatches (fun c => c == '(' || c == ')') ('(' :: (ps ++ fs ++ ',' :: (ts ++ qs ++ [')']))) =
        fs ++ ',' :: ts := by
      refine (trimMatches_iff _ _ _).mpr ⟨'(' :: ps, qs ++ [')'], ?_, ?_, by simp, ?_, ?_⟩
      · intro c hc
        rcases List.mem_cons.mp hc with rfl | hc
        · rfl
        · exact (isParen_iff c).mpr (hps c hc)
      · intro c hc
        rcases List.mem_append.mp hc with hc | hc
        · exact (isParen_iff c).mpr (hqs c hc)
        · simp at hc; subst hc; rfl
      · intro c hc
        obtain ⟨a, b, ha, hb, rfl, _⟩ := hf
        rw [hc0] at hc
        cases a with
        | nil => simp at hc; subst hc; simp [hne1, hne2]
        | cons x xs =>
          simp at hc; subst hc
          have hw := (isWs_iff x).mpr (ha x (by simp))
          have h1 : x ≠ '(' := by rintro rfl; exact absurd hw (by decide)
          have h2 : x ≠ ')' := by rintro rfl; exact absurd hw (by decide)
          simp [h1, h2]
      · intro c hc
        cases ts with
        | nil => simp at hc; subst hc; rfl
        | cons y ys =>
          have e : fs ++ ',' :: y :: ys = (fs ++ [',']) ++ (y :: ys) := by simp
          rw [e, List.getLast?_append] at hc
          cases hg : (y :: ys).getLast? with
          | none => simp at hg
          | some d =>
            rw [hg] at hc
            simp at hc; subst hc
            have := hl d hg
            simp [this.1, this.2]
    rw [htrim, (charPos_iff _ _ _).mpr ⟨fs, ts, rfl, hc, rfl⟩]
    dsimp only
    have hdr : (fs ++ ',' :: ts).drop (fs.length + 1) = ts := by simp
    rw [List.take_left, hdr, (trim_iff _ _).mpr hf, (trim_iff _ _).mpr ht, (AggFunc.parse_iff _ _).mpr ⟨n, hn, rfl⟩]

/-! ### Low cardinality -/

theorem lcLo_iff (n : Nat) (s : Str) (r : Str) : (∃ m, lcLo n s = some (m, '(' :: r)) ↔
    ∃ a, (∀ c ∈ a, Ascii c ∧ c ≠ '(') ∧ s = a ++ '(' :: r := by
  induction s generalizing n with
  | nil => simp [lcLo]
  | cons c cs ih =>
    rw [lcLo]
    by_cases hc : c = '('
    · subst hc
      simp only [if_true, Option.some.injEq, Prod.mk.injEq, List.cons.injEq, true_and, exists_and_right, exists_eq']
      constructor
      · rintro rfl; exact ⟨[], by simp, rfl⟩
      · rintro ⟨a, ha, h⟩
        cases a with
        | nil => simp at h; exact h
        | cons x xs => simp at h; exact absurd h.1.symm (ha x (by simp)).2
    · rw [if_neg hc]
      by_cases hs : c.utf8Size = 1
      · rw [if_pos hs, ih]
        constructor
        · rintro ⟨a, ha, rfl⟩
          refine ⟨c :: a, ?_, rfl⟩
          intro d hd
          rcases List.mem_cons.mp hd with rfl | hd
          · exact ⟨(ascii_iff _).mp hs, hc⟩
          · exact ha d hd
        · rintro ⟨a, ha, h⟩
          cases a with
          | nil => simp at h; exact absurd h.1 hc
          | cons x xs => simp at h; exact ⟨xs, fun d hd => ha d (by simp [hd]), h.2⟩
      · rw [if_neg hs]
        simp only [reduceCtorEq, exists_false, false_iff]
        rintro ⟨a, ha, h⟩
        cases a with
        | nil => simp at h; exact hc h.1
        | cons x xs =>
          simp at h
          exact hs ((ascii_iff _).mpr (h.1 ▸ (ha x (by simp)).1))

theorem lcLo_result {n m : Nat} {s r : Str} {c : Char} (h : lcLo n s = some (m, c :: r)) : c = '(' := by
  fun_induction lcLo n s with
  | case1 => simp at h
  | case2 lo cs => simp at h; exact h.2.1.symm
  | case3 _ _ _ _ _ ih => exact ih h
  | case4 => simp at h

theorem lcHi_iff (s r : Str) : lcHi s = some (some r) ↔ ∃ b, (∀ c ∈ b, Ascii c ∧ c ≠ ')') ∧ s = b ++ ')' :: r := by
  induction s with
  | nil => simp [lcHi]
  | cons c cs ih =>
    rw [lcHi]
    by_cases hc : c = ')'
    · subst hc
      simp only [if_true, Option.some.injEq]
      constructor
      · rintro rfl; exact ⟨[], by simp, rfl⟩
      · rintro ⟨a, ha, h⟩
        cases a with
        | nil => simp at h; exact h
        | cons x xs => simp at h; exact absurd h.1.symm (ha x (by simp)).2
    · rw [if_neg hc]
      by_cases hs : c.utf8Size = 1
      · rw [if_pos hs, ih]
        constructor
        · rintro ⟨a, ha, rfl⟩
          refine ⟨c :: a, ?_, rfl⟩
          intro d hd
          rcases List.mem_cons.mp hd with rfl | hd
          · exact ⟨(ascii_iff _).mp hs, hc⟩
          · exact ha d hd
        · rintro ⟨a, ha, h⟩
          cases a with
          | nil => simp at h; exact absurd h.1 hc
          | cons x xs => simp at h; exact ⟨xs, fun d hd => ha d (by simp [hd]), h.2⟩
      · rw [if_neg hs]
        simp only [reduceCtorEq, false_iff]
        rintro ⟨a, ha, h⟩
        cases a with
        | nil => simp at h; exact hc h.1
        | cons x xs =>
          simp at h
          exact hs ((ascii_iff _).mpr (h.1 ▸ (ha x (by simp)).1))

theorem parseLowCard_iff (s t : Str) : parseLowCard s = .ok (some t) ↔
    ∃ a b ts, (∀ c ∈ a, Ascii c ∧ c ≠ '(') ∧ (∀ c ∈ b, Ascii c ∧ c ≠ ')') ∧ Padded t ts ∧
      s = "LowCardinality".toList ++ a ++ '(' :: (ts ++ ')' :: b) := by
  constructor
  · intro h
    unfold parseLowCard at h
    split at h
    · rename_i hs
      obtain ⟨r, rfl⟩ := (startsWith_iff _ _).mp hs
      have hdrop : ("LowCardinality".toList ++ r).drop 14 = r := rfl
      rw [hdrop] at h
      split at h
      · simp at h
      · simp at h
      · rename_i m x body hlo
        have hx := lcLo_result hlo
        subst hx
        obtain ⟨a, ha, rfl⟩ := (lcLo_iff _ _ _).mp ⟨_, hlo⟩
        split at h
        · simp at h
        · simp at h
        · rename_i rev hhi
          obtain ⟨b, hb, hbody⟩ := (lcHi_iff _ _).mp hhi
          simp only [Out.ok.injEq, Option.some.injEq] at h
          have hbody : body = rev.reverse ++ ')' :: b.reverse := by
            have := congrArg List.reverse hbody
            simpa using this
          subst hbody
          exact ⟨a, b.reverse, rev.reverse, ha, fun c hc => hb c (by simpa using hc), (trim_iff _ _).mp h, by simp⟩
    · simp at h
  · rintro ⟨a, b, ts, ha, hb, ht, rfl⟩
    unfold parseLowCard
    have e : "LowCardinality".toList ++ a ++ '(' :: (ts ++ ')' :: b) =
        "LowCardinality".toList ++ (a ++ '(' :: (ts ++ ')' :: b)) := by simp
    rw [e, if_pos (startsWith_append _ _)]
    have hdrop : ("LowCardinality".toList ++ (a ++ '(' :: (ts ++ ')' :: b))).drop 14 = a ++ '(' :: (ts ++ ')' :: b) := rfl
    rw [hdrop]
    obtain ⟨m, hm⟩ := (lcLo_iff 14 (a ++ '(' :: (ts ++ ')' :: b)) (ts ++ ')' :: b)).mpr ⟨a, ha, rfl⟩
    rw [hm]
    dsimp only
    have hh := (lcHi_iff (ts ++ ')' :: b).reverse ts.reverse).mpr
      ⟨b.reverse, fun c hc => hb c (by simpa using hc), by simp⟩
    rw [hh]
    dsimp only
    rw [List.reverse_reverse, (trim_iff _ _).mpr ht]

end CH
