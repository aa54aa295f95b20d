import Verif.Spec.Cast
import Verif.Spec.Native
import Verif.Lemmas.Send
import Verif.Lemmas.Block
import Verif.Lemmas.LowCard
import Verif.Lemmas.Decimal
import Verif.Lemmas.Values

/-! Casting columns for an INSERT. -/

namespace CH
open Spec

/-- Without arrays and maps any later part of the rows can be sent as well. -/
theorem Spec.Savable.later {tz : Tz} {c : Col} {s s' e : Nat} (h : Savable tz c s e) (hf : ListFree c.sqlType) (h1 : s ≤ s') (h2 : s' ≤ e) :
    Savable tz c s' e := by
  induction c generalizing s s' e with
  | num t xs => exact ⟨h2, h.2⟩
  | str xs => exact ⟨h2, h.2⟩
  | fixed n buf => exact ⟨h.1, h2, h.2.2⟩
  | date z xs => exact ⟨h2, h.2⟩
  | datetime z xs => exact ⟨h.1, h2, h.2.2⟩
  | ip k buf => exact ⟨h2, h.2⟩
  | nullable nulls c ih => exact ⟨h.1, ih h.2 hf h1 h2⟩
  | array offs c ih => exact hf.elim
  | map offs k v ihk ihv => exact hf.elim
  | decimal p sc nb xs => exact ⟨h.1, h2, h.2.2⟩
  | enum w items xs => exact ⟨h2, h.2⟩
  | simpleAgg f c ih => exact ih h hf h1 h2
  | lowCard ity index d vm ih =>
    obtain ⟨a1, a2, a3, a4⟩ := h
    exact ⟨h2, a2, by omega, a4⟩
  | chunk c cs ce ih => exact ⟨h.1, ih h.2 hf (by omega) (by omega)⟩
  | _ => exact absurd h (by simp [Savable])

/-- The bytes are those of the first `n` rows of the column, where `DateTime64` columns, which cannot save themselves, have the bytes of
their ticks. -/
inductive WroteRows (tz : Tz) : Col → Nat → Bytes → Prop
  | base {p n b} : Savable tz p 0 n → p.save 0 n = .ok b → WroteRows tz p n b
  | dt64 {p z xs n} : xs.length = n → (∀ x ∈ xs, x < 256 ^ 8) → WroteRows tz (.dt64 p z xs) n (numsBytes 8 xs)
  | nullable {nulls c n b} : nulls.length = n → WroteRows tz c n b → WroteRows tz (.nullable nulls c) n (nulls ++ b)
  | array {offs c n b} : offs.length = n → offs.Pairwise (· ≤ ·) → (∀ x ∈ offs, x < 256 ^ 8) → WroteRows tz c (lastOff offs) b →
      WroteRows tz (.array offs c) n (numsBytes 8 offs ++ b)
  | agg {f c n b} : WroteRows tz c n b → WroteRows tz (.simpleAgg f c) n b

/-- The bytes are those of rows `s` to `e` of the column, with the same exception. -/
inductive WroteSlice (tz : Tz) : Col → Nat → Nat → Bytes → Prop
  | base {p s e b} : Savable tz p s e → p.save s e = .ok b → WroteSlice tz p s e b
  | dt64 {p z xs s e} : s ≤ e → e ≤ xs.length → (∀ x ∈ xs, x < 256 ^ 8) →
      WroteSlice tz (.dt64 p z xs) s e (numsBytes 8 ((xs.drop s).take (e - s)))
  | nullable {nulls c s e b} : s ≤ e → e ≤ nulls.length → WroteSlice tz c s e b →
      WroteSlice tz (.nullable nulls c) s e ((nulls.drop s).take (e - s) ++ b)
  | agg {f c s e b} : WroteSlice tz c s e b → WroteSlice tz (.simpleAgg f c) s e b

/-- The column `d` is sent as the converted cells of `c`. -/
structure Sent (parse : IpKind → String → Option Bytes) (tz : Tz) (c : Col) (t : SqlType) (d : Col) (n : Nat) : Prop where
  type : d.sqlType = t
  len : d.len = .ok n
  wire : ∃ bytes c', d.save 0 n = .ok bytes ∧ (∀ rest, (planOf tz t).load n (bytes ++ rest) = .ok c' rest) ∧
    c'.sqlType = t ∧ c'.len = .ok n ∧
    ∀ i v w, i < n → cell c i = some v → convert parse tz t v = some w → c'.at i = .ok w
  mirror : ∃ p b, WroteRows tz p n b ∧ (Flagged c → Flagged p) ∧ p.sqlType = t ∧ d.save 0 n = .ok b ∧
    ∀ i v w, i < n → cell c i = some v → convert parse tz t v = some w → p.at i = .ok w
  slices : ListFree t → ∃ p, (Flagged c → Flagged p) ∧ p.sqlType = t ∧
    (∀ s e, s ≤ e → e ≤ n → ∃ b, d.save s e = .ok b ∧ WroteSlice tz p s e b) ∧
    ∀ i v w, i < n → cell c i = some v → convert parse tz t v = some w → p.at i = .ok w

variable {parse : IpKind → String → Option Bytes} {tz : Tz}

theorem sent_of {c d p : Col} {t : SqlType} {n : Nat} (hp : Savable tz p 0 n) (hm : InMemory p) (ht : p.sqlType = t) (hd : d.sqlType = t)
    (hl : d.len = .ok n) (hs : ∀ s e, s ≤ e → e ≤ n → d.save s e = p.save s e) (hg : Flagged c → Flagged p)
    (hat : ∀ i v w, i < n → cell c i = some v → convert parse tz t v = some w → p.at i = .ok w) : Sent parse tz c t d n := by
  obtain ⟨b, hb, hload⟩ := save_load hp hm
  have hs0 := hs 0 n (Nat.zero_le _) (Nat.le_refl _)
  refine ⟨hd, hl, ⟨b, p.sub tz 0 n, hs0.trans hb, fun rest => ?_, (sub_sqlType hp).trans ht, sub_len hp, fun i v w hi hc hw => ?_⟩,
    ⟨p, b, .base hp hb, hg, ht, hs0.trans hb, hat⟩, fun hf => ⟨p, hg, ht, fun s e h1 h2 => ?_, hat⟩⟩
  · have := hload rest; rw [ht] at this; simpa using this
  · have h1 := sub_at hp (i := i) (by omega)
    rw [Nat.zero_add] at h1
    rw [h1]; exact hat i v w hi hc hw
  · have hse := (hp.shrink (Nat.zero_le e) h2).later (by rw [ht]; exact hf) (Nat.zero_le s) h1
    obtain ⟨b', hb', -⟩ := save_load hse hm
    exact ⟨b', (hs s e h1 h2).trans hb', .base hse hb'⟩

theorem allOf_map {f : α → Option β} {l : List α} {bs : List β} (h : allOf f l = some bs) :
    bs.length = l.length ∧ ∀ i (h1 : i < l.length) (h2 : i < bs.length), f l[i] = some bs[i] := by
  induction l generalizing bs with
  | nil => simp [allOf] at h; subst h; exact ⟨rfl, fun i h => absurd h (by simp)⟩
  | cons a l ih =>
    simp only [allOf] at h
    split at h
    · rename_i b bs' h1 h2
      injection h with h; subst h
      obtain ⟨g1, g2⟩ := ih h2
      refine ⟨by simp [g1], fun i hi1 hi2 => ?_⟩
      cases i with
      | zero => simpa using h1
      | succ i => simpa using g2 i (by simpa using hi1) (by simpa using hi2)
    · simp at h

theorem mapOut_get {f : α → Out β} {l : List α} {bs : List β} (hl : bs.length = l.length)
    (h : ∀ i (h1 : i < l.length) (h2 : i < bs.length), f l[i] = .ok bs[i]) : mapOut f l = .ok bs := by
  induction l generalizing bs with
  | nil => cases bs with
    | nil => rfl
    | cons => simp at hl
  | cons a l ih =>
    cases bs with
    | nil => simp at hl
    | cons b bs =>
      have h0 := h 0 (by simp) (by simp)
      simp only [List.getElem_cons_zero] at h0
      rw [mapOut, h0, obind_ok, ih (by simpa using hl) (fun i h1 h2 => by
        have := h (i + 1) (by simpa using h1) (by simpa using h2); simpa using this)]
      rfl

/-- `at` of an array row from its elements. -/
theorem array_at {offs : List Nat} {c : Col} {i : Nat} {ws : List Value} (hi : i < offs.length) (hp : offs.Pairwise (· ≤ ·))
    (hl : ws.length = elemsBefore offs (i + 1) - elemsBefore offs i)
    (h : ∀ j (h : j < ws.length), c.at (elemsBefore offs i + j) = .ok ws[j]) :
    (Col.array offs c).at i = .ok (.array c.sqlType ws) := by
  have hmono := elemsBefore_mono hp (Nat.le_add_right i 1)
  have hstop : idx offs i = .ok (elemsBefore offs (i + 1)) := by rw [idx_ok hi, elemsBefore_succ hi]
  have hr : rangeOut (fun j => c.at j) (elemsBefore offs i) (elemsBefore offs (i + 1)) = .ok ws := by
    unfold rangeOut
    apply mapOut_get
    · simp [hl]
    · intro j h1 h2
      simp only [List.getElem_range', Nat.one_mul]
      exact h j h2
  rw [Col.at]
  by_cases h0 : i > 0
  · have hs : idx offs (i - 1) = .ok (elemsBefore offs i) := by
      rw [idx_ok (by omega)]
      have := elemsBefore_succ (offs := offs) (i := i - 1) (by omega)
      rw [show i - 1 + 1 = i by omega] at this; rw [this]
    rw [if_pos h0, hs, obind_ok]
    simp only [hstop, obind_ok]
    rw [if_neg (by omega), hr]; rfl
  · have hs : elemsBefore offs i = 0 := by
      have : i = 0 := by omega
      subst this; simp [elemsBefore]
    rw [if_neg h0, obind_ok]
    simp only [hstop, obind_ok]
    rw [hs] at hr
    rw [if_neg (by omega), hr]; rfl

theorem sent_array {offs : List Nat} {c d : Col} {t : SqlType} {n : Nat} (hn : offs.length = n) (hp : offs.Pairwise (· ≤ ·))
    (ho : ∀ x ∈ offs, x < 256 ^ 8) (hm : offs.length < 2 ^ 56) (h : Sent parse tz c t d (lastOff offs)) :
    Sent parse tz (.array offs c) (.array t) (.array offs d) n := by
  obtain ⟨bytes, c', h1, h2, h3, h4, h5⟩ := h.wire
  subst hn
  have hrows : ∀ p : Col, p.sqlType = t → (∀ i v w, i < lastOff offs → cell c i = some v → convert parse tz t v = some w → p.at i = .ok w) →
      ∀ i v w, i < offs.length → cell (.array offs c) i = some v → convert parse tz (.array t) v = some w → (Col.array offs p).at i = .ok w := by
    intro p h3 h5 i v w hi hc hw
    simp only [cell, if_pos hi, Option.map_eq_some_iff] at hc
    obtain ⟨vs, hvs, rfl⟩ := hc
    simp only [convert, Option.map_eq_some_iff] at hw
    obtain ⟨ws, hws, rfl⟩ := hw
    obtain ⟨g1, g2⟩ := allOf_map hvs
    obtain ⟨k1, k2⟩ := allOf_map hws
    simp only [List.length_range'] at g1
    rw [← h3]
    apply array_at hi hp (by rw [k1, g1])
    intro j hj
    have e1 := g2 j (by simp; omega) (by omega)
    have e2 := k2 j (by omega) hj
    simp only [List.getElem_range', Nat.one_mul] at e1
    have hb : elemsBefore offs (i + 1) ≤ lastOff offs := by rw [← lastOff_eq]; exact elemsBefore_mono hp (by omega)
    exact h5 _ _ _ (by omega) e1 e2
  have hsave : ∀ d : Col, (Col.array offs d).save 0 offs.length = (d.save 0 (lastOff offs) >>= fun b => .ok (numsBytes 8 offs ++ b)) := by
    intro d
    rw [Col.save, rangeOut_idx (Nat.le_refl _)]
    simp only [List.drop_zero, Nat.sub_zero, List.take_length, obind_ok]
    rfl
  refine ⟨by rw [Col.sqlType, h.type], by rw [Col.len], ⟨numsBytes 8 offs ++ bytes, .array offs c', ?_, fun rest => ?_, by rw [Col.sqlType, h3],
    by rw [Col.len], hrows c' h3 h5⟩, ?_, fun hf => hf.elim⟩
  · rw [hsave, h1]; rfl
  · rw [planOf, Plan.load, List.append_assoc, bind_ok (loadNums_put ho (bytes ++ rest) rfl (room hm (by decide))), bind_ok (h2 rest)]; rfl
  · obtain ⟨p, b, m1, m2, m3, m4, m5⟩ := h.mirror
    exact ⟨.array offs p, _, .array rfl hp ho m1, m2, by rw [Col.sqlType, m3], by rw [hsave, m4]; rfl, hrows p m3 m5⟩

theorem sent_nullable {nulls : Bytes} {c d : Col} {t : SqlType} {n : Nat} (hn : nulls.length = n) (hm : nulls.length < 2 ^ 56)
    (h : Sent parse tz c t d n) : Sent parse tz (.nullable nulls c) (.nullable t) (.nullable nulls d) n := by
  obtain ⟨bytes, c', h1, h2, h3, h4, h5⟩ := h.wire
  have hrows : ∀ p : Col, p.sqlType = t → (∀ i v w, i < n → cell c i = some v → convert parse tz t v = some w → p.at i = .ok w) →
      ∀ i v w, i < n → cell (.nullable nulls c) i = some v → convert parse tz (.nullable t) v = some w → (Col.nullable nulls p).at i = .ok w := by
    intro p h3 h5 i v w hi hc hw
    have hi' : i < nulls.length := by omega
    simp only [cell, List.getElem?_eq_getElem hi'] at hc
    rw [Col.at, idx_ok hi', obind_ok]
    by_cases hf : nulls[i] = 1
    · rw [if_pos hf] at hc ⊢
      injection hc with hc; subst hc
      simp only [convert, Option.some.injEq] at hw
      subst hw; rw [h3]; rfl
    · rw [if_neg hf] at hc ⊢
      simp only [Option.map_eq_some_iff] at hc
      obtain ⟨v', hv, rfl⟩ := hc
      simp only [convert, Option.map_eq_some_iff] at hw
      obtain ⟨w', hw, rfl⟩ := hw
      rw [h5 i v' w' hi hv hw]; rfl
  refine ⟨by rw [Col.sqlType, h.type], by simp [Col.len, h.len, hn], ⟨nulls ++ bytes, .nullable nulls c', ?_, fun rest => ?_,
    by rw [Col.sqlType, h3], by simp [Col.len, h4, hn], hrows c' h3 h5⟩, ?_, fun hf => ?_⟩
  · rw [Col.save, slice_ok (by omega) (by omega), obind_ok, h1]; simp [← hn]
  · rw [planOf, Plan.load, List.append_assoc, bind_ok (alloc_ok (by omega) _), bind_ok (readN_append' _ _ hn), bind_ok (h2 rest)]; rfl
  · obtain ⟨p, b, m1, m2, m3, m4, m5⟩ := h.mirror
    refine ⟨.nullable nulls p, _, .nullable hn m1, fun g => ⟨g.1, m2 g.2⟩, by rw [Col.sqlType, m3], ?_, hrows p m3 m5⟩
    rw [Col.save, slice_ok (by omega) (by omega), obind_ok, m4]; simp [← hn]
  · obtain ⟨p, m2, m3, m4, m5⟩ := h.slices hf
    refine ⟨.nullable nulls p, fun g => ⟨g.1, m2 g.2⟩, by rw [Col.sqlType, m3], fun s e hs he => ?_, hrows p m3 m5⟩
    obtain ⟨b, m6, m7⟩ := m4 s e hs he
    exact ⟨_, by rw [Col.save, slice_ok (by omega) (by omega), obind_ok, m6]; rfl, .nullable hs (by omega) m7⟩

theorem sent_simpleAgg {c d : Col} {t : SqlType} {f : AggFunc} {n : Nat} (h : Sent parse tz c t d n) :
    Sent parse tz c (.simpleAgg f t) (.simpleAgg f d) n := by
  obtain ⟨bytes, c', h1, h2, h3, h4, h5⟩ := h.wire
  refine ⟨by rw [Col.sqlType, h.type], by rw [Col.len, h.len], ⟨bytes, .simpleAgg f c', h1, fun rest => ?_,
    by rw [Col.sqlType, h3], by rw [Col.len, h4], fun i v w hi hc hw => ?_⟩, ?_, fun hf => ?_⟩
  · rw [planOf, Plan.load, bind_ok (h2 rest)]; rfl
  · rw [Col.at]; exact h5 i v w hi hc hw
  · obtain ⟨p, b, m1, m2, m3, m4, m5⟩ := h.mirror
    exact ⟨.simpleAgg f p, b, .agg m1, m2, by rw [Col.sqlType, m3], m4, fun i v w hi hc hw => by
      rw [Col.at]; exact m5 i v w hi hc hw⟩
  · obtain ⟨p, m2, m3, m4, m5⟩ := h.slices hf
    refine ⟨.simpleAgg f p, m2, by rw [Col.sqlType, m3], fun s e hs he => ?_, fun i v w hi hc hw => by
      rw [Col.at]; exact m5 i v w hi hc hw⟩
    obtain ⟨b, m6, m7⟩ := m4 s e hs he
    exact ⟨b, m6, .agg m7⟩

theorem sent_agg_inner {c d : Col} {t : SqlType} {g : AggFunc} {n : Nat} (h : Sent parse tz c t d n) :
    Sent parse tz (.simpleAgg g c) t d n := by
  obtain ⟨bytes, c', h1, h2, h3, h4, h5⟩ := h.wire
  exact ⟨h.type, h.len, ⟨bytes, c', h1, h2, h3, h4, fun i v w hi hc hw => h5 i v w hi hc hw⟩, by
    obtain ⟨p, b, m1, m2, m3, m4, m5⟩ := h.mirror
    exact ⟨p, b, m1, m2, m3, m4, fun i v w hi hc hw => m5 i v w hi hc hw⟩, fun hf => by
    obtain ⟨p, m2, m3, m4, m5⟩ := h.slices hf
    exact ⟨p, m2, m3, m4, fun i v w hi hc hw => m5 i v w hi hc hw⟩⟩

theorem asU32_of {s : Int} (h : 0 ≤ s ∧ s < 2 ^ 32) : asU32 s = s.toNat := by
  unfold asU32
  rw [Int.emod_eq_of_lt h.1 (by simpa using h.2)]

theorem sent_datetime {z : Tz} {xs : List (Int × Nat × Tz)} (hm : xs.length < 2 ^ 56) :
    Sent parse tz (.chrono z xs) .datetime (.chronoAd (.chrono z xs) .datetime) xs.length := by
  refine sent_of (p := .datetime tz (xs.map fun x => asU32 x.1)) ⟨rfl, by omega, by simp, ?_⟩ (by simpa [InMemory] using hm) rfl rfl rfl ?_ (fun _ => trivial) ?_
  · intro x hx
    simp only [List.mem_map] at hx
    obtain ⟨y, _, rfl⟩ := hx
    exact asU32_lt _
  · intro s e h1 h2
    simp only [Col.save]
    rw [slice_ok h1 h2, obind_ok, saveNums_ok h1 (by simpa using h2)]
    simp [List.map_drop, List.map_take]
  · intro i v w hi hc hw
    simp only [cell, List.getElem?_eq_getElem hi] at hc
    injection hc with hc; subst hc
    simp only [convert] at hw
    split at hw
    · rename_i h
      injection hw with hw; subst hw
      rw [Col.at, idx_ok (by simpa using hi), obind_ok, List.getElem_map, asU32_of h]; rfl
    · simp at hw

theorem fromDatetime_ok {s : Int} {n p : Nat} (hp : p ≤ 9) (h : fitsBytes 8 (s * 10 ^ 9 + n)) :
    fromDatetime s n p = .ok (Int.tdiv (s * 10 ^ 9 + n) (10 ^ (9 - p))) := by
  unfold fromDatetime checkI64
  rw [if_pos, obind_ok, if_pos hp]; rfl
  obtain ⟨h1, h2⟩ := h
  unfold i64Min i64Max
  simp at h1 h2
  constructor <;> omega

theorem sent_dt64 {z z' : Tz} {p : Nat} {xs : List (Int × Nat × Tz)} (hlen : xs.length < 2 ^ 56) (hf : TimesFit (.dt64 p z') (.chrono z xs)) :
    Sent parse tz (.chrono z xs) (.dt64 p z') (.chronoAd (.chrono z xs) (.dt64 p z')) xs.length := by
  obtain ⟨hp, hx⟩ := hf
  have hm : mapOut (fun (t : Int × Nat × Tz) => fromDatetime t.1 t.2.1 p) xs =
      .ok (xs.map fun t => Int.tdiv (t.1 * 10 ^ 9 + t.2.1) (10 ^ (9 - p))) :=
    mapOut_ok fun t ht => fromDatetime_ok hp (hx t ht)
  have hlt : ∀ x ∈ (xs.map fun t => Int.tdiv (t.1 * 10 ^ 9 + t.2.1) (10 ^ (9 - p))).map (ofSigned 8), x < 256 ^ 8 := by
    intro x hx
    obtain ⟨y, _, rfl⟩ := List.mem_map.mp hx
    exact ofSigned_lt 8 y
  have hsave : (Col.chronoAd (.chrono z xs) (.dt64 p z')).save 0 xs.length =
      .ok (numsBytes 8 ((xs.map fun t => Int.tdiv (t.1 * 10 ^ 9 + t.2.1) (10 ^ (9 - p))).map (ofSigned 8))) := by
    simp only [Col.save]
    rw [slice_ok (by omega) (Nat.le_refl _), obind_ok]
    simp only [List.drop_zero, Nat.sub_zero, List.take_length]
    rw [hm]; rfl
  have hrows : ∀ i v w, i < xs.length → cell (.chrono z xs) i = some v → convert parse tz (.dt64 p z') v = some w →
      (Col.dt64 p z' ((xs.map fun t => Int.tdiv (t.1 * 10 ^ 9 + t.2.1) (10 ^ (9 - p))).map (ofSigned 8))).at i = .ok w := by
    intro i v w hi hc hw
    simp only [cell, List.getElem?_eq_getElem hi] at hc
    injection hc with hc; subst hc
    simp only [convert, if_pos hp, Option.some.injEq] at hw
    subst hw
    rw [Col.at, idx_ok (by simpa using hi), obind_ok]
    simp only [List.getElem_map]
    rw [toSigned8_fromDatetime (fromDatetime_ok hp (hx _ (List.getElem_mem hi)))]; rfl
  refine ⟨rfl, rfl, ⟨_, .dt64 p z' ((xs.map fun t => Int.tdiv (t.1 * 10 ^ 9 + t.2.1) (10 ^ (9 - p))).map (ofSigned 8)), hsave,
    fun rest => ?_, rfl, by simp [Col.len], hrows⟩, ⟨_, _, .dt64 (by simp) hlt, fun _ => trivial, rfl, hsave, hrows⟩,
    fun _ => ⟨.dt64 p z' _, fun _ => trivial, rfl, fun s e h1 h2 => ⟨_, ?_, .dt64 h1 (by simpa using h2) hlt⟩, hrows⟩⟩
  rotate_left
  · simp only [Col.save]
    rw [slice_ok h1 h2, obind_ok, mapOut_ok (g := fun t => Int.tdiv (t.1 * 10 ^ 9 + t.2.1) (10 ^ (9 - p)))
      (fun t ht => fromDatetime_ok hp (hx t (List.mem_of_mem_drop (List.mem_of_mem_take ht)))), obind_ok]
    simp only [List.map_drop, List.map_take]
    rfl
  rw [planOf, Plan.load, bind_ok (loadNums_put hlt rest (by simp) (room hlen (by decide)))]; rfl

theorem sent_enum {w : EnumW} {items items' : List (Str × Int)} {xs : List Nat} {n : Nat} (hs : Sound (.enum w items xs) n)
    (hm : n < 2 ^ 56) {d : Col}
    (hd : d.sqlType = .enum w items') (hl : d.len = .ok n) (hsave : ∀ s e, s ≤ e → e ≤ n → d.save s e = (Col.enum w items' xs).save s e) :
    Sent parse tz (.enum w items xs) (.enum w items') d n := by
  obtain ⟨h1, h2⟩ := hs
  refine sent_of (p := .enum w items' xs) ⟨by omega, by omega, h2⟩ (by rw [← h1] at hm; exact hm) rfl hd hl hsave (fun _ => trivial) ?_
  intro i v w' hi hc hw
  simp only [cell, Col.at] at hc
  rw [idx_ok (by omega)] at hc
  simp only [obind_ok, opure] at hc
  injection hc with hc; subst hc
  simp only [convert, if_true, Option.some.injEq] at hw
  subst hw
  rw [Col.at, idx_ok (by omega)]; rfl

/-- The structural conversions. -/
theorem dataCast_sent {c d : Col} {t : SqlType} {n : Nat} (hs : Sound c n) (hz : Sized tz c) (hi : InMemory c) (hm : Insertable t) (hf : TimesFit t c)
    (known : Tz → Bool) (hn : Nameable known t) (h : c.dataCast t = some d) : Sent parse tz c t d n := by
  induction c generalizing d t n with
  | nullable nulls c ih =>
    cases t <;> simp only [Col.dataCast, Option.map_eq_some_iff, reduceCtorEq] at h
    obtain ⟨d', h, rfl⟩ := h
    exact sent_nullable hs.1 hi.1 (ih hs.2.2 hz hi.2 hm hf hn.1 h)
  | array offs c ih =>
    cases t <;> simp only [Col.dataCast, Option.map_eq_some_iff, reduceCtorEq] at h
    obtain ⟨d', h, rfl⟩ := h
    exact sent_array hs.1 hs.2.1 (fun x hx => by have := hz.1 x hx; omega) hi.1 (ih hs.2.2 hz.2 hi.2 hm hf hn h)
  | map offs k v ihk ihv =>
    cases t <;> simp only [Col.dataCast, reduceCtorEq] at h
    exact False.elim hm
  | simpleAgg g c ih =>
    cases t <;> simp only [Col.dataCast, Option.map_eq_some_iff, reduceCtorEq] at h
    rename_i f t
    obtain ⟨d', h, rfl⟩ := h
    have ht : Nameable known t := by cases t <;> first | trivial | exact False.elim hn
    exact sent_simpleAgg (sent_agg_inner (ih hs hz hi hm hf ht h))
  | chrono z xs =>
    have hs' : xs.length = n := hs
    subst hs'
    simp only [Col.dataCast] at h
    split at h
    · injection h with h; subst h
      rename_i hdt
      cases t <;> simp [SqlType.isDatetime] at hdt
      · exact sent_datetime hi
      · exact sent_dt64 hi hf
      · exact False.elim hn
    · simp at h
  | enum w items xs =>
    cases t <;> simp only [Col.dataCast, reduceCtorEq] at h
    split at h
    · rename_i w' items' he
      injection h with h; subst h; subst he
      exact sent_enum hs (by rw [← hs.1]; exact hi) rfl (by rw [Col.len, hs.1]) fun _ _ _ _ => rfl
    · simp at h
  | _ => simp [Col.dataCast] at h

/-! ### Cells of columns without local times -/

/-- No local time inside the type. -/
def ChronoFree : SqlType → Prop
  | .chrono => False
  | .nullable t => ChronoFree t
  | .array t => ChronoFree t
  | .lowCard t => ChronoFree t
  | .simpleAgg _ t => ChronoFree t
  | .map k v => ChronoFree k ∧ ChronoFree v
  | _ => True

theorem nameable_chronoFree {known : Tz → Bool} {t : SqlType} (h : Nameable known t) : ChronoFree t := by
  induction t with
  | chrono => exact h
  | nullable t ih => exact ih h.1
  | array t ih => exact ih h
  | lowCard t ih => exact ih h
  | simpleAgg f t ih => cases t <;> first | trivial | exact False.elim h
  | map k v ihk ihv => exact ⟨ihk h.1, ihv h.2.2⟩
  | _ => trivial

theorem sized_sendable {c : Col} (hz : Sized tz c) (hc : ChronoFree c.sqlType) : Sendable tz c := by
  induction c with
  | str xs => exact hz
  | datetime z xs => exact hz
  | dt64 p z xs => exact hz
  | chrono z xs => exact hc
  | nullable nulls c ih => exact ih hz hc
  | array offs c ih => exact ⟨fun x hx => by have := hz.1 x hx; omega, ih hz.2 hc⟩
  | map offs k v ihk ihv => exact ⟨hz.1, ihk hz.2.1 hc.1, ihv hz.2.2 hc.2⟩
  | simpleAgg f c ih => exact ih hz hc
  | lowCard ity index d vmap ih => exact ⟨hz.1, ih hz.2 hc⟩
  | _ => trivial

theorem cell_at {c : Col} {n i : Nat} {v : Value} (hs : Sound c n) (hc : ChronoFree c.sqlType) (hi : i < n)
    (h : cell c i = some v) : c.at i = .ok v := by
  have base : ∀ {c : Col}, (match c.at i with | .ok v => some v | _ => none) = some v → c.at i = .ok v := by
    intro c h
    split at h
    · rename_i e; injection h with h; rw [e, h]
    · simp at h
  induction c generalizing n i v with
  | chrono z xs => exact False.elim hc
  | nullable nulls c ih =>
    have hl := hs.1
    simp only [cell, List.getElem?_eq_getElem (show i < nulls.length by omega)] at h
    rw [Col.at, idx_ok (by omega), obind_ok]
    by_cases hf : nulls[i] = 1
    · rw [if_pos hf] at h ⊢
      injection h with h; subst h; rfl
    · rw [if_neg hf] at h ⊢
      simp only [Option.map_eq_some_iff] at h
      obtain ⟨v', hv, rfl⟩ := h
      rw [ih hs.2.2 hc hi hv (by
        intro c h
        split at h
        · rename_i e; injection h with h; rw [e, h]
        · simp at h)]; rfl
  | array offs c ih =>
    have hl := hs.1
    simp only [cell, if_pos (show i < offs.length by omega), Option.map_eq_some_iff] at h
    obtain ⟨vs, hvs, rfl⟩ := h
    obtain ⟨g1, g2⟩ := allOf_map hvs
    simp only [List.length_range'] at g1
    apply array_at (by omega) hs.2.1 g1
    intro j hj
    have e1 := g2 j (by simp; omega) hj
    simp only [List.getElem_range', Nat.one_mul] at e1
    have hb : elemsBefore offs (i + 1) ≤ lastOff offs := by rw [← lastOff_eq]; exact elemsBefore_mono hs.2.1 (by omega)
    exact ih hs.2.2 hc (by omega) e1 (by
        intro c h
        split at h
        · rename_i e; injection h with h; rw [e, h]
        · simp at h)
  | simpleAgg f c ih => rw [Col.at]; exact ih hs hc hi h base
  | _ => exact base h

theorem choose_list {P : Nat → α → Prop} {n : Nat} (h : ∀ i, i < n → ∃ a, P i a) :
    ∃ l : List α, l.length = n ∧ ∀ i (hi : i < l.length), P i l[i] := by
  induction n with
  | zero => exact ⟨[], rfl, fun i hi => absurd hi (by simp)⟩
  | succ n ih =>
    obtain ⟨l, h1, h2⟩ := ih fun i hi => h i (by omega)
    obtain ⟨a, ha⟩ := h n (by omega)
    refine ⟨l ++ [a], by simp [h1], fun i hi => ?_⟩
    by_cases hin : i < l.length
    · rw [List.getElem_append_left hin]; exact h2 i hin
    · have : i = l.length := by simp at hi; omega
      subst this
      simp [h1, ha]

theorem rangeOut_list {f : Nat → Out β} {l : List β} (h : ∀ i (hi : i < l.length), f i = .ok l[i]) {n : Nat} (hn : l.length = n) :
    rangeOut f 0 n = .ok l := by
  unfold rangeOut
  apply mapOut_get
  · simp [hn]
  · intro i h1 h2
    simp only [List.getElem_range', Nat.one_mul, Nat.zero_add]
    exact h i h2

theorem rangeOut_part {f : Nat → Out β} {l : List β} (h : ∀ i (hi : i < l.length), f i = .ok l[i]) {s e : Nat} (he : e ≤ l.length) :
    rangeOut f s e = .ok ((l.drop s).take (e - s)) := by
  unfold rangeOut
  apply mapOut_get
  · simp; omega
  · intro i h1 h2
    simp only [List.getElem_range', Nat.one_mul, List.getElem_take, List.getElem_drop]
    exact h _ _

theorem flatten_part {k : Nat} {l : List Bytes} (h : ∀ b ∈ l, b.length = k) (s m : Nat) :
    ((l.drop s).take m).flatten = (l.flatten.drop (s * k)).take (m * k) := by
  have hdrop : ∀ (s : Nat) (l : List Bytes), (∀ b ∈ l, b.length = k) → (l.drop s).flatten = l.flatten.drop (s * k) := by
    intro s
    induction s with
    | zero => intro l _; simp
    | succ s ih =>
      intro l hl
      cases l with
      | nil => simp
      | cons b l =>
        have hb := hl b (by simp)
        rw [List.drop_succ_cons, ih l (fun x hx => hl x (by simp [hx])), List.flatten_cons, Nat.succ_mul, List.drop_append, hb,
          List.drop_eq_nil_of_le (as := b) (by omega), List.nil_append, Nat.add_sub_cancel]
  have htake : ∀ (m : Nat) (l : List Bytes), (∀ b ∈ l, b.length = k) → (l.take m).flatten = l.flatten.take (m * k) := by
    intro m
    induction m with
    | zero => intro l _; simp
    | succ m ih =>
      intro l hl
      cases l with
      | nil => simp
      | cons b l =>
        have hb := hl b (by simp)
        rw [List.take_succ_cons, List.flatten_cons, ih l (fun x hx => hl x (by simp [hx])), List.flatten_cons, Nat.succ_mul, List.take_append, hb,
          List.take_of_length_le (l := b) (by omega), Nat.add_sub_cancel]
  rw [htake m _ (fun b hb => h b (List.mem_of_mem_drop hb)), hdrop s l h]

theorem flatten_length {k : Nat} {l : List Bytes} (h : ∀ b ∈ l, b.length = k) : l.flatten.length = l.length * k := by
  induction l with
  | nil => simp
  | cons b l ih =>
    rw [List.flatten_cons, List.length_append, h b (by simp), ih fun b hb => h b (by simp [hb]), List.length_cons, Nat.succ_mul,
      Nat.add_comm]

theorem flatten_slice {k : Nat} {l : List Bytes} (h : ∀ b ∈ l, b.length = k) {i : Nat} (hi : i < l.length) :
    slice l.flatten (i * k) (i * k + k) = .ok l[i] := by
  rw [slice_ok (by omega) (by
    rw [flatten_length h, ← Nat.succ_mul]; exact Nat.mul_le_mul_right k hi), Nat.add_sub_cancel_left]
  congr 1
  induction l generalizing i with
  | nil => simp at hi
  | cons b l ih =>
    have hb := h b (by simp)
    cases i with
    | zero => rw [Nat.zero_mul, List.drop_zero, List.flatten_cons, List.take_append_of_le_length (by omega),
        List.take_of_length_le (by omega)]; rfl
    | succ i =>
      rw [List.flatten_cons, Nat.succ_mul, Nat.add_comm, List.drop_append, List.drop_of_length_le (by omega), List.nil_append,
        show k + i * k - b.length = i * k by omega, List.getElem_cons_succ]
      exact ih (fun b hb => h b (by simp [hb])) (by simpa using hi)

/-! ### Adapters -/

/-- Every row of the column holds a value that stands for a cell of the target. -/
def AllConvert (parse : IpKind → String → Option Bytes) (tz : Tz) (t : SqlType) (c : Col) (n : Nat) : Prop :=
  ∀ i, i < n → ∃ v w, cell c i = some v ∧ convert parse tz t v = some w

theorem u8sOf_octets {vs : List Value} {b : Bytes} (h : octetsOf vs = some b) : u8sOf vs = .ok b := by
  induction vs generalizing b with
  | nil => simp [octetsOf] at h; subst h; rfl
  | cons v vs ih =>
    unfold octetsOf at h
    split at h
    · rename_i e; simp at e
    · rename_i x vs' e
      injection e with e1 e2; subst e1; subst e2
      simp only [Option.map_eq_some_iff] at h
      obtain ⟨b', hb, rfl⟩ := h
      have := ih hb
      unfold u8sOf at this ⊢
      rw [mapOut, this]
      simp [Value.toNum]
    · simp at h

theorem padded_resize {n : Nat} {b b' : Bytes} (h : padded n b = some b') : resizeB b n = b' := by
  unfold padded at h
  split at h
  · injection h with h
    rw [← h, resizeB, List.take_of_length_le (by omega)]
  · simp at h

theorem resizeB_length (b : Bytes) (n : Nat) : (resizeB b n).length = n := by
  unfold resizeB; simp; omega

/-- What a fixed string target makes of a value. -/
theorem convert_fixed {k : Nat} {v w : Value} (h : convert parse tz (.fixedString k) v = some w) :
    (∃ b, v = .str b ∧ w = .str (resizeB b k)) ∨
    ∃ vs b, v = .array (.num .u8) vs ∧ u8sOf vs = .ok b ∧ w = .str (resizeB b k) := by
  cases v with
  | str b =>
    simp only [convert, Option.map_eq_some_iff] at h
    obtain ⟨b', hb, rfl⟩ := h
    exact .inl ⟨_, rfl, by rw [padded_resize hb]⟩
  | array t vs =>
    by_cases ht : t = .num .u8
    · subst ht
      simp only [convert, Option.map_eq_some_iff, Option.bind_eq_some_iff] at h
      obtain ⟨b', ⟨b, hb, hp⟩, rfl⟩ := h
      exact .inr ⟨_, b, rfl, u8sOf_octets hb, by rw [padded_resize hp]⟩
    · unfold convert at h; simp_all
  | _ => simp [convert] at h

/-- One row written by `FixedStringAdapter`. -/
def fixedRow (c : Col) (k i : Nat) : Out Bytes := do
  let v ← c.at i
  match v with
  | .str b => pure (resizeB b k)
  | .array (.num .u8) vs => do
    let b ← u8sOf vs
    pure (resizeB b k)
  | _ => Out.panic

theorem fixedAd_save (c : Col) (k s e : Nat) :
    (Col.fixedAd c k).save s e = (rangeOut (fixedRow c k) s e >>= fun bs => pure bs.flatten) := rfl

theorem sent_fixed {c c0 : Col} {k n : Nat} (hk : 0 < k) (hs : Sound c n) (hcf : ChronoFree c.sqlType) (hl : c0.len = .ok n)
    (hm : (n + 1) * k < 2 ^ 63) (hat : ∀ i, c0.at i = c.at i) (hall : AllConvert parse tz (.fixedString k) c n) :
    Sent parse tz c (.fixedString k) (.fixedAd c0 k) n := by
  have hrow : ∀ i, i < n → ∃ b : Bytes, b.length = k ∧ fixedRow c0 k i = .ok b ∧ ∀ v w, cell c i = some v → convert parse tz (.fixedString k) v = some w → w = .str b := by
    intro i hi
    obtain ⟨v, w, hv, hw⟩ := hall i hi
    have hv' := cell_at hs hcf hi hv
    rcases convert_fixed hw with ⟨b, rfl, rfl⟩ | ⟨vs, b, rfl, hb, rfl⟩
    · refine ⟨resizeB b k, resizeB_length _ _, by rw [fixedRow, hat, hv']; rfl, fun v' w' h1 h2 => ?_⟩
      rw [hv] at h1; injection h1 with h1; subst h1
      rw [hw] at h2; injection h2 with h2; rw [← h2]
    · refine ⟨resizeB b k, resizeB_length _ _, by rw [fixedRow, hat, hv', obind_ok]; simp only [hb]; rfl, fun v' w' h1 h2 => ?_⟩
      rw [hv] at h1; injection h1 with h1; subst h1
      rw [hw] at h2; injection h2 with h2; rw [← h2]
  obtain ⟨l, hn, hp⟩ := choose_list hrow
  have hlen : ∀ b ∈ l, b.length = k := by
    intro b hb
    obtain ⟨i, hi, rfl⟩ := List.getElem_of_mem hb
    exact (hp i hi).1
  have hfl := flatten_length hlen
  refine sent_of (p := .fixed k l.flatten) ⟨hk, by omega, by rw [hfl, hn]; omega⟩
    (by simp only [InMemory]; rw [hfl, hn]; rw [Nat.succ_mul] at hm; omega) rfl rfl hl ?_ (fun _ => trivial) ?_
  · intro s e h1 h2
    rw [fixedAd_save, Col.save, rangeOut_part (fun i hi => (hp i hi).2.1) (by omega),
      slice_ok (Nat.mul_le_mul_right k h1) (by rw [hfl, hn]; exact Nat.mul_le_mul_right k h2), obind_ok, opure, flatten_part hlen, Nat.sub_mul]
  · intro i v w hi hc hw
    rw [Col.at, flatten_slice hlen (by omega), obind_ok, (hp i (by omega)).2.2 v w hc hw]; rfl

theorem convert_string {v w : Value} (h : convert parse tz .string v = some w) :
    ∃ b, vecU8FromSql v = .ok b ∧ w = .str b := by
  cases v with
  | str b => simp only [convert, Option.some.injEq] at h; subst h; exact ⟨_, rfl, rfl⟩
  | array t vs =>
    by_cases ht : t = .num .u8
    · subst ht
      simp only [convert, Option.map_eq_some_iff] at h
      obtain ⟨b, hb, rfl⟩ := h
      exact ⟨b, u8sOf_octets hb, rfl⟩
    · unfold convert at h; simp_all
  | _ => simp [convert] at h

theorem sent_string {c : Col} {n : Nat} (hs : Sound c n) (hm : n < 2 ^ 56) (hcf : ChronoFree c.sqlType)
    (hall : AllConvert parse tz .string c n)
    (hlong : ∀ i v b, i < n → c.at i = .ok v → vecU8FromSql v = .ok b → b.length < 2 ^ 63) :
    Sent parse tz c .string (.stringAd c) n := by
  have hrow : ∀ i, i < n → ∃ b : Bytes, b.length < 2 ^ 63 ∧ (do
      let v ← c.at i
      (vecU8FromSql v).unwrap) = .ok b ∧ ∀ v w, cell c i = some v → convert parse tz .string v = some w → w = .str b := by
    intro i hi
    obtain ⟨v, w, hv, hw⟩ := hall i hi
    have hv' := cell_at hs hcf hi hv
    obtain ⟨b, hb, rfl⟩ := convert_string hw
    refine ⟨b, hlong i v b hi hv' hb, by rw [hv', obind_ok, hb]; rfl, fun v' w' h1 h2 => ?_⟩
    rw [hv] at h1; injection h1 with h1; subst h1
    rw [hw] at h2; injection h2 with h2; rw [← h2]
  obtain ⟨l, hn, hp⟩ := choose_list hrow
  refine sent_of (p := .str l) ⟨by omega, by omega, ?_⟩ (by simp only [InMemory]; omega) rfl rfl hs.len ?_ (fun _ => trivial) ?_
  · intro b hb
    obtain ⟨i, hi, rfl⟩ := List.getElem_of_mem hb
    exact (hp i hi).1
  · intro s e h1 h2
    rw [Col.save, Col.save, rangeOut_part (fun i hi => (hp i hi).2.1) (by omega), if_neg (by omega), obind_ok, opure]
  · intro i v w hi hc hw
    rw [Col.at, idx_ok (by omega), obind_ok, (hp i (by omega)).2.2 v w hc hw]; rfl

theorem nullsOf_flags {os : List (Option α)} : ∀ f ∈ nullsOf os, f = 0 ∨ f = 1 := by
  intro f hf
  simp only [nullsOf, List.mem_map] at hf
  obtain ⟨o, _, rfl⟩ := hf
  cases o <;> simp

theorem sent_nullAd {c d p0 : Col} {t : SqlType} {n : Nat} {os : List (Option α)} (hn : os.length = n) (hp0 : Savable tz p0 0 n)
    (hm : n < 2 ^ 56) (hm0 : InMemory p0) (hg0 : Flagged p0)
    (ht : p0.sqlType = t) (hd : d.sqlType = .nullable t) (hl : d.len = .ok n)
    (hsave : ∀ s e, s ≤ e → e ≤ n → d.save s e = (p0.save s e >>= fun b => .ok (nullsOf ((os.drop s).take (e - s)) ++ b)))
    (hat : ∀ i (hi : i < os.length) v w, cell c i = some v → convert parse tz (.nullable t) v = some w →
      (os[i] = none ∧ w = .null t) ∨ (os[i] ≠ none ∧ ∃ w', w = .some w' ∧ p0.at i = .ok w')) :
    Sent parse tz c (.nullable t) d n := by
  have hlen : (nullsOf os).length = n := by simp [nullsOf, hn]
  refine sent_of (p := .nullable (nullsOf os) p0) ⟨by omega, hp0⟩ ⟨by omega, hm0⟩ (by rw [Col.sqlType, ht]) hd hl ?_ (fun _ => ⟨nullsOf_flags, hg0⟩) ?_
  · intro s e h1 h2
    rw [hsave s e h1 h2, Col.save, slice_ok h1 (by omega), obind_ok]
    simp only [nullsOf, List.map_drop, List.map_take]
    rfl
  · intro i v w hi hc hw
    rw [Col.at, idx_ok (by omega), obind_ok]
    have hg : (nullsOf os)[i]'(by omega) = if os[i].isNone then 1 else 0 := by simp [nullsOf]
    rw [hg]
    rcases hat i (by omega) v w hc hw with ⟨h1, h2⟩ | ⟨h1, w', rfl, h2⟩
    · simp [h1, h2, ht]
    · cases ho : os[i] with
      | none => exact absurd ho h1
      | some a => simp [h2]

theorem sound_nullable_shape {c : Col} {n : Nat} {u : SqlType} (hs : Sound c n) (ht : c.sqlType = .nullable u) :
    ∃ nulls c', c = .nullable nulls c' ∧ c'.sqlType = u ∧ nulls.length = n ∧ Sound c' n := by
  cases c <;> simp [Col.sqlType] at ht <;> try exact False.elim hs
  exact ⟨_, _, rfl, ht, hs.1, hs.2.2⟩

theorem convert_nullable {t : SqlType} {v w : Value} (h : convert parse tz (.nullable t) v = some w) :
    (∃ u, v = .null u ∧ w = .null t) ∨ ∃ v' w', v = .some v' ∧ w = .some w' ∧ convert parse tz t v' = some w' := by
  cases v with
  | null u => simp only [convert, Option.some.injEq] at h; exact .inl ⟨u, rfl, h.symm⟩
  | some v =>
    simp only [convert, Option.map_eq_some_iff] at h
    obtain ⟨w', h1, rfl⟩ := h
    exact .inr ⟨v, w', rfl, rfl, h1⟩
  | _ => simp [convert] at h

theorem sent_nullFixed {c : Col} {k n : Nat} (hk : 0 < k) (hrows : n < 2 ^ 56) (hm : (n + 1) * k < 2 ^ 63) (hs : Sound c n) (hct : c.sqlType = .nullable .string)
    (hall : AllConvert parse tz (.nullable (.fixedString k)) c n) :
    Sent parse tz c (.nullable (.fixedString k)) (.nullFixedAd c k) n := by
  have hcf : ChronoFree c.sqlType := by rw [hct]; trivial
  obtain ⟨nulls, c', rfl, hc', hl, hs'⟩ := sound_nullable_shape hs hct
  have hstr : ∃ xs, c' = .str xs := by
    cases c' <;> simp [Col.sqlType] at hc' <;> first | exact ⟨_, rfl⟩ | exact False.elim hs'
  obtain ⟨xs, rfl⟩ := hstr
  have hrow : ∀ i, i < n → ∃ o : Option Bytes, (do
        let v ← (Col.nullable nulls (.str xs)).at i
        optFromSql bytesFromSql v) = .ok o ∧
      ∀ v w, cell (.nullable nulls (.str xs)) i = some v → convert parse tz (.nullable (.fixedString k)) v = some w →
        (o = none ∧ w = .null (.fixedString k)) ∨ ∃ b, o = some b ∧ w = .some (.str (resizeB b k)) := by
    intro i hi
    obtain ⟨v, w, hv, hw⟩ := hall i hi
    have hv' := cell_at hs hcf hi hv
    have hval : (∃ u, v = .null u) ∨ ∃ b, v = .some (.str b) := by
      rw [Col.at, idx_ok (by omega), obind_ok] at hv'
      split at hv'
      · injection hv' with hv'; exact .inl ⟨_, hv'.symm⟩
      · rw [Col.at, idx_ok (by rw [show xs.length = n from hs']; omega)] at hv'
        simp only [obind_ok, opure] at hv'
        injection hv' with hv'; exact .inr ⟨_, hv'.symm⟩
    rcases hval with ⟨u, rfl⟩ | ⟨b, rfl⟩
    · refine ⟨none, by rw [hv']; rfl, fun v' w' h1 h2 => .inl ⟨rfl, ?_⟩⟩
      rw [hv] at h1; injection h1 with h1; subst h1
      simp only [convert, Option.some.injEq] at h2; exact h2.symm
    · refine ⟨some b, by rw [hv']; rfl, fun v' w' h1 h2 => .inr ⟨b, rfl, ?_⟩⟩
      rw [hv] at h1; injection h1 with h1; subst h1
      rcases convert_nullable h2 with ⟨u, h3, _⟩ | ⟨v', w'', h3, rfl, h4⟩
      · cases h3
      · injection h3 with h3; subst h3
        rcases convert_fixed h4 with ⟨b', h5, rfl⟩ | ⟨_, _, h5, _⟩
        · injection h5 with h5; subst h5; rfl
        · cases h5
  obtain ⟨os, hn, hp⟩ := choose_list hrow
  have hlen : ∀ b ∈ os.map (fun o => resizeB (o.getD []) k), b.length = k := by
    intro b hb
    simp only [List.mem_map] at hb
    obtain ⟨o, _, rfl⟩ := hb
    exact resizeB_length _ _
  have hfl := flatten_length hlen
  rw [List.length_map] at hfl
  refine sent_nullAd (os := os) hn (p0 := .fixed k (os.map fun o => resizeB (o.getD []) k).flatten) ⟨hk, by omega, by rw [hfl, hn]; omega⟩
    hrows (by simp only [InMemory]; rw [hfl, hn]; rw [Nat.succ_mul] at hm; omega) trivial rfl rfl hs.len ?_ ?_
  · intro s e h1 h2
    conv => lhs; rw [Col.save]
    rw [if_neg (by omega), rangeOut_part (fun i hi => (hp i hi).1) (by omega), Col.save,
      slice_ok (Nat.mul_le_mul_right k h1) (by rw [hfl, hn]; exact Nat.mul_le_mul_right k h2), obind_ok, obind_ok]
    rw [← Nat.sub_mul, ← flatten_part hlen, List.flatMap_def]
    simp only [List.map_drop, List.map_take]
    rfl
  · intro i hi v w hc hw
    rcases (hp i hi).2 v w hc hw with ⟨h1, h2⟩ | ⟨b, h1, h2⟩
    · exact .inl ⟨h1, h2⟩
    · refine .inr ⟨by rw [h1]; simp, _, h2, ?_⟩
      rw [Col.at, flatten_slice hlen (by simpa using hi), obind_ok]
      simp [h1]

theorem convert_decimal {p s : Nat} {v w : Value} (h : convert parse tz (.decimal p s) v = some w) :
    ∃ d, v = .decimal d ∧ fitsBytes (decimalBytes p) (rescale d.underlying d.scale s) ∧
      w = .decimal ⟨rescale d.underlying d.scale s, if p ≤ 9 then .n32 else .n64, p, s⟩ := by
  cases v with
  | decimal d =>
    simp only [convert] at h
    split at h
    · rename_i hf; injection h with h; exact ⟨d, rfl, hf, h.symm⟩
    · simp at h
  | _ => simp [convert] at h

theorem fitsBytes_i64 {p : Nat} {u : Int} (h : fitsBytes (decimalBytes p) u) : i64Min ≤ u ∧ u ≤ i64Max := by
  unfold fitsBytes decimalBytes at h
  unfold i64Min i64Max
  split at h <;> simp at h <;> constructor <;> omega

theorem setScale_rescale {d : Decimal} {p s : Nat} (hd : d.scale ≤ 18) (hs : s ≤ 18)
    (h : fitsBytes (decimalBytes p) (rescale d.underlying d.scale s)) :
    d.setScale s = .ok { d with underlying := rescale d.underlying d.scale s, scale := s } := by
  have h64 := fitsBytes_i64 h
  unfold rescale at h64 ⊢
  unfold Decimal.setScale
  by_cases h1 : s < d.scale
  · rw [if_pos h1, if_pos (by omega), factor10, if_pos (by omega), obind_ok]; rfl
  · rw [if_neg h1]
    by_cases h2 : s = d.scale
    · rw [if_pos h2, if_pos (by omega)]
      subst h2
      simp
    · rw [if_neg h2]
      rw [if_neg (by omega)] at h64 ⊢
      rw [factor10, if_pos (by omega), obind_ok, checkI64, if_pos h64]; rfl

theorem fromPrecision_ok {p : Nat} (h : p ≤ 18) : NoBits.fromPrecision p = some (if p ≤ 9 then .n32 else .n64) := by
  unfold NoBits.fromPrecision
  by_cases h9 : p ≤ 9
  · rw [if_pos h9, if_pos h9]
  · rw [if_neg h9, if_neg h9, if_pos h]

theorem nobits_width (p : Nat) : (if p ≤ 9 then NoBits.n32 else .n64).width = decimalBytes p := by
  unfold decimalBytes; split <;> rfl

theorem toSigned_fits {w : Nat} {u : Int} (hw : 0 < w) (h : fitsBytes w u) : toSigned w (ofSigned w u) = u := by
  apply toSigned_ofSigned hw
  · have := h.1; push_cast; exact this
  · have := h.2; push_cast; exact this

/-- One row written by `DecimalAdapter`. -/
def decRow (c : Col) (p s : Nat) (nb : NoBits) (i : Nat) : Out Nat := do
  let v ← (Col.decAd c p s nb).at i
  match v with
  | .decimal d => pure (ofSigned nb.width d.underlying)
  | _ => Out.panic

theorem decAd_save (c : Col) (p sc : Nat) (nb : NoBits) (s e : Nat) :
    (Col.decAd c p sc nb).save s e = (rangeOut (decRow c p sc nb) s e >>= fun ds => pure (numsBytes nb.width ds)) := rfl

theorem sent_decimal {c : Col} {p s n : Nat} (hm : n < 2 ^ 56) (hp : p ≤ 18) (hsp : s ≤ p) (hs : Sound c n) (hcf : ChronoFree c.sqlType)
    (h18 : ∀ i d, c.at i = .ok (.decimal d) → d.scale ≤ 18) (hall : AllConvert parse tz (.decimal p s) c n) :
    Sent parse tz c (.decimal p s) (.decAd c p s (if p ≤ 9 then .n32 else .n64)) n := by
  have hw0 : 0 < decimalBytes p := by unfold decimalBytes; split <;> omega
  have hrow : ∀ i, i < n → ∃ x : Nat, x < 256 ^ decimalBytes p ∧ decRow c p s (if p ≤ 9 then .n32 else .n64) i = .ok x ∧
      ∀ v w, cell c i = some v → convert parse tz (.decimal p s) v = some w →
        w = .decimal ⟨toSigned (decimalBytes p) x, if p ≤ 9 then .n32 else .n64, p, s⟩ := by
    intro i hi
    obtain ⟨v, w, hv, hw⟩ := hall i hi
    have hv' := cell_at hs hcf hi hv
    obtain ⟨d, rfl, hf, rfl⟩ := convert_decimal hw
    refine ⟨ofSigned (decimalBytes p) (rescale d.underlying d.scale s), ofSigned_lt _ _, ?_, fun v' w' h1 h2 => ?_⟩
    · have hset := setScale_rescale (h18 i d hv') (by omega) hf
      simp only [decRow, Col.at, hv', obind_ok, hset, opure, nobits_width]
    · rw [hv] at h1; injection h1 with h1; subst h1
      rw [hw] at h2; injection h2 with h2
      rw [← h2, toSigned_fits hw0 hf]
  obtain ⟨l, hn, hq⟩ := choose_list hrow
  refine sent_of (p := .decimal p s (if p ≤ 9 then .n32 else .n64) l) ⟨rfl, by omega, by omega, ?_⟩
    (by simp only [InMemory]; omega) rfl rfl hs.len ?_ (fun _ => trivial) ?_
  · intro x hx
    obtain ⟨i, hi, rfl⟩ := List.getElem_of_mem hx
    rw [nobits_width]; exact (hq i hi).1
  · intro a e h1 h2
    rw [decAd_save, Col.save, rangeOut_part (fun i hi => (hq i hi).2.1) (by omega), saveNums_ok (by omega) (by omega), obind_ok, opure]
  · intro i v w hi hc hw
    rw [Col.at, idx_ok (by omega), obind_ok, (hq i (by omega)).2.2 v w hc hw, nobits_width]; rfl

theorem sound_decimal_shape {c : Col} {n p s : Nat} (hs : Sound c n) (ht : c.sqlType = .decimal p s) :
    ∃ nb xs, c = .decimal p s nb xs := by
  cases c <;> simp [Col.sqlType] at ht <;> try exact False.elim hs
  obtain ⟨rfl, rfl⟩ := ht
  exact ⟨_, _, rfl⟩

theorem decimal_scale {p s : Nat} {nb : NoBits} {xs : List Nat} {i : Nat} {d : Decimal} (h : (Col.decimal p s nb xs).at i = .ok (.decimal d)) :
    d.scale = s := by
  rw [Col.at] at h
  obtain ⟨x, _, h⟩ := obind_eq_ok h
  simp only [opure] at h
  injection h with h; injection h with h; subst h; rfl

theorem nullable_at_cases {nulls : Bytes} {c : Col} {i : Nat} {v : Value} (h : (Col.nullable nulls c).at i = .ok v) :
    v = .null c.sqlType ∨ ∃ v', v = .some v' ∧ c.at i = .ok v' := by
  rw [Col.at] at h
  obtain ⟨f, _, h⟩ := obind_eq_ok h
  split at h
  · injection h with h; exact .inl h.symm
  · obtain ⟨v', h1, h⟩ := obind_eq_ok h
    injection h with h; exact .inr ⟨v', h.symm, h1⟩

/-- One row written by `NullableDecimalAdapter`. -/
def nullDecRow (c : Col) (p s : Nat) (nb : NoBits) (i : Nat) : Out (Option Decimal) := do
  let v ← (Col.nullDecAd c p s nb).at i
  optFromSql decFromSql v

theorem nullDecAd_save (c : Col) (p sc : Nat) (nb : NoBits) {s e : Nat} (h : s ≤ e) :
    (Col.nullDecAd c p sc nb).save s e = (rangeOut (nullDecRow c p sc nb) s e >>= fun os =>
      pure (nullsOf os ++ numsBytes nb.width (os.map fun o => ofSigned nb.width ((o.map (·.underlying)).getD 0)))) := by
  conv => lhs; rw [Col.save]
  rw [if_neg (by omega)]; rfl

theorem sent_nullDecimal {c : Col} {p s p0 s0 n : Nat} (hm : n < 2 ^ 56) (hp : p ≤ 18) (hsp : s ≤ p) (hs : Sound c n) (hz : Sized tz c)
    (hct : c.sqlType = .nullable (.decimal p0 s0)) (hall : AllConvert parse tz (.nullable (.decimal p s)) c n) :
    Sent parse tz c (.nullable (.decimal p s)) (.nullDecAd c p s (if p ≤ 9 then .n32 else .n64)) n := by
  have hw0 : 0 < decimalBytes p := by unfold decimalBytes; split <;> omega
  have hcf : ChronoFree c.sqlType := by rw [hct]; trivial
  obtain ⟨nulls, c', rfl, hc', hl, hs'⟩ := sound_nullable_shape hs hct
  obtain ⟨nb0, xs, rfl⟩ := sound_decimal_shape hs' hc'
  have h18 : s0 ≤ 18 := hz
  have hrow : ∀ i, i < n → ∃ o : Option Decimal,
      nullDecRow (.nullable nulls (.decimal p0 s0 nb0 xs)) p s (if p ≤ 9 then .n32 else .n64) i = .ok o ∧
      ∀ v w, cell (.nullable nulls (.decimal p0 s0 nb0 xs)) i = some v → convert parse tz (.nullable (.decimal p s)) v = some w →
        (o = none ∧ w = .null (.decimal p s)) ∨ ∃ d, o = some d ∧ fitsBytes (decimalBytes p) d.underlying ∧
          w = .some (.decimal ⟨d.underlying, if p ≤ 9 then .n32 else .n64, p, s⟩) := by
    intro i hi
    obtain ⟨v, w, hv, hw⟩ := hall i hi
    have hv' := cell_at hs hcf hi hv
    rcases convert_nullable hw with ⟨u, rfl, rfl⟩ | ⟨v0, w0, rfl, rfl, h4⟩
    · refine ⟨none, by simp [nullDecRow, Col.at.eq_def (.nullDecAd _ _ _ _), hv', optFromSql], fun v' w' h1 h2 => .inl ⟨rfl, ?_⟩⟩
      rw [hv] at h1; injection h1 with h1; subst h1
      simp only [convert, Option.some.injEq] at h2; exact h2.symm
    · obtain ⟨d, rfl, hf, rfl⟩ := convert_decimal h4
      have hsc : d.scale ≤ 18 := by
        rcases nullable_at_cases hv' with h | ⟨v', h, h'⟩
        · cases h
        · injection h with h; subst h; rw [decimal_scale h']; exact h18
      have hset := setScale_rescale hsc (by omega) hf
      refine ⟨some ⟨rescale d.underlying d.scale s, if p ≤ 9 then .n32 else .n64, p, s⟩, ?_, fun v' w' h1 h2 => .inr ⟨_, rfl, hf, ?_⟩⟩
      · simp only [nullDecRow, Col.at.eq_def (.nullDecAd _ _ _ _), hv', optFromSql, obind_ok, decFromSql, Out.unwrap, opure, hset]
      · rw [hv] at h1; injection h1 with h1; subst h1
        rw [hw] at h2; injection h2 with h2
        rw [← h2]
  obtain ⟨os, hn, hq⟩ := choose_list hrow
  have hxs : ∀ x ∈ os.map (fun o => ofSigned (decimalBytes p) ((o.map (·.underlying)).getD 0)), x < 256 ^ decimalBytes p := by
    intro x hx
    simp only [List.mem_map] at hx
    obtain ⟨o, _, rfl⟩ := hx
    exact ofSigned_lt _ _
  refine sent_nullAd (os := os) hn (p0 := .decimal p s (if p ≤ 9 then .n32 else .n64)
    (os.map fun o => ofSigned (decimalBytes p) ((o.map (·.underlying)).getD 0))) ⟨rfl, by omega, by simp [hn], ?_⟩ hm
    (by simpa [InMemory, hn] using hm) trivial rfl rfl hs.len ?_ ?_
  · rw [nobits_width]; exact hxs
  · intro a e h1 h2
    rw [nullDecAd_save _ _ _ _ h1, rangeOut_part (fun i hi => (hq i hi).1) (by omega), obind_ok, Col.save,
      saveNums_ok h1 (by simpa [hn] using h2), obind_ok, nobits_width]
    simp only [List.map_drop, List.map_take]
    rfl
  · intro i hi v w hc hw
    rcases (hq i hi).2 v w hc hw with ⟨h1, h2⟩ | ⟨d, h1, hf, h2⟩
    · exact .inl ⟨h1, h2⟩
    · refine .inr ⟨by rw [h1]; simp, _, h2, ?_⟩
      rw [Col.at, idx_ok (by simpa using hi), obind_ok, nobits_width]
      simp only [List.getElem_map, h1, Option.map_some, Option.getD_some, toSigned_fits hw0 hf]
      rfl

theorem sound_enum_shape {c : Col} {n : Nat} {w : EnumW} {items : List (Str × Int)} (hs : Sound c n) (ht : c.sqlType = .enum w items) :
    ∃ xs, c = .enum w items xs := by
  cases c <;> simp [Col.sqlType] at ht <;> try exact False.elim hs
  obtain ⟨rfl, rfl⟩ := ht
  exact ⟨_, rfl⟩

/-- One row written by `Enum8Adapter` or `Enum16Adapter`. -/
def enumRow (c : Col) (w : EnumW) (items : List (Str × Int)) (i : Nat) : Out Nat := do
  let v ← (Col.enumAd c w items).at i
  match v with
  | .enum _ _ x => pure (ofSigned w.width x)
  | _ => Out.panic

theorem enumAd_save (c : Col) (w : EnumW) (items : List (Str × Int)) (s e : Nat) :
    (Col.enumAd c w items).save s e = (rangeOut (enumRow c w items) s e >>= fun ds => pure (numsBytes w.width ds)) := rfl

theorem sent_enumAd {c : Col} {n : Nat} {w : EnumW} {items items' : List (Str × Int)} (hm : n < 2 ^ 56) (hs : Sound c n)
    (ht : c.sqlType = .enum w items) : Sent parse tz c (.enum w items') (.enumAd c w items') n := by
  obtain ⟨xs, rfl⟩ := sound_enum_shape hs ht
  refine sent_enum hs hm rfl hs.len ?_
  obtain ⟨h1, h2⟩ := hs
  have hw : 0 < w.width := by cases w <;> decide
  intro s e hse he
  rw [enumAd_save, rangeOut_part (l := xs) (fun i hi => ?_) (by omega), Col.save, saveNums_ok (by omega) (by omega), obind_ok, opure]
  simp only [enumRow, Col.at, idx_ok hi, obind_ok, opure, if_true]
  rw [ofSigned_toSigned (h2 _ (List.getElem_mem hi))]

/-- One row written by `NullableEnum8Adapter` or `NullableEnum16Adapter`. -/
def nullEnumRow (c : Col) (w : EnumW) (items : List (Str × Int)) (i : Nat) : Out (Option Int) := do
  let v ← (Col.nullEnumAd c w items).at i
  optFromSql (enumFromSql w) v

theorem nullEnumAd_save (c : Col) (w : EnumW) (items : List (Str × Int)) {s e : Nat} (h : s ≤ e) :
    (Col.nullEnumAd c w items).save s e = (rangeOut (nullEnumRow c w items) s e >>= fun os =>
      pure (nullsOf os ++ numsBytes w.width (os.map fun o => ofSigned w.width (o.getD 0)))) := by
  conv => lhs; rw [Col.save]
  rw [if_neg (by omega)]; rfl

theorem convert_enum {w : EnumW} {items : List (Str × Int)} {v r : Value} (h : convert parse tz (.enum w items) v = some r) :
    ∃ i0 x, v = .enum w i0 x ∧ r = .enum w items x := by
  cases v with
  | enum w' i0 x =>
    simp only [convert] at h
    split at h
    · rename_i e; subst e; injection h with h; exact ⟨i0, x, rfl, h.symm⟩
    · cases h
  | _ => simp [convert] at h

theorem sent_nullEnum {c : Col} {n : Nat} {w : EnumW} {items items' : List (Str × Int)} (hm : n < 2 ^ 56) (hs : Sound c n)
    (hct : c.sqlType = .nullable (.enum w items)) (hall : AllConvert parse tz (.nullable (.enum w items')) c n) :
    Sent parse tz c (.nullable (.enum w items')) (.nullEnumAd c w items') n := by
  have hw : 0 < w.width := by cases w <;> decide
  have hcf : ChronoFree c.sqlType := by rw [hct]; trivial
  obtain ⟨nulls, c', rfl, hc', hl, hs'⟩ := sound_nullable_shape hs hct
  obtain ⟨xs, rfl⟩ := sound_enum_shape hs' hc'
  have hrow : ∀ i, i < n → ∃ o : Option Int,
      nullEnumRow (.nullable nulls (.enum w items xs)) w items' i = .ok o ∧
      ∀ v r, cell (.nullable nulls (.enum w items xs)) i = some v → convert parse tz (.nullable (.enum w items')) v = some r →
        (o = none ∧ r = .null (.enum w items')) ∨ ∃ x, x < 256 ^ w.width ∧ o = some (toSigned w.width x) ∧
          r = .some (.enum w items' (toSigned w.width x)) := by
    intro i hi
    obtain ⟨v, r, hv, hr⟩ := hall i hi
    have hv' := cell_at hs hcf hi hv
    rcases convert_nullable hr with ⟨u, rfl, rfl⟩ | ⟨v0, w0, rfl, rfl, h4⟩
    · refine ⟨none, by simp [nullEnumRow, Col.at.eq_def (.nullEnumAd _ _ _), hv', optFromSql], fun v' w' h1 h2 => .inl ⟨rfl, ?_⟩⟩
      rw [hv] at h1; injection h1 with h1; subst h1
      simp only [convert, Option.some.injEq] at h2; exact h2.symm
    · obtain ⟨i0, x, rfl, rfl⟩ := convert_enum h4
      have hx : ∃ y, y < 256 ^ w.width ∧ x = toSigned w.width y := by
        rcases nullable_at_cases hv' with h | ⟨v', h, h'⟩
        · cases h
        · injection h with h; subst h
          rw [Col.at] at h'
          obtain ⟨y, h5, h'⟩ := obind_eq_ok h'
          injection h' with h'; injection h' with h6 h7 h8
          refine ⟨y, ?_, h8.symm⟩
          obtain ⟨g1, g2⟩ := hs'
          rw [idx_ok (by omega)] at h5
          injection h5 with h5; rw [← h5]
          exact g2 _ (List.getElem_mem _)
      obtain ⟨y, hy, rfl⟩ := hx
      refine ⟨some (toSigned w.width y), ?_, fun v' w' h1 h2 => .inr ⟨y, hy, rfl, ?_⟩⟩
      · simp [nullEnumRow, Col.at.eq_def (.nullEnumAd _ _ _), hv', optFromSql, enumFromSql, Out.unwrap]
      · rw [hv] at h1; injection h1 with h1; subst h1
        rw [hr] at h2; injection h2 with h2
        exact h2.symm
  obtain ⟨os, hn, hq⟩ := choose_list hrow
  refine sent_nullAd (os := os) hn (p0 := .enum w items' (os.map fun o => ofSigned w.width (o.getD 0)))
    ⟨by simp [hn], by simp [hn], ?_⟩ hm (by simpa [InMemory, hn] using hm) trivial rfl rfl hs.len ?_ ?_
  · intro x hx
    simp only [List.mem_map] at hx
    obtain ⟨o, _, rfl⟩ := hx
    exact ofSigned_lt _ _
  · intro s e h1 h2
    rw [nullEnumAd_save _ _ _ h1, rangeOut_part (fun i hi => (hq i hi).1) (by omega), obind_ok, Col.save,
      saveNums_ok h1 (by simpa [hn] using h2), obind_ok]
    simp only [List.map_drop, List.map_take]
    rfl
  · intro i hi v r hc hr
    rcases (hq i hi).2 v r hc hr with ⟨h1, h2⟩ | ⟨x, hx, h1, h2⟩
    · exact .inl ⟨h1, h2⟩
    · refine .inr ⟨by rw [h1]; simp, _, h2, ?_⟩
      rw [Col.at, idx_ok (by simpa using hi), obind_ok]
      simp only [List.getElem_map, h1, Option.getD_some]
      rw [ofSigned_toSigned hx]; rfl

/-- The value can be put into a dictionary of type `t`. -/
def LcVal (t : SqlType) (v : Value) : Prop :=
  v.valHashable = true ∧ Genuine v ∧ (∀ d m, d.sqlType = t → Sound d m → ∃ d', pushT t d v = .ok d') ∧
    ∀ b, v = .str b → b.length < 2 ^ 63

theorem push_sendable {d d' : Col} {v : Value} {m : Nat} (ht : HashType d.sqlType) (hs : Sound d m) (hd : Sendable tz d)
    (hv : ∀ b, v = .str b → b.length < 2 ^ 63) (h : pushT d.sqlType d v = .ok d') : Sendable tz d' := by
  cases d <;> simp only [Col.sqlType, HashType] at ht <;> try exact False.elim hs
  case num t xs =>
    unfold pushT at h
    obtain ⟨x, _, h⟩ := obind_eq_ok h
    injection h with h; subst h; trivial
  case str xs =>
    unfold pushT at h
    obtain ⟨x, hx, h⟩ := obind_eq_ok h
    injection h with h; subst h
    cases v <;> simp [Value.toBytes] at hx
    subst hx
    intro b hb
    rcases List.mem_append.mp hb with hb | hb
    · exact hd b hb
    · rw [List.mem_singleton] at hb; subst hb; exact hv _ rfl
  case fixed k buf =>
    unfold pushT at h
    obtain ⟨x, _, h⟩ := obind_eq_ok h
    injection h with h; subst h; trivial
  case date z xs =>
    cases v <;> simp [pushT] at h
    subst h; trivial

theorem lcIndexPush_length {ity : IdxTy} {index : List Nat} {v : Nat} {q : IdxTy × List Nat} (h : lcIndexPush ity index v = .ok q) :
    q.2.length = index.length + 1 := by
  unfold lcIndexPush at h
  split at h
  · cases ity <;> first | (injection h with h; subst h; simp) | cases h
  · injection h with h; subst h; simp

theorem idx_mem {l : List α} {i : Nat} {a : α} (h : idx l i = .ok a) : a ∈ l := by
  unfold idx at h
  split at h
  · rename_i e; injection h with h; subst h; exact List.mem_of_getElem? e
  · cases h

theorem lcPush_send {ity : IdxTy} {index : List Nat} {d : Col} {vmap : Option (List (Value × Nat))} {v : Value} {n : Nat}
    (hs : Sound (.lowCard ity index d vmap) n) (hn : n + 1 < 2 ^ 64 - 1) (ht : HashType d.sqlType) (hz : Sendable tz d)
    (hf : LcVal d.sqlType v) :
    ∃ c', (Col.lowCard ity index d vmap).push v = .ok c' ∧ Sendable tz c' := by
  obtain ⟨h1, h2, hd, m, h3, h4, h5, h6⟩ := hs
  obtain ⟨f1, f2, f3, f4⟩ := hf
  have finish : ∀ mp : List (Value × Nat), ∃ c',
        (vmapGet mp v >>= fun o => match o with
          | some j => lcIndexPush ity index j >>= fun q => pure (Col.lowCard q.1 q.2 d (some mp))
          | none => d.len >>= fun j => pushT d.sqlType d v >>= fun d' =>
            lcIndexPush ity index j >>= fun q => pure (Col.lowCard q.1 q.2 d' (some ((v, j) :: mp)))) = .ok c' ∧ Sendable tz c' := by
    intro mp
    unfold vmapGet
    rw [if_pos f1, obind_ok]
    cases ho : (Option.map (fun x => x.2) (List.find? (fun p => p.1.valKeyEq v) mp)) with
    | some j =>
      obtain ⟨q, hq⟩ := lcIndexPush_ok ity index j (by omega)
      exact ⟨.lowCard q.1 q.2 d (some mp), by simp only; rw [hq]; rfl, by rw [lcIndexPush_length hq]; omega, hz⟩
    | none =>
      obtain ⟨q, hq⟩ := lcIndexPush_ok ity index m (by omega)
      obtain ⟨d', hd'⟩ := f3 d m rfl h3
      exact ⟨.lowCard q.1 q.2 d' (some ((v, m) :: mp)), by simp only; rw [h3.len, obind_ok, hd', obind_ok, hq]; rfl,
        by rw [lcIndexPush_length hq]; omega, push_sendable ht h3 hz f4 hd'⟩
  rw [Col.push, Col.sqlType]
  simp only [pushT]
  cases vmap with
  | some mp => exact finish mp
  | none =>
    have : ∃ mp, lcValueMap index d = .ok mp := by
      obtain ⟨ps, hp1, hp2⟩ := mapOut_exists (f := fun i => do let v ← d.at i; pure (v, i)) (l := index)
        (fun p : Value × Nat => p.1.valHashable = true) (fun i hi => by
          obtain ⟨w, hw, hh⟩ := dict_at ht h3 (h5 i hi)
          exact ⟨(w, i), by rw [hw]; rfl, hh⟩)
      obtain ⟨mp, hmp⟩ := vmapCollect_ok hp2 []
      exact ⟨mp, by rw [lcValueMap, hp1, obind_ok, hmp]⟩
    obtain ⟨mp, hmp⟩ := this
    obtain ⟨c', hc⟩ := finish mp
    exact ⟨c', by rw [hmp, obind_ok]; exact hc⟩

theorem lcPushList_send {t : SqlType} (ht : HashType t) {vs : List Value} : ∀ {c : Col} {n : Nat}, c.sqlType = .lowCard t →
    Sound c n → Sendable tz c → n + vs.length < 2 ^ 64 - 1 → (∀ v ∈ vs, LcVal t v) →
    ∃ c', pushList c vs = .ok c' ∧ Sendable tz c' := by
  induction vs with
  | nil => intro c n _ _ hz _ _; exact ⟨c, rfl, hz⟩
  | cons v vs ih =>
    intro c n hc hs hz hn hf
    obtain ⟨ity, index, d, vmap, rfl, rfl⟩ := sound_lowCard_shape hs hc
    rw [List.length_cons] at hn
    obtain ⟨c1, h1, hz1⟩ := lcPush_send hs (by omega) ht hz.2 (hf v (by simp))
    have p := push_spec hs (hf v (by simp)).2.1 h1
    obtain ⟨c2, h2, hz2⟩ := ih (p.type.trans hc) p.sound hz1 (by omega) (fun v hv => hf v (by simp [hv]))
    exact ⟨c2, by rw [pushList, pushAllWith, h1]; exact h2, hz2⟩

theorem slice_length {l r : List α} {s e : Nat} (h : slice l s e = .ok r) : r.length = e - s := by
  unfold slice at h
  split at h
  · injection h with h; subst h; simp; omega
  · cases h

/-- The values a column of the types that may become low cardinality holds. -/
theorem lcInner_at {c : Col} {n i : Nat} {v : Value} (hs : Sound c n) (hl : c.sqlType.lcInner = true) (hcf : ChronoFree c.sqlType)
    (hz : Sized tz c) (h : c.at i = .ok v) :
    Genuine v ∧ toOwned v = .ok v ∧
      ((∃ t x, v = .num t x) ∨ (∃ b, v = .str b ∧ b.length < 2 ^ 63) ∨ (∃ d, v = .date d) ∨ ∃ s, v = .datetime s tz) := by
  cases c <;> simp only [Col.sqlType, SqlType.lcInner, Bool.false_eq_true] at hl <;> try exact False.elim hs
  case num t xs =>
    obtain ⟨x, hx, h⟩ := obind_eq_ok h
    injection h with h; subst h
    exact ⟨hs.2 _ (idx_mem hx), rfl, .inl ⟨_, _, rfl⟩⟩
  case str xs =>
    obtain ⟨x, hx, h⟩ := obind_eq_ok h
    injection h with h; subst h
    exact ⟨trivial, rfl, .inr (.inl ⟨_, rfl, hz _ (idx_mem hx)⟩)⟩
  case fixed k buf =>
    rw [Col.at] at h
    obtain ⟨x, hx, h⟩ := obind_eq_ok h
    injection h with h; subst h
    exact ⟨trivial, rfl, .inr (.inl ⟨_, rfl, by rw [slice_length hx]; simp only [Sized] at hz; omega⟩)⟩
  case date z xs =>
    obtain ⟨x, hx, h⟩ := obind_eq_ok h
    injection h with h; subst h
    exact ⟨hs.2 _ (idx_mem hx), rfl, .inr (.inr (.inl ⟨_, rfl⟩))⟩
  case datetime z xs =>
    obtain ⟨x, hx, h⟩ := obind_eq_ok h
    injection h with h; subst h
    cases hz
    exact ⟨hs.2 _ (idx_mem hx), rfl, .inr (.inr (.inr ⟨_, rfl⟩))⟩
  case chrono => exact False.elim hcf
  case dt64 => exact False.elim hz

theorem convert_hash {t : SqlType} {v w : Value} (ht : HashType t) (hg : Genuine v)
    (hk : (∃ t x, v = .num t x) ∨ (∃ b, v = .str b ∧ b.length < 2 ^ 63) ∨ (∃ d, v = .date d) ∨ ∃ s, v = .datetime s tz)
    (h : convert parse tz t v = some w) :
    LcVal t v ∧ ∀ d m, d.sqlType = t → Sound d m → readBack d v = .ok w := by
  rcases hk with ⟨t', x, rfl⟩ | ⟨b, rfl, hb⟩ | ⟨d, rfl⟩ | ⟨s, rfl⟩
  · cases t <;> simp [HashType] at ht <;> simp only [convert, reduceCtorEq] at h
    split at h
    case isFalse => cases h
    rename_i e; subst e
    injection h with h; subst h
    refine ⟨⟨by simpa [Value.valHashable] using ht, hg, fun d m hd hs => ?_, fun b hb => by cases hb⟩, fun d m hd hs => ?_⟩
    · cases d <;> simp [Col.sqlType] at hd <;> try exact False.elim hs
      subst hd; exact ⟨_, by simp [pushT, Value.toNum]; rfl⟩
    · cases d <;> simp [Col.sqlType] at hd <;> try exact False.elim hs
      subst hd; simp [readBack, Value.toNum]
  · cases t <;> simp [HashType] at ht <;> simp only [convert, reduceCtorEq] at h
    · injection h with h; subst h
      refine ⟨⟨rfl, hg, fun d m hd hs => ?_, fun b' hb' => by cases hb'; exact hb⟩, fun d m hd hs => ?_⟩
      · cases d <;> simp [Col.sqlType] at hd <;> try exact False.elim hs
        exact ⟨_, by simp [pushT, Value.toBytes]; rfl⟩
      · cases d <;> simp [Col.sqlType] at hd <;> try exact False.elim hs
        simp [readBack, Value.toBytes]
    · simp only [Option.map_eq_some_iff, padded] at h
      obtain ⟨b1, h1, rfl⟩ := h
      split at h1
      case isFalse => cases h1
      rename_i hle
      injection h1 with h1; subst h1
      refine ⟨⟨rfl, hg, fun d m hd hs => ?_, fun b' hb' => by cases hb'; exact hb⟩, fun d m hd hs => ?_⟩
      · cases d <;> simp [Col.sqlType] at hd <;> try exact False.elim hs
        subst hd; exact ⟨_, by simp [pushT, Value.toBytes]; rfl⟩
      · cases d <;> simp [Col.sqlType] at hd <;> try exact False.elim hs
        subst hd; simp [readBack, Value.toBytes, List.take_of_length_le hle]
  · cases t <;> simp [HashType] at ht <;> simp only [convert, reduceCtorEq] at h
    injection h with h; subst h
    refine ⟨⟨rfl, hg, fun d m hd hs => ?_, fun b hb => by cases hb⟩, fun d m hd hs => ?_⟩
    · cases d <;> simp [Col.sqlType] at hd <;> try exact False.elim hs
      exact ⟨_, by simp [pushT]; rfl⟩
    · cases d <;> simp [Col.sqlType] at hd <;> try exact False.elim hs
      simp [readBack]
  · cases t <;> simp [HashType] at ht <;> simp [convert] at h

theorem pushRowsOf_list {c : Col} {f : Nat → Value} {is : List Nat} :
    ∀ {e : Col}, (∀ i ∈ is, c.at i = .ok (f i) ∧ toOwned (f i) = .ok (f i)) → pushRowsOf c is e = pushList e (is.map f) := by
  induction is with
  | nil => intro e _; rfl
  | cons i is ih =>
    intro e h
    have h1 := h i (by simp)
    rw [pushRowsOf, h1.1, obind_ok, h1.2, obind_ok, List.map_cons, pushList, pushAllWith]
    cases e.push (f i) with
    | ok d => simp only [obind_ok]; exact ih fun i hi => h i (by simp [hi])
    | err e => rfl
    | panic => rfl

/-- What `at` returns, or some string. -/
def atOr (c : Col) (i : Nat) : Value :=
  match c.at i with
  | .ok v => v
  | _ => .str []

/-- A dictionary of at most `n + 1` entries fits into memory. -/
theorem dict_inMemory {d : Col} {m n : Nat} (ht : HashType d.sqlType) (hs : Sound d m) (hm : m ≤ n + 1) (hn : n < 2 ^ 56 - 1)
    (hr : SpaceFor d.sqlType n) : InMemory d := by
  cases d <;> simp only [Col.sqlType, HashType] at ht <;> try exact False.elim hs
  case num t xs => have := hs.1; simp only [InMemory]; omega
  case str xs => have : xs.length = m := hs; simp only [InMemory]; omega
  case fixed k buf =>
    simp only [SpaceFor, Col.sqlType] at hr
    have := Nat.mul_le_mul_right k hm
    have h2 := hs.2
    simp only [InMemory]; omega
  case date z xs => have := hs.1; simp only [InMemory]; omega

theorem dict_flagged {d : Col} {n : Nat} (hs : Sound d n) (h : HashType d.sqlType) : Flagged d := by
  cases d <;> first | trivial | exact False.elim hs | exact False.elim h

theorem sent_lc {c : Col} {t : SqlType} {n : Nat} (hs : Sound c n) (hl : c.sqlType.lcInner = true) (hcf : 0 < n → ChronoFree c.sqlType)
    (hz : Sized tz c) (hn : n < 2 ^ 56 - 1) (hr : SpaceFor t n) (ht : HashType t) (hall : AllConvert parse tz (.lowCard t) c n) :
    ∃ d, lcCast c t = .ok d ∧ Sent parse tz c (.lowCard t) d n := by
  obtain ⟨d0, e1, e2, e3, e4⟩ := emptyCol_dict (c.timezone.getD defaultTz) ht
  have hv : ∀ i, i < n → ∃ w, c.at i = .ok (atOr c i) ∧ toOwned (atOr c i) = .ok (atOr c i) ∧ cell c i = some (atOr c i) ∧
      convert parse tz (.lowCard t) (atOr c i) = some w ∧ LcVal t (atOr c i) ∧ ∀ d m, d.sqlType = t → Sound d m → readBack d (atOr c i) = .ok w := by
    intro i hi
    obtain ⟨v, w, h1, h2⟩ := hall i hi
    have hcf := hcf (by omega)
    have h3 := cell_at hs hcf hi h1
    have h4 : atOr c i = v := by rw [atOr, h3]
    obtain ⟨g1, g2, g3⟩ := lcInner_at hs hl hcf hz h3
    obtain ⟨g4, g5⟩ := convert_hash ht g1 g3 (h := by simpa only [convert] using h2)
    rw [h4]
    exact ⟨w, h3, g2, h1, h2, g4, g5⟩
  have hs0 : Sound (.lowCard .u8 [] d0 none) 0 := ⟨rfl, by simp, e4, 0, e3, by omega, by simp, trivial⟩
  have hz0 : Sendable tz (.lowCard .u8 [] d0 none) := by
    refine ⟨by simp, ?_⟩
    subst e2
    cases d0 <;> simp [Col.sqlType, HashType] at ht <;> try trivial
    case str xs => simp only [Sound, List.length_eq_zero_iff] at e3; subst e3; intro b hb; cases hb
    all_goals exact False.elim e3
  obtain ⟨d, hd, hsd⟩ := lcPushList_send ht (vs := (List.range n).map (atOr c)) (by rw [Col.sqlType, e2]) hs0 hz0
    (by simp; omega) (by
      intro v hv'
      simp only [List.mem_map, List.mem_range] at hv'
      obtain ⟨i, hi, rfl⟩ := hv'
      obtain ⟨w, h⟩ := hv i hi
      exact h.2.2.2.2.1)
  have p := pushList_spec hs0 (vs := (List.range n).map (atOr c)) (by
      intro v hv'
      simp only [List.mem_map, List.mem_range] at hv'
      obtain ⟨i, hi, rfl⟩ := hv'
      obtain ⟨w, h⟩ := hv i hi
      exact h.2.2.2.2.1.2.1) hd
  have hsd' : Sound d n := by have := p.sound; simpa using this
  have hdt : d.sqlType = .lowCard t := by rw [p.type, Col.sqlType, e2]
  refine ⟨d, ?_, sent_of (p := d) (sound_savable hsd' hsd) ?_ hdt hdt hsd'.len (fun _ _ _ _ => rfl) (fun _ => ?_) ?_⟩
  · have hnd : t.isDatetime = false := by cases t <;> simp [HashType] at ht <;> rfl
    rw [lcCast, emptyCol, e1, obind_ok]
    simp only [opure, obind_ok]
    rw [hs.len, obind_ok, pushRowsOf_list (f := atOr c) (fun i hi => by
      obtain ⟨w, h⟩ := hv i (List.mem_range.mp hi); exact ⟨h.1, h.2.1⟩), hd, obind_ok]
    obtain ⟨ity, index, d1, vm, rfl, _⟩ := sound_lowCard_shape hsd' hdt
    simp [lcCastDict, hnd]
  · obtain ⟨ity, index, d1, vm, rfl, hdt1⟩ := sound_lowCard_shape hsd' hdt
    obtain ⟨g1, g2, g3, m, g4, g5, g6, g7⟩ := hsd'
    exact ⟨by omega, dict_inMemory (by rw [hdt1]; exact ht) g4 g5 hn (by rw [hdt1]; exact hr)⟩
  · obtain ⟨ity, index, d1, vm, rfl, hdt1⟩ := sound_lowCard_shape hsd' hdt
    exact dict_flagged (d := d1) hsd'.2.2.2.choose_spec.1 (by rw [hdt1]; exact ht)
  · intro i v w hi hc hw
    obtain ⟨w', h1, h2, h3, h4, h5, h6⟩ := hv i hi
    rw [hc] at h3; injection h3 with h3; subst h3
    rw [hw] at h4; injection h4 with h4; subst h4
    have := p.new i (by simpa using hi)
    rw [Nat.zero_add] at this
    rw [this]
    simp only [List.getElem_map, List.getElem_range]
    exact h6 d0 0 e2 e3

/-- A low-cardinality column of times built from the seconds `ss`. -/
structure TimeDict (ity : IdxTy) (index : List Nat) (ds : List (Int × Nat × Tz)) (vm : Option (List (Value × Nat)))
    (ss : List Nat) : Prop where
  len : index.length = ss.length
  room : ss.length ≤ ity.maxLen
  few : ds.length ≤ ss.length
  rows : ∀ (i : Nat) s, ss[i]? = some s → ∃ j z, index[i]? = some j ∧ ds[j]? = some ((s : Int), 0, z)
  low : ∀ d ∈ ds, 0 ≤ d.1 ∧ d.1 < 2 ^ 32
  table : match vm with
    | none => ss = []
    | some mp => ∀ p ∈ mp, ∃ (s : Nat) (z z' : Tz), p.1 = .datetime s z ∧ ds[p.2]? = some ((s : Int), 0, z')

theorem TimeDict.push {ity : IdxTy} {index : List Nat} {z0 : Tz} {ds : List (Int × Nat × Tz)} {vm : Option (List (Value × Nat))}
    {ss : List Nat} (h : TimeDict ity index ds vm ss) (hn : ss.length + 1 < 2 ^ 64) {s : Nat} (hs : s < 2 ^ 32) (z : Tz) :
    ∃ ity' index' ds' vm', (Col.lowCard ity index (.chrono z0 ds) vm).push (.datetime s z) =
        .ok (.lowCard ity' index' (.chrono z0 ds') vm') ∧ TimeDict ity' index' ds' vm' (ss ++ [s]) := by
  have grow : ∀ (ity' : IdxTy) (ds' : List (Int × Nat × Tz)) (j : Nat) (mp' : List (Value × Nat)) (z1 : Tz), ss.length + 1 ≤ ity'.maxLen → ds'.length ≤ ss.length + 1 →
      (∀ (i : Nat) d, ds[i]? = some d → ds'[i]? = some d) → ds'[j]? = some ((s : Int), 0, z1) → (∀ d ∈ ds', 0 ≤ d.1 ∧ d.1 < 2 ^ 32) →
      (∀ p ∈ mp', ∃ (s : Nat) (z z' : Tz), p.1 = .datetime s z ∧ ds'[p.2]? = some ((s : Int), 0, z')) →
      TimeDict ity' (index ++ [j]) ds' (some mp') (ss ++ [s]) := by
    intro ity' ds' j mp' z1 h1 h2 h3 h4 h5 h6
    refine ⟨by simp [h.len], by simpa using h1, by simpa using h2, fun i x hx => ?_, h5, h6⟩
    by_cases hi : i < ss.length
    · rw [List.getElem?_append_left hi] at hx
      obtain ⟨j', z', g1, g2⟩ := h.rows i x hx
      exact ⟨j', z', by rw [List.getElem?_append_left (by rw [h.len]; exact hi)]; exact g1, h3 _ _ g2⟩
    · have he : i = ss.length := by
        have := (List.getElem?_eq_some_iff.mp hx).1
        simp at this; omega
      subst he
      simp only [List.getElem?_append_right (Nat.le_refl _), Nat.sub_self, List.getElem?_cons_zero, Option.some.injEq] at hx
      subst hx
      exact ⟨j, z1, by rw [← h.len]; simp, h4⟩
  have finish : ∀ mp : List (Value × Nat), (∀ p ∈ mp, ∃ (s : Nat) (z z' : Tz), p.1 = .datetime s z ∧ ds[p.2]? = some ((s : Int), 0, z')) →
      ∃ ity' index' ds' vm', (vmapGet mp (.datetime s z) >>= fun o => match o with
          | some j => lcIndexPush ity index j >>= fun q => pure (Col.lowCard q.1 q.2 (.chrono z0 ds) (some mp))
          | none => (Col.chrono z0 ds).len >>= fun j => pushT (Col.chrono z0 ds).sqlType (.chrono z0 ds) (.datetime s z) >>= fun d' =>
            lcIndexPush ity index j >>= fun q => pure (Col.lowCard q.1 q.2 d' (some ((.datetime s z, j) :: mp)))) =
        .ok (.lowCard ity' index' (.chrono z0 ds') vm') ∧ TimeDict ity' index' ds' vm' (ss ++ [s]) := by
    intro mp hmp
    unfold vmapGet
    rw [if_pos (show (Value.datetime s z).valHashable = true from rfl), obind_ok]
    cases hf : mp.find? (fun p => p.1.valKeyEq (.datetime s z)) with
    | some p =>
      obtain ⟨p1, j⟩ := p
      have hm := List.mem_of_find?_eq_some hf
      have hk := List.find?_some hf
      obtain ⟨s', z1, z2, e1, e2⟩ := hmp _ hm
      simp only at e1 e2 hk
      subst e1
      simp only [Value.valKeyEq, beq_iff_eq] at hk
      subst hk
      have hj : j < ds.length := (List.getElem?_eq_some_iff.mp e2).1
      obtain ⟨q, hq⟩ := lcIndexPush_ok ity index j (by rw [h.len]; exact hn)
      obtain ⟨g1, g2⟩ := lcIndexPush_spec (ity' := q.1) (index' := q.2) (by rw [h.len]; exact h.room)
        (by rw [h.len]; have := h.few; omega) hq
      refine ⟨q.1, q.2, ds, some mp, by simp only [Option.map_some]; rw [hq]; rfl, ?_⟩
      rw [g1]
      exact grow _ _ _ _ z2 (by rw [← h.len]; exact g2) (by have := h.few; omega) (fun _ _ e => e) e2 h.low hmp
    | none =>
      obtain ⟨q, hq⟩ := lcIndexPush_ok ity index ds.length (by rw [h.len]; exact hn)
      obtain ⟨g1, g2⟩ := lcIndexPush_spec (ity' := q.1) (index' := q.2) (by rw [h.len]; exact h.room)
        (by rw [h.len]; have := h.few; omega) hq
      have old : ∀ (i : Nat) d, ds[i]? = some d → (ds ++ [((s : Int), 0, z)])[i]? = some d := fun i d e => by
        rw [List.getElem?_append_left (List.getElem?_eq_some_iff.mp e).1]; exact e
      have new : (ds ++ [((s : Int), 0, z)])[ds.length]? = some ((s : Int), 0, z) := by simp
      refine ⟨q.1, q.2, ds ++ [((s : Int), 0, z)], some ((.datetime s z, ds.length) :: mp), ?_, ?_⟩
      · simp only [Option.map_none, Col.len, obind_ok, Col.sqlType, pushT, Value.toAppDateTime, opure]
        rw [hq]; rfl
      · rw [g1]
        refine grow _ _ _ _ z (by rw [← h.len]; exact g2) (by have := h.few; simp; omega) old new ?_ ?_
        · intro d hd
          rcases List.mem_append.mp hd with hd | hd
          · exact h.low d hd
          · rw [List.mem_singleton] at hd; subst hd; simp only; omega
        · intro p hp
          rcases List.mem_cons.mp hp with rfl | hp
          · exact ⟨s, z, z, rfl, new⟩
          · obtain ⟨s', z1, z2, e1, e2⟩ := hmp p hp
            exact ⟨s', z1, z2, e1, old _ _ e2⟩
  rw [Col.push, Col.sqlType]
  simp only [pushT]
  have ht := h.table
  cases vm with
  | some mp => exact finish mp ht
  | none =>
    have hi : index = [] := by
      simp only at ht
      have := h.len
      rw [ht] at this
      exact List.length_eq_zero_iff.mp (by simpa using this)
    have : lcValueMap index (.chrono z0 ds) = .ok [] := by rw [hi]; rfl
    rw [this, obind_ok]
    exact finish [] (by simp)

theorem TimeDict.pushes {z0 : Tz} {vs : List (Nat × Tz)} : ∀ {ity : IdxTy} {index : List Nat} {ds : List (Int × Nat × Tz)}
    {vm : Option (List (Value × Nat))} {ss : List Nat}, TimeDict ity index ds vm ss → ss.length + vs.length < 2 ^ 64 →
    (∀ v ∈ vs, v.1 < 2 ^ 32) →
    ∃ ity' index' ds' vm', pushList (.lowCard ity index (.chrono z0 ds) vm) (vs.map fun v => .datetime v.1 v.2) =
        .ok (.lowCard ity' index' (.chrono z0 ds') vm') ∧ TimeDict ity' index' ds' vm' (ss ++ vs.map (·.1)) := by
  induction vs with
  | nil => intro ity index ds vm ss h _ _; exact ⟨ity, index, ds, vm, rfl, by simpa using h⟩
  | cons v vs ih =>
    intro ity index ds vm ss h hn hv
    rw [List.length_cons] at hn
    obtain ⟨ity1, index1, ds1, vm1, h1, h2⟩ := h.push (z0 := z0) (by omega) (hv v (by simp)) v.2
    obtain ⟨ity2, index2, ds2, vm2, h3, h4⟩ := ih h2 (by simp; omega) (fun w hw => hv w (by simp [hw]))
    refine ⟨ity2, index2, ds2, vm2, ?_, by simpa using h4⟩
    rw [List.map_cons, pushList, pushAllWith, h1]
    exact h3

theorem convert_time {v w : Value} (h : convert parse tz (.lowCard .datetime) v = some w) :
    (∃ s z, v = .datetime s z ∧ w = .datetime s tz) ∨ ∃ s n z, v = .chrono s n z ∧ 0 ≤ s ∧ s < 2 ^ 32 ∧ w = .datetime s.toNat tz := by
  rw [convert] at h
  cases v <;> simp only [convert, reduceCtorEq] at h
  · injection h with h; exact .inl ⟨_, _, rfl, h.symm⟩
  · split at h
    · rename_i hr; injection h with h; exact .inr ⟨_, _, _, rfl, hr.1, hr.2, h.symm⟩
    · cases h

/-- Times become the entries of a `LowCardinality(DateTime)` column. -/
theorem sent_lcTime {c : Col} {n : Nat} (hs : Sound c n) (hl : c.sqlType.lcInner = true) (hn : n < 2 ^ 56 - 1)
    (hall : AllConvert parse tz (.lowCard .datetime) c n) :
    ∃ d, lcCast c .datetime = .ok d ∧ Sent parse tz c (.lowCard .datetime) d n := by
  have hv : ∀ i, i < n → ∃ s z v, s < 2 ^ 32 ∧ c.at i = .ok (.datetime s z) ∧ cell c i = some v ∧
      convert parse tz (.lowCard .datetime) v = some (.datetime s tz) := by
    intro i hi
    obtain ⟨v, w, h1, h2⟩ := hall i hi
    cases c <;> simp only [Col.sqlType, SqlType.lcInner, Bool.false_eq_true] at hl <;> try exact False.elim hs
    case chrono z xs =>
      have hx : i < xs.length := by rw [show xs.length = n from hs]; exact hi
      have h1' := h1
      simp only [cell, List.getElem?_eq_getElem hx, Option.some.injEq] at h1
      rcases convert_time h2 with ⟨s, z', e, _⟩ | ⟨s, m, z', e, g1, g2, e2⟩
      · rw [e] at h1; cases h1
      · rw [e] at h1
        injection h1 with a1 a2 a3
        refine ⟨s.toNat, z', v, by omega, ?_, h1', by rw [h2, e2]⟩
        rw [Col.at, idx_ok hx, obind_ok]
        simp only [opure, Out.ok.injEq, Value.datetime.injEq]
        rw [a1, a3]
        exact ⟨asU32_of ⟨g1, g2⟩, rfl⟩
    case datetime z xs =>
      have hat := cell_at hs (by trivial) hi h1
      rcases convert_time h2 with ⟨s, z', e, e2⟩ | ⟨s, m, z', e, _⟩
      · subst e
        refine ⟨s, z', _, ?_, hat, h1, by rw [h2, e2]⟩
        rw [Col.at] at hat
        obtain ⟨x, hx, hat⟩ := obind_eq_ok hat
        injection hat with hat; injection hat with hat; subst hat
        exact hs.2 _ (idx_mem hx)
      · subst e
        rw [Col.at] at hat
        obtain ⟨x, hx, hat⟩ := obind_eq_ok hat
        cases hat
    all_goals
      have hat := cell_at hs (by trivial) hi h1
      rw [Col.at] at hat
      obtain ⟨x, hx, hat⟩ := obind_eq_ok hat
      injection hat with hat; subst hat
      simp [convert] at h2
  obtain ⟨f, hf⟩ : ∃ f : Nat → Nat × Tz, ∀ i, i < n → ∃ v, (f i).1 < 2 ^ 32 ∧ c.at i = .ok (.datetime (f i).1 (f i).2) ∧
      cell c i = some v ∧ convert parse tz (.lowCard .datetime) v = some (.datetime (f i).1 tz) := by
    refine ⟨fun i => match c.at i with | .ok (.datetime s z) => (s, z) | _ => (0, []), fun i hi => ?_⟩
    obtain ⟨s, z, v, h1, h2, h3, h4⟩ := hv i hi
    refine ⟨v, ?_, ?_, h3, ?_⟩ <;> simp only [h2]
    · exact h1
    · exact h4
  have h0 : TimeDict .u8 [] [] none [] := ⟨rfl, by simp, by simp, by simp, by simp, rfl⟩
  obtain ⟨ity, index, ds, vm, h1, h2⟩ := h0.pushes (z0 := c.timezone.getD defaultTz) (vs := (List.range n).map f) (by simp; omega) (by
    intro v hv'
    simp only [List.mem_map, List.mem_range] at hv'
    obtain ⟨i, hi, rfl⟩ := hv'
    exact (hf i hi).choose_spec.1)
  rw [List.nil_append] at h2
  have hil : index.length = n := by have := h2.len; simpa using this
  have hsec : ∀ i, i < n → ∃ j z, index[i]? = some j ∧ ds[j]? = some (((f i).1 : Int), 0, z) := fun i hi =>
    h2.rows i _ (by simp [hi])
  refine ⟨.lowCard ity index (.chronoAd (.chrono (c.timezone.getD defaultTz) ds) .datetime) vm, ?_,
    sent_of (p := .lowCard ity index (.datetime tz (ds.map fun x => asU32 x.1)) vm) ?_ ?_ rfl rfl ?_ ?_ (fun _ => trivial) ?_⟩
  · rw [lcCast, emptyCol, emptyCol, obind_ok]
    simp only [opure, obind_ok]
    rw [hs.len, obind_ok, pushRowsOf_list (f := fun i => .datetime (f i).1 (f i).2) (fun i hi => by
      obtain ⟨v, h⟩ := hf i (List.mem_range.mp hi); exact ⟨h.2.1, rfl⟩)]
    have : (List.range n).map (fun i => Value.datetime (f i).1 (f i).2) = ((List.range n).map f).map fun v => .datetime v.1 v.2 := by simp
    rw [this, h1, obind_ok]
    rfl
  · refine ⟨by omega, by omega, by omega, ds.length, by simp [Col.len], ?_, fun x hx => ?_, rfl, by omega, by simp, ?_⟩
    · have := h2.few; simp at this; omega
    · obtain ⟨i, hi, rfl⟩ := List.getElem_of_mem hx
      obtain ⟨j, z, e1, e2⟩ := hsec i (by omega)
      rw [List.getElem?_eq_getElem hi, Option.some.injEq] at e1
      have hj := (List.getElem?_eq_some_iff.mp e2).1
      have hr := h2.room
      have hfew := h2.few
      simp only [List.length_map, List.length_range] at hr hfew
      rw [e1]
      refine ⟨hj, ?_⟩
      have : ity.maxLen < 256 ^ ity.width := by cases ity <;> decide
      omega
    · intro x hx
      simp only [List.mem_map] at hx
      obtain ⟨y, _, rfl⟩ := hx
      exact asU32_lt _
  · have := h2.few
    simp only [List.length_map, List.length_range] at this
    exact ⟨by omega, by simp only [InMemory, List.length_map]; omega⟩
  · simp [Col.len, hil]
  · intro s e h1 h2
    simp only [Col.save]
    by_cases he : s = e
    · rw [if_pos he, if_pos he]
    · rw [if_neg he, if_neg he]
      simp only [Col.len, obind_ok, List.length_map]
      rw [slice_ok (by omega) (Nat.le_refl _), obind_ok, saveNums_ok (s := 0) (e := ds.length) (xs := ds.map fun x => asU32 x.1) (by omega)
        (by simp)]
      simp [List.take_of_length_le]
  · intro i v w hi hc hw
    obtain ⟨v', g1, g2, g3, g4⟩ := hf i hi
    rw [hc] at g3; injection g3 with g3; subst g3
    rw [hw] at g4; injection g4 with g4; subst g4
    obtain ⟨j, z, e1, e2⟩ := hsec i hi
    obtain ⟨hj, e2⟩ := List.getElem?_eq_some_iff.mp e2
    rw [Col.at, idx_ok (by omega), obind_ok]
    have : index[i]'(by omega) = j := by
      rw [List.getElem?_eq_getElem (by omega), Option.some.injEq] at e1; exact e1
    rw [this, Col.at, idx_ok (by simpa using hj), obind_ok, List.getElem_map, e2, asU32_of ⟨by omega, by simp only; omega⟩]
    rfl

/-! ### Addresses -/

/-- One row of the loop over addresses. -/
def ipRow (parse : IpKind → String → Option Bytes) (k : IpKind) (c : Col) (i : Nat) : Out Bytes := do
  let v ← c.at i
  ipOfText parse k v

theorem ipCast_rows (k : IpKind) (c : Col) :
    ipCast parse k c = (c.len >>= fun n => rangeOut (ipRow parse k c) 0 n >>= fun bs => pure (.ip k bs.flatten)) := rfl

theorem convert_ip_text {k : IpKind} {b : Bytes} {w : Value} (h : convert parse tz (.ip k) (.str b) = some w) :
    ∃ s octets, strOfBytes? b = some s ∧ parse k s = some octets ∧ k ≠ .uuid ∧ w = .ip k (ipOctets k octets) := by
  simp only [convert] at h
  split at h
  · cases h
  · rename_i hk
    simp only [Option.map_eq_some_iff, Option.bind_eq_some_iff] at h
    obtain ⟨o, ⟨s, h1, h2⟩, rfl⟩ := h
    refine ⟨s, o, h1, h2, hk, ?_⟩
    cases k <;> simp [ipOctets] at hk ⊢

theorem sent_ip {c : Col} {n : Nat} {k : IpKind} (hm : n < 2 ^ 56) (hk : k ≠ .uuid) (hparse : ∀ k s b, parse k s = some b → b.length = k.size)
    (hs : Sound c n) (ht : c.sqlType = .string) (hall : AllConvert parse tz (.ip k) c n) :
    ∃ d, ipCast parse k c = .ok d ∧ Sent parse tz c (.ip k) d n := by
  have hcf : ChronoFree c.sqlType := by rw [ht]; trivial
  have hrow : ∀ i, i < n → ∃ b : Bytes, b.length = k.size ∧ ipRow parse k c i = .ok b ∧
      ∀ v w, cell c i = some v → convert parse tz (.ip k) v = some w → w = .ip k b := by
    intro i hi
    obtain ⟨v, w, hv, hw⟩ := hall i hi
    have hv' := cell_at hs hcf hi hv
    have : ∃ b, v = .str b := by
      cases c <;> simp [Col.sqlType] at ht <;> try exact False.elim hs
      obtain ⟨x, _, h⟩ := obind_eq_ok hv'
      injection h with h; exact ⟨x, h.symm⟩
    obtain ⟨b, rfl⟩ := this
    obtain ⟨s, o, h1, h2, h3, rfl⟩ := convert_ip_text hw
    refine ⟨ipOctets k o, ?_, ?_, fun v' w' g1 g2 => ?_⟩
    · have := hparse _ _ _ h2
      cases k <;> simp [ipOctets, this] at hk ⊢
    · rw [ipRow, hv', obind_ok]; simp only [ipOfText, h1, h2]
    · rw [hv] at g1; injection g1 with g1; subst g1
      rw [hw] at g2; injection g2 with g2; exact g2.symm
  obtain ⟨l, hn, hp⟩ := choose_list hrow
  have hlen : ∀ b ∈ l, b.length = k.size := by
    intro b hb
    obtain ⟨i, hi, rfl⟩ := List.getElem_of_mem hb
    exact (hp i hi).1
  have hfl := flatten_length hlen
  have hk0 : 0 < k.size := by cases k <;> decide
  refine ⟨.ip k l.flatten, ?_, sent_of (p := .ip k l.flatten) ⟨by omega, by rw [hfl, hn]; omega⟩
    (by simp only [InMemory]; rw [hfl, hn]; exact room hm (by cases k <;> decide)) rfl rfl ?_ (fun _ _ _ _ => rfl) (fun _ => trivial) ?_⟩
  · rw [ipCast_rows, hs.len, obind_ok, rangeOut_list (fun i hi => (hp i hi).2.1) hn]; rfl
  · rw [Col.len, hfl, hn, Nat.mul_div_cancel _ hk0]
  · intro i v w hi hc hw
    rw [Col.at, Nat.succ_mul, flatten_slice hlen (by omega), obind_ok, (hp i (by omega)).2.2 v w hc hw]; rfl

/-! ### Columns that already have the type -/

theorem allOf_self {f : Value → Option Value} {vs ws : List Value} (hf : ∀ v ∈ vs, ∀ w, f v = some w → w = v)
    (h : allOf f vs = some ws) : ws = vs := by
  obtain ⟨h1, h2⟩ := allOf_map h
  apply List.ext_getElem h1
  intro i a b
  exact hf _ (List.getElem_mem b) _ (h2 i b a)

theorem convert_self {c : Col} {n i : Nat} {v w : Value} (hs : Sound c n) (hz : Sized tz c) (hc : ChronoFree c.sqlType)
    (h : c.at i = .ok v) (hw : convert parse tz c.sqlType v = some w) : w = v := by
  induction c generalizing n i v w with
  | num t xs =>
    obtain ⟨x, hx, h⟩ := obind_eq_ok h
    injection h with h; subst h
    simpa [convert, Col.sqlType] using hw.symm
  | str xs =>
    obtain ⟨x, hx, h⟩ := obind_eq_ok h
    injection h with h; subst h
    simpa [convert, Col.sqlType] using hw.symm
  | fixed k buf =>
    rw [Col.at] at h
    obtain ⟨x, hx, h⟩ := obind_eq_ok h
    injection h with h; subst h
    have := slice_length hx
    simp only [convert, Col.sqlType, padded, Option.map_eq_some_iff] at hw
    obtain ⟨b, h1, rfl⟩ := hw
    rw [if_pos (by omega)] at h1
    injection h1 with h1; subst h1
    rw [show k - x.length = 0 by omega]; simp
  | date z xs =>
    obtain ⟨x, hx, h⟩ := obind_eq_ok h
    injection h with h; subst h
    simpa [convert, Col.sqlType] using hw.symm
  | datetime z xs =>
    obtain ⟨x, hx, h⟩ := obind_eq_ok h
    injection h with h; subst h
    cases hz
    simpa [convert, Col.sqlType] using hw.symm
  | ip k buf =>
    rw [Col.at] at h
    obtain ⟨x, hx, h⟩ := obind_eq_ok h
    injection h with h; subst h
    simpa [convert, Col.sqlType] using hw.symm
  | chrono z xs => exact False.elim hc
  | dt64 p z xs => exact False.elim hz
  | nullable nulls c ih =>
    rcases nullable_at_cases h with rfl | ⟨v', rfl, h'⟩
    · simpa [convert, Col.sqlType] using hw.symm
    · simp only [convert, Col.sqlType, Option.map_eq_some_iff] at hw
      obtain ⟨w', hw, rfl⟩ := hw
      rw [ih hs.2.2 hz hc h' hw]
  | array offs c ih =>
    rw [Col.at] at h
    have hex : ∃ s e vs, rangeOut (fun j => c.at j) s e = .ok vs ∧ v = .array c.sqlType vs := by
      have tail : ∀ s, (idx offs i >>= fun stop => if stop < s then Out.panic else
          rangeOut (fun j => c.at j) s stop >>= fun vs => pure (Value.array c.sqlType vs)) = .ok v →
          ∃ s e vs, rangeOut (fun j => c.at j) s e = .ok vs ∧ v = .array c.sqlType vs := by
        intro s h
        obtain ⟨e, _, h⟩ := obind_eq_ok h
        split at h
        · cases h
        obtain ⟨vs, hvs, h⟩ := obind_eq_ok h
        injection h with h
        exact ⟨s, e, vs, hvs, h.symm⟩
      by_cases hi : i > 0
      · rw [if_pos hi] at h
        obtain ⟨s, _, h⟩ := obind_eq_ok h
        exact tail s h
      · rw [if_neg hi] at h
        exact tail 0 h
    obtain ⟨s, e, vs, hvs, rfl⟩ := hex
    simp only [convert, Col.sqlType, Option.map_eq_some_iff] at hw
    obtain ⟨ws, hw, rfl⟩ := hw
    rw [allOf_self (fun v hv w hw => ?_) hw]
    obtain ⟨j, _, hj⟩ := mapOut_mem hvs v hv
    exact ih hs.2.2 hz.2 hc hj hw
  | map offs kc vc ihk ihv =>
    cases v with
    | map k' v' ks vs =>
      simp only [convert, Col.sqlType] at hw
      split at hw
      · rename_i e; injection hw with hw; rw [← hw, e.1, e.2]
      · cases hw
    | _ => simp [convert, Col.sqlType] at hw
  | decimal p s nb xs =>
    obtain ⟨x, hx, h⟩ := obind_eq_ok h
    injection h with h; subst h
    obtain ⟨h1, _, _⟩ := hs
    simp only [convert, Col.sqlType, rescale] at hw
    rw [if_pos (Nat.le_refl s), Nat.sub_self, Int.pow_zero, Int.tdiv_one] at hw
    split at hw
    · injection hw with hw; rw [← hw, h1]
    · cases hw
  | enum w0 items xs =>
    obtain ⟨x, hx, h⟩ := obind_eq_ok h
    injection h with h; subst h
    simpa [convert, Col.sqlType] using hw.symm
  | simpleAgg f c ih => exact ih hs hz hc h (by simpa only [convert, Col.sqlType] using hw)
  | lowCard ity index d vm ih =>
    obtain ⟨j, _, h⟩ := obind_eq_ok h
    obtain ⟨_, _, _, m, hm, _⟩ := hs
    exact ih hm hz.2 hc h (by simpa only [convert, Col.sqlType] using hw)
  | _ => exact False.elim hs

theorem sent_self {c : Col} {n : Nat} {known : Tz → Bool} (hs : Sound c n) (hz : Sized tz c) (hi : InMemory c) (hn : Nameable known c.sqlType) :
    Sent parse tz c c.sqlType c n := by
  have hcf := nameable_chronoFree hn
  refine sent_of (sound_savable hs (sized_sendable hz hcf)) hi rfl rfl hs.len (fun _ _ _ _ => rfl) id fun i v w hi hc hw => ?_
  have h := cell_at hs hcf hi hc
  rw [h, convert_self hs hz hcf h hw]

/-! ### All arms -/

/-- The conversion either fails with an error or gives the converted column. -/
def Done (parse : IpKind → String → Option Bytes) (tz : Tz) (c : Col) (t : SqlType) (r : Out Col) (n : Nat) : Prop :=
  r = .err typeError ∨ ∃ d, r = .ok d ∧ Sent parse tz c t d n

theorem Done.intro {c d : Col} {t : SqlType} {n : Nat} (h : Sent parse tz c t d n) : Done parse tz c t (.ok d) n := .inr ⟨d, rfl, h⟩

theorem castData_done {c : Col} {t : SqlType} {n : Nat} (hs : Sound c n) (hz : Sized tz c) (hi : InMemory c) (hm : Insertable t) (hf : TimesFit t c)
    (known : Tz → Bool) (hn : Nameable known t) : Done parse tz c t (castData c t) n := by
  unfold castData
  cases h : c.dataCast t with
  | none => exact .inl rfl
  | some d => exact .intro (dataCast_sent hs hz hi hm hf known hn h)

theorem sound_array_shape {c : Col} {n : Nat} {t : SqlType} (hs : Sound c n) (ht : c.sqlType = .array t) :
    ∃ offs c', c = .array offs c' := by
  cases c <;> simp [Col.sqlType] at ht <;> try exact False.elim hs
  exact ⟨_, _, rfl⟩

theorem mapOut_length {f : α → Out β} {l : List α} {bs : List β} (h : mapOut f l = .ok bs) : bs.length = l.length := by
  induction l generalizing bs with
  | nil => injection h with h; subst h; rfl
  | cons a l ih =>
    obtain ⟨b0, h1, h⟩ := obind_eq_ok h
    obtain ⟨bs', h2, h⟩ := obind_eq_ok h
    injection h with h; subst h
    simp [ih h2]

theorem array_short {offs : List Nat} {c : Col} {i : Nat} {v : Value} {b : Bytes} (ho : ∀ x ∈ offs, x < 2 ^ 63)
    (h : (Col.array offs c).at i = .ok v) (hb : vecU8FromSql v = .ok b) : b.length < 2 ^ 63 := by
  rw [Col.at] at h
  have tail : ∀ s, (idx offs i >>= fun stop => if stop < s then Out.panic else
      rangeOut (fun j => c.at j) s stop >>= fun vs => pure (Value.array c.sqlType vs)) = .ok v → b.length < 2 ^ 63 := by
    intro s h
    obtain ⟨e, he, h⟩ := obind_eq_ok h
    split at h
    · cases h
    obtain ⟨vs, hvs, h⟩ := obind_eq_ok h
    injection h with h; subst h
    have h1 := mapOut_length hvs
    have h2 := ho _ (idx_mem he)
    simp only [List.length_range'] at h1
    unfold vecU8FromSql at hb
    split at hb
    · rename_i e; injection e with e1 e2; subst e2
      have := mapOut_length hb
      omega
    · rename_i e; cases e
    · cases hb
  by_cases hi : i > 0
  · rw [if_pos hi] at h
    obtain ⟨s, _, h⟩ := obind_eq_ok h
    exact tail s h
  · rw [if_neg hi] at h
    exact tail 0 h

theorem convert_hash_chrono {t : SqlType} {s : Int} {n : Nat} {z : Tz} {w : Value} (ht : HashType t)
    (h : convert parse tz (.lowCard t) (.chrono s n z) = some w) : False := by
  rw [convert] at h
  cases t <;> simp [HashType] at ht <;> simp [convert] at h

theorem lcInner_chronoFree {c : Col} {n : Nat} (hs : Sound c n) (hl : c.sqlType.lcInner = true)
    (h : ∀ x n z, cell c 0 = some (.chrono x n z) → False) (h0 : 0 < n) : ChronoFree c.sqlType := by
  cases c with
  | chrono z xs =>
    cases xs with
    | nil => simp [Sound] at hs; omega
    | cons x xs => exact False.elim (h _ _ _ rfl)
  | _ => simp [Col.sqlType, SqlType.lcInner] at hl <;> trivial

theorem castArm_done {c : Col} {t src : SqlType} {n : Nat} (hs : Sound c n) (hz : Sized tz c) (hi : InMemory c) (hr : SpaceFor t n) (hm : Insertable t) (hf : TimesFit t c)
    (known : Tz → Bool) (hn : Nameable known t) (hrows : n < 2 ^ 56 - 1)
    (hparse : ∀ k s b, parse k s = some b → b.length = k.size) (hall : AllConvert parse tz t c n) (hsrc : c.sqlType = src) :
    Done parse tz c t (castArm parse c t src) n := by
  unfold castArm
  split
  · -- LowCardinality
    split
    · rename_i hl
      subst hsrc
      rcases hm with hm | rfl
      · have hcf : 0 < n → ChronoFree c.sqlType := by
          intro h0
          obtain ⟨v, w, h1, h2⟩ := hall 0 h0
          exact lcInner_chronoFree hs hl (fun x n z e => by
            rw [e] at h1; injection h1 with h1; subst h1
            exact convert_hash_chrono hm h2) h0
        obtain ⟨d, h1, h2⟩ := sent_lc (t := _) hs hl hcf hz hrows (by simpa only [SpaceFor] using hr) hm hall
        rw [h1]; exact .intro h2
      · obtain ⟨d, h1, h2⟩ := sent_lcTime hs hl hrows hall
        rw [h1]; exact .intro h2
    · exact castData_done hs hz hi hm hf known hn
  · exact .intro (sent_fixed hm hs (by rw [hsrc]; trivial) hs.len hr (fun _ => rfl) hall)
  · exact .intro (sent_nullFixed hm (by omega) hr hs hsrc hall)
  · obtain ⟨offs, c', rfl⟩ := sound_array_shape hs hsrc
    exact .intro (sent_string hs (by omega) (by rw [hsrc]; trivial) hall fun i v b _ h hb => array_short hz.1 h hb)
  · exact .intro (sent_fixed (c0 := .stringAd c) hm hs (by rw [hsrc]; trivial) hs.len hr (fun _ => rfl) hall)
  · rw [fromPrecision_ok hn.2]
    refine .intro (sent_decimal (by omega) hn.2 hn.1 hs (by rw [hsrc]; trivial) (fun i d hd => ?_) hall)
    obtain ⟨nb, xs, rfl⟩ := sound_decimal_shape hs hsrc
    rw [decimal_scale hd]; exact hz
  · split
    · rename_i e; subst e
      exact .intro (sent_enumAd (by omega) hs hsrc)
    · exact castData_done hs hz hi hm hf known hn
  · split
    · rename_i e; subst e
      exact .intro (sent_nullEnum (by omega) hs hsrc hall)
    · exact castData_done hs hz hi hm hf known hn
  · rw [fromPrecision_ok hn.1.2]
    exact .intro (sent_nullDecimal (by omega) hn.1.2 hn.1.1 hs hz hsrc hall)
  · obtain ⟨d, h1, h2⟩ := sent_ip (by omega) (by decide) hparse hs hsrc hall
    rw [h1]; exact .intro h2
  · obtain ⟨d, h1, h2⟩ := sent_ip (by omega) (by decide) hparse hs hsrc hall
    rw [h1]; exact .intro h2
  · exact castData_done hs hz hi hm hf known hn

theorem castTo_done {c : Col} {t : SqlType} {n : Nat} (hs : Sound c n) (hz : Sized tz c) (hi : InMemory c) (hr : SpaceFor t n) (hm : Insertable t ∨ t = c.sqlType)
    (hf : TimesFit t c) (known : Tz → Bool) (hn : Nameable known t) (hrows : n < 2 ^ 56 - 1)
    (hparse : ∀ k s b, parse k s = some b → b.length = k.size) (hall : AllConvert parse tz t c n) :
    Done parse tz c t (c.castTo parse t) n := by
  induction t with
  | simpleAgg f t ih =>
    rw [Col.castTo]
    by_cases he : SqlType.simpleAgg f t = c.sqlType
    · rw [if_pos he, he]
      rw [he] at hn
      exact .intro (sent_self hs hz hi hn)
    · rw [if_neg he]
      have hm' := hm.resolve_right he
      have hnt : Nameable known t := by cases t <;> first | trivial | exact False.elim hn
      have hft : TimesFit t c := by cases t <;> first | exact False.elim hn | (cases c <;> trivial)
      rcases ih hr (.inl hm') hft hnt (fun i hi => by
        obtain ⟨v, w, h1, h2⟩ := hall i hi
        exact ⟨v, w, h1, by simpa only [convert] using h2⟩) with h | ⟨d, h, hd⟩
      · rw [h]; exact .inl rfl
      · rw [h]; exact .intro (sent_simpleAgg hd)
  | _ =>
    unfold Col.castTo
    split
    · rename_i he
      rw [he] at hn ⊢
      exact .intro (sent_self hs hz hi hn)
    · rename_i he
      exact castArm_done hs hz hi hr (hm.resolve_right he) hf known hn hrows hparse hall rfl

/-! ### Blocks -/

theorem castColumns_ok {cs hs ds : List NCol} (hl : cs.length = hs.length) (h : castColumns parse cs hs = .ok ds) :
    ds.length = cs.length ∧ ∀ i (h1 : i < cs.length) (h2 : i < hs.length) (h3 : i < ds.length),
      ds[i].name = cs[i].name ∧ cs[i].data.castTo parse hs[i].data.sqlType = .ok ds[i].data := by
  induction cs generalizing hs ds with
  | nil =>
    cases hs with
    | nil => injection h with h; subst h; exact ⟨rfl, fun i h1 => absurd h1 (by simp)⟩
    | cons => simp at hl
  | cons c cs ih =>
    cases hs with
    | nil => simp at hl
    | cons h0 hs =>
      obtain ⟨d, h1, h⟩ := obind_eq_ok h
      obtain ⟨ds', h2, h⟩ := obind_eq_ok h
      injection h with h; subst h
      obtain ⟨g1, g2⟩ := ih (by simpa using hl) h2
      refine ⟨by simp [g1], fun i a b c' => ?_⟩
      cases i with
      | zero => exact ⟨rfl, h1⟩
      | succ i => exact g2 i (by simpa using a) (by simpa using b) (by simpa using c')

theorem castColumns_all {cs hs : List NCol} (hl : cs.length = hs.length)
    (h : ∀ i (h1 : i < cs.length) (h2 : i < hs.length), cs[i].data.castTo parse hs[i].data.sqlType = .err typeError ∨
      ∃ d, cs[i].data.castTo parse hs[i].data.sqlType = .ok d) :
    castColumns parse cs hs = .err typeError ∨ ∃ ds, castColumns parse cs hs = .ok ds := by
  induction cs generalizing hs with
  | nil => cases hs with
    | nil => exact .inr ⟨[], rfl⟩
    | cons => simp at hl
  | cons c cs ih =>
    cases hs with
    | nil => simp at hl
    | cons h0 hs =>
      rcases h 0 (by simp) (by simp) with h1 | ⟨d, h1⟩
      · exact .inl (by rw [castColumns]; simp only [List.getElem_cons_zero] at h1; rw [h1]; rfl)
      · simp only [List.getElem_cons_zero] at h1
        rcases ih (by simpa using hl) (fun i a b => h (i + 1) (by simpa using a) (by simpa using b)) with h2 | ⟨ds, h2⟩
        · exact .inl (by rw [castColumns, h1, obind_ok, h2]; rfl)
        · exact .inr ⟨_, by rw [castColumns, h1, obind_ok, h2]; rfl⟩

/-- Columns that can be written, and what arrives. -/
structure Arrives (known : Tz → Bool) (tz : Tz) (n : Nat) (c : NCol) (c' : NCol) : Prop where
  name : c'.name = c.name
  len : c'.data.len = .ok n
  type : c'.data.sqlType = c.data.sqlType
  read : ∃ bytes, c.write = .ok bytes ∧ ∀ rest, readColumn known tz n (bytes ++ rest) = .ok c' rest

theorem sent_arrives {known : Tz → Bool} {n : Nat} {c : Col} {t : SqlType} {d : NCol} (h : Sent parse tz c t d.data n)
    (hname : (strBytes d.name).length < 2 ^ 63) (htype : (strBytes (String.ofList t.name)).length < 2 ^ 63)
    (hn : Nameable known t) :
    ∃ c', Arrives known tz n d ⟨d.name, c'⟩ ∧
      ∀ i v w, i < n → cell c i = some v → convert parse tz t v = some w → c'.at i = .ok w := by
  obtain ⟨bytes, c', h1, h2, h3, h4, h5⟩ := h.wire
  have ht := h.type
  refine ⟨c', ⟨rfl, h4, h3.trans ht.symm, _, by rw [NCol.write, h.len]; simp only [obind_ok]; rw [h1]; rfl, fun rest => ?_⟩, h5⟩
  rw [readColumn, List.append_assoc, List.append_assoc, bind_ok (readString_put _ _ hname), ht, bind_ok (readString_put _ _ htype)]
  rw [loadData, String.toList_ofList, resolve_name tz hn]
  rw [bind_ok (h2 rest)]; rfl

theorem readColumns_arrives {known : Tz → Bool} {n : Nat} {ds es : List NCol} (hl : es.length = ds.length)
    (h : ∀ i (h1 : i < ds.length) (h2 : i < es.length), Arrives known tz n ds[i] es[i]) :
    ∃ bss, mapOut NCol.write ds = .ok bss ∧ ∀ (b : Block), (∀ d ∈ b.columns, d.data.len = .ok n) → ∀ rest,
      readColumns known tz n ds.length b (bss.flatten ++ rest) = .ok { b with columns := b.columns ++ es } rest := by
  induction ds generalizing es with
  | nil =>
    cases es with
    | nil => exact ⟨[], rfl, fun b _ rest => by simp [readColumns]⟩
    | cons => simp at hl
  | cons d ds ih =>
    cases es with
    | nil => simp at hl
    | cons e es =>
      have h0 := h 0 (by simp) (by simp)
      simp only [List.getElem_cons_zero] at h0
      obtain ⟨bs, h1, h2⟩ := h0.read
      obtain ⟨bss, g1, g2⟩ := ih (by simpa using hl) fun i a b => h (i + 1) (by simpa using a) (by simpa using b)
      refine ⟨bs :: bss, by rw [mapOut, h1]; simp only [obind_ok]; rw [g1]; rfl, fun b hb rest => ?_⟩
      rw [List.length_cons, readColumns, List.flatten_cons, List.append_assoc, bind_ok (h2 _),
        bind_ok (lift_ok (append_arrived hb h0.len) _), g2]
      · simp
      · intro x hx
        simp only [List.mem_append, List.mem_singleton] at hx
        rcases hx with hx | rfl
        · exact hb x hx
        · exact h0.len

theorem dataCast_unhashed {c : Col} : ∀ {t : SqlType} {d : Col} {i : Nat} {x : Value}, c.dataCast t = some d → c.at i = .ok x → x.refHashable = false := by
  induction c with
  | array offs c ih =>
    intro t d i x _ h
    rw [at_array] at h
    obtain ⟨s, _, h⟩ := obind_eq_ok h
    obtain ⟨e, _, h⟩ := obind_eq_ok h
    split at h
    · cases h
    · obtain ⟨vs, _, h⟩ := obind_eq_ok h
      cases h; rfl
  | nullable nulls c ih =>
    intro t d i x _ h
    rw [Col.at] at h
    obtain ⟨s, _, h⟩ := obind_eq_ok h
    split at h
    · cases h; rfl
    · obtain ⟨vs, _, h⟩ := obind_eq_ok h
      cases h; rfl
  | map offs k v _ _ =>
    intro t d i x _ h
    rw [at_map] at h
    obtain ⟨s, _, h⟩ := obind_eq_ok h
    obtain ⟨e, _, h⟩ := obind_eq_ok h
    split at h
    · cases h
    · obtain ⟨vs, _, h⟩ := obind_eq_ok h
      obtain ⟨vs, _, h⟩ := obind_eq_ok h
      obtain ⟨vs, _, h⟩ := obind_eq_ok h
      cases h; rfl
  | simpleAgg f c ih =>
    intro t d i x h e
    rw [Col.at] at e
    cases t <;> try (simp [Col.dataCast] at h; done)
    rename_i g t
    simp only [Col.dataCast, Option.map_eq_some_iff] at h
    obtain ⟨c', h, _⟩ := h
    exact ih h e
  | chrono tz xs =>
    intro t d i x _ h
    rw [Col.at] at h
    obtain ⟨s, _, h⟩ := obind_eq_ok h
    cases h; rfl
  | enum w items xs =>
    intro t d i x _ h
    rw [Col.at] at h
    obtain ⟨s, _, h⟩ := obind_eq_ok h
    cases h; rfl
  | _ => intro t d i x h; simp [Col.dataCast] at h

theorem mapOut_cells {f : Nat → Out Value} {l : List Nat} : ∀ {vs : List Value}, mapOut f l = .ok vs → vs.length = l.length ∧ ∀ v ∈ vs, ∃ i, f i = .ok v := by
  induction l with
  | nil => intro vs h; cases h; simp
  | cons i l ih =>
    intro vs h
    rw [mapOut] at h
    obtain ⟨x, hx, h⟩ := obind_eq_ok h
    obtain ⟨xs, hxs, h⟩ := obind_eq_ok h
    cases h
    obtain ⟨h1, h2⟩ := ih hxs
    refine ⟨by simp [h1], fun v hv => ?_⟩
    rcases List.mem_cons.mp hv with rfl | hv
    · exact ⟨i, hx⟩
    · exact h2 v hv

end CH
