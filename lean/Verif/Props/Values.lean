import Verif.Lemmas.Values
import Verif.Props.Decimal

/-!
C54 (owned and borrowed values), C55 (equality), C56 (hashing).
-/

namespace CH.Props
open Spec

/-- **C54**. Borrowing an owned value and converting it back gives the very same value, and both report the same type, for every
value tree without `ChronoDateTime` whose map keys are distinct integers or strings. (The full claim is false:
`C54_chrono_violated`, `C54_date_keys_violated`.) -/
theorem C54_roundtrip_partial (v : Value) (h : Borrowable v) :
    ∃ r, toRef v = .ok r ∧ toOwned r = .ok v ∧ r.sqlType = v.sqlType := by
  have := borrow_id v h
  exact ⟨v, this.1, this.2, rfl⟩

example : Borrowable (.map .string (.array (.num .u8)) [.str [97], .str [98]] [.array (.num .u8) [.num .u8 1], .array (.num .u8) []]) := by
  refine .map rfl ?_ ?_ ?_
  · simp [Value.refHashable]
  · simp [Value.keyEq]
  · simp only [List.mem_cons, List.not_mem_nil, or_false]
    rintro v (rfl | rfl)
    · exact .array fun v hv => by simp at hv; subst hv; exact .num
    · exact .array fun v hv => by simp at hv

/-- **C54**, the other direction: a borrowed value converted to an owned one and borrowed again is the same value. -/
theorem C54_owned_roundtrip (v : Value) (h : Borrowable v) : ∃ w, toOwned v = .ok w ∧ toRef w = .ok v := by
  have := borrow_id v h
  exact ⟨v, this.2, this.1⟩

example : ∃ w, toOwned (.array .string [.str [97], .str []]) = .ok w ∧ toRef w = .ok (.array .string [.str [97], .str []]) :=
  C54_owned_roundtrip _ (.array fun v hv => by simp at hv; rcases hv with rfl | rfl <;> exact .str)

/-- **C54** fails: borrowing an owned `ChronoDateTime` panics. -/
theorem C54_chrono_violated : toRef (.chrono 0 0 defaultTz) = .panic := rfl

/-- **C54** fails: borrowing a map with `Date` keys, which can be built, panics in `Hash for ValueRef`. -/
theorem C54_date_keys_violated :
    (∃ m, ownBuild ([], []) [.date 1] [.num .u8 2] = .ok m) ∧ toRef (.map .date (.num .u8) [.date 1] [.num .u8 2]) = .panic :=
  ⟨⟨_, rfl⟩, rfl⟩

/-- **C55**, borrowed values: every value without NaN, booleans, addresses and times out of range equals itself. (The full claim
is false: `C55_ref_kinds_violated`, `C55_ref_dt64_violated`.) -/
theorem C55_ref_reflexive_partial (v : Value) (h : RefSane v) : refEq v v = .ok true := by
  induction v using Value.ind with
  | num t x =>
    cases h with
    | num hb hn => simp [refEq, hb, numEq_self hn]
  | some v ih => cases h with | some h => simpa [refEq] using ih h
  | array t vs ih =>
    cases h with
    | array h => simp [refEq, refEqs_refl fun v hv => ih v hv (h v hv)]
  | map k w ks vs _ ih =>
    cases h with
    | map hl hh hp h =>
      simp only [refEq, ne_eq, not_true_eq_false, or_self, if_false]
      exact refMapEq_refl (pre := []) (pre' := []) hl rfl hh (by simpa using hp) fun v hv => ih v hv (h v hv)
  | dt64 v p z =>
    cases h with
    | dt64 hp h1 h2 h3 =>
      obtain ⟨s, n, h, _⟩ := toDatetime_ok hp h1 h2 h3
      simp [refEq, h]
  | decimal d => simp [refEq, decimal_eq_self]
  | chrono s n z => cases h
  | ip k b => cases h
  | _ => simp [refEq]

example : RefSane (.array (.nullable (.num .f64)) [.some (.num .f64 0x3ff0000000000000), .null (.num .f64)]) := by
  refine .array fun v hv => ?_
  simp at hv
  rcases hv with rfl | rfl
  · exact .some (.num (by decide) (by simp [NaN]))
  · exact .null

/-- **C55** fails for borrowed values: a boolean, an IPv4 or IPv6 address and a UUID are not equal to themselves. -/
theorem C55_ref_kinds_violated (x : Nat) (k : IpKind) (b : Bytes) :
    refEq (.num .bool x) (.num .bool x) = .ok false ∧ refEq (.ip k b) (.ip k b) = .ok false := ⟨rfl, rfl⟩

/-- **C55** fails for borrowed times: half a second before 1970 panics when compared with itself. -/
theorem C55_ref_dt64_violated : refEq (.dt64 (-5) 1 defaultTz) (.dt64 (-5) 1 defaultTz) = .panic := by decide

/-- **C55**, owned values: every value without NaN, maps and times out of range equals itself. (The full claim is false:
`C55_own_map_violated`.) -/
theorem C55_own_reflexive_partial (v : Value) (h : OwnSane v) : ownEq v v = .ok true := by
  induction v using Value.ind with
  | num t x =>
    cases h with
    | num hn => simp [ownEq, numEq_self hn]
  | some v ih => cases h with | some h => simpa [ownEq] using ih h
  | array t vs ih =>
    cases h with
    | array h => simp [ownEq, ownEqs_refl fun v hv => ih v hv (h v hv)]
  | dt64 v p z =>
    cases h with
    | dt64 hp h1 h2 =>
      have hc : checkI64 (v * 10 ^ (9 - p)) = .ok (v * 10 ^ (9 - p)) := by
        rw [checkI64, if_pos (by simpa [i64Min, i64Max] using ⟨h1, h2⟩)]
      simp [ownEq, dt64Eq, multiplier, hp, hc]
  | decimal d => simp [ownEq, decimal_eq_self]
  | map k w ks vs _ _ => cases h
  | _ => simp [ownEq]

example : OwnSane (.array (.ip .v4) [.ip .v4 [1, 0, 0, 127]]) := .array fun v hv => by simp at hv; subst hv; exact .ip

/-- **C55** fails for owned maps: no map equals itself, not even the empty one. -/
theorem C55_own_map_violated (k v : SqlType) (ks vs : List Value) : ownEq (.map k v ks vs) (.map k v ks vs) = .ok false := rfl

/-- **C55**, borrowed values that compare equal have the same contents (floats as numbers, times as instants, decimals as
numbers). The precisions of sub-second times must exist: `C55_precision_violated`. -/
theorem C55_ref_sound_partial (v w : Value) (hv : Precise v) (hw : Precise w) (h : refEq v w = .ok true) : Same v w := by
  induction v using Value.ind generalizing w with
  | num t x =>
    cases w <;> simp [refEq] at h
    obtain ⟨⟨rfl, _⟩, h⟩ := h
    exact .num (numEq_same h)
  | str b => cases w <;> simp [refEq] at h; subst h; exact .str
  | date b => cases w <;> simp [refEq] at h; subst h; exact .date
  | datetime s z => cases w <;> simp [refEq] at h; subst h; exact .datetime
  | dt64 a p z =>
    cases w with
    | dt64 b q z' =>
      cases hv with
      | dt64 hp =>
        cases hw with
        | dt64 hq =>
          simp only [refEq] at h
          obtain ⟨⟨s, n⟩, h1, h⟩ := out_bind_ok.mp h
          obtain ⟨⟨s', n'⟩, h2, h⟩ := out_bind_ok.mp h
          have h : ((s, n) == (s', n')) = true := by injection h
          have : s = s' ∧ n = n' := by simpa using h
          obtain ⟨rfl, rfl⟩ := this
          have e1 := (toDatetime_exact hp h1).2
          have e2 := (toDatetime_exact hq h2).2
          exact .dt64 hp hq (e1.symm.trans e2)
    | _ => simp [refEq] at h
  | chrono s n z => cases w <;> simp [refEq] at h
  | ip k b => cases w <;> simp [refEq] at h
  | null t => cases w <;> simp [refEq] at h; subst h; exact .null
  | some v ih =>
    cases w with
    | some w =>
      cases hv with
      | some hv => cases hw with
        | some hw => exact .some (ih w hv hw h)
    | _ => simp [refEq] at h
  | array t vs ih =>
    cases w with
    | array t' ws =>
      cases hv with
      | array hv => cases hw with
        | array hw =>
          simp only [refEq] at h
          split at h
          · rename_i he
            obtain ⟨rfl, hl⟩ := he
            refine .array hl ?_
            exact refEqs_sound (Q := Precise) (fun a ha b hb hr => ih a ha b (hv a ha) hb hr) hw h
          · cases h
    | _ => simp [refEq] at h
  | decimal d =>
    cases w with
    | decimal e =>
      refine .decimal ?_
      simp only [refEq] at h
      exact ((C30_eq_partial d e).1 _ h).mp rfl
    | _ => simp [refEq] at h
  | enum ew items x =>
    cases w with
    | enum w' items' y =>
      simp only [refEq] at h
      have : (ew = w' ∧ x = y) ∧ items = items' := by
        injection h with h; simpa using h
      obtain ⟨⟨rfl, rfl⟩, rfl⟩ := this
      exact .enum
    | _ => simp [refEq] at h
  | map k u ks vs _ ih =>
    cases w with
    | map k' u' ks' vs' =>
      cases hv with
      | map hl hv => cases hw with
        | map hl' hw =>
          simp only [refEq] at h
          split at h
          · cases h
          · rename_i he
            have he : ks.length = ks'.length ∧ k = k' ∧ u = u' := by
              refine ⟨Classical.byContradiction fun hn => he (Or.inl hn), Classical.byContradiction fun hn => he (Or.inr (Or.inl hn)),
                Classical.byContradiction fun hn => he (Or.inr (Or.inr hn))⟩
            obtain ⟨hlen, rfl, rfl⟩ := he
            have hm := refMapEq_sound (Q := Precise) (fun a ha b hb hr => ih a ha b (hv a ha) hb hr) hw hl h
            refine .map (keyPos ks ks') hlen ?_ ?_ ?_
            · intro i key hk
              have hi : i < vs.length := by
                have := (List.getElem?_eq_some_iff.mp hk).1; omega
              exact (hm i key _ hk (List.getElem?_eq_getElem hi)).1
            · intro i a ha
              have hi : i < ks.length := by
                have := (List.getElem?_eq_some_iff.mp ha).1; omega
              obtain ⟨_, b, hb, _⟩ := hm i _ a (List.getElem?_eq_getElem hi) ha
              exact ⟨b, hb⟩
            · intro i a b ha hb
              have hi : i < ks.length := by
                have := (List.getElem?_eq_some_iff.mp ha).1; omega
              obtain ⟨_, b', hb', hs⟩ := hm i _ a (List.getElem?_eq_getElem hi) ha
              rw [hb] at hb'; injection hb' with hb'; subst hb'; exact hs
    | _ => simp [refEq] at h

example : Precise (.some (.dt64 15 1 defaultTz)) ∧ refEq (.some (.dt64 15 1 defaultTz)) (.some (.dt64 1500 3 defaultTz)) = .ok true :=
  ⟨.some (.dt64 (by decide)), by decide⟩

/-- **C55** fails for precisions from 19 on, which the type parser accepts: the stored number is ignored and any two such times
compare equal. -/
theorem C55_precision_violated (a b : Int) (p : Nat) (h : 19 ≤ p) (z : Tz) : refEq (.dt64 a p z) (.dt64 b p z) = .ok true := by
  have : ∀ v, toDatetime v p = .ok (0, 0) := by
    intro v
    unfold toDatetime
    rw [if_neg (by omega)]
    rfl
  simp [refEq, this]

example : refEq (.dt64 1 19 defaultTz) (.dt64 2 19 defaultTz) = .ok true := by decide

/-- **C55**, owned values that compare equal have the same contents, without any condition. -/
theorem C55_own_sound (v w : Value) (h : ownEq v w = .ok true) : Same v w := by
  induction v using Value.ind generalizing w with
  | num t x =>
    cases w <;> simp [ownEq] at h
    obtain ⟨rfl, h⟩ := h
    exact .num (numEq_same h)
  | str b => cases w <;> simp [ownEq] at h; subst h; exact .str
  | date b => cases w <;> simp [ownEq] at h; subst h; exact .date
  | datetime s z => cases w <;> simp [ownEq] at h; subst h; exact .datetime
  | dt64 a p z =>
    cases w with
    | dt64 b q z' =>
      simp only [ownEq, dt64Eq] at h
      split at h
      · rename_i he
        subst he
        obtain ⟨f, hf, h⟩ := out_bind_ok.mp h
        obtain ⟨x, hx, h⟩ := out_bind_ok.mp h
        obtain ⟨y, hy, h⟩ := out_bind_ok.mp h
        have hb : (x == y) = true := by injection h
        have hxy : x = y := by simpa using hb
        have ex := checkI64_eq hx
        have ey := checkI64_eq hy
        unfold multiplier at hf
        split at hf
        · rename_i hp
          injection hf with hf
          subst hf
          exact .dt64 hp hp (by rw [← ex, ← ey, hxy])
        · cases hf
      · cases h
    | _ => simp [ownEq] at h
  | chrono s n z =>
    cases w <;> simp [ownEq] at h
    obtain ⟨rfl, rfl⟩ := h; exact .chrono
  | ip k b =>
    cases w <;> simp [ownEq] at h
    obtain ⟨rfl, rfl⟩ := h; exact .ip
  | null t => cases w <;> simp [ownEq] at h; subst h; exact .null
  | some v ih =>
    cases w with
    | some w => exact .some (ih w h)
    | _ => simp [ownEq] at h
  | array t vs ih =>
    cases w with
    | array t' ws =>
      simp only [ownEq] at h
      split at h
      · rename_i he
        obtain ⟨rfl, hl⟩ := he
        exact .array hl (ownEqs_sound (fun a ha b hr => ih a ha b hr) h)
      · cases h
    | _ => simp [ownEq] at h
  | decimal d =>
    cases w with
    | decimal e => exact .decimal (((C30_eq_partial d e).1 _ h).mp rfl)
    | _ => simp [ownEq] at h
  | enum ew items x =>
    cases w with
    | enum w' items' y =>
      simp only [ownEq] at h
      have : (ew = w' ∧ items = items') ∧ x = y := by injection h with h; simpa using h
      obtain ⟨⟨rfl, rfl⟩, rfl⟩ := this
      exact .enum
    | _ => simp [ownEq] at h
  | map k u ks vs _ _ => cases w <;> simp [ownEq] at h

example : ownEq (.array (.num .u8) [.num .u8 1, .num .u8 2]) (.array (.num .u8) [.num .u8 1, .num .u8 2]) = .ok true := by decide

theorem eqRows_sound {a b : Col} {is : List Nat} (h : Col.eqRows a b is = .ok true) :
    ∀ i ∈ is, ∃ v w, a.at i = .ok v ∧ b.at i = .ok w ∧ refEq v w = .ok true := by
  induction is with
  | nil => intro i hi; simp at hi
  | cons j is ih =>
    simp only [Col.eqRows] at h
    obtain ⟨v, hv, h⟩ := out_bind_ok.mp h
    obtain ⟨w, hw, h⟩ := out_bind_ok.mp h
    obtain ⟨r, hr, h⟩ := out_bind_ok.mp h
    cases r with
    | false => simp at h
    | true =>
      intro i hi
      rcases List.mem_cons.mp hi with rfl | hi
      · exact ⟨v, w, hv, hw, hr⟩
      · exact ih (by simpa using h) i hi

theorem eqRows_refl {a : Col} {is : List Nat} (h : ∀ i ∈ is, ∃ v, a.at i = .ok v ∧ refEq v v = .ok true) :
    Col.eqRows a a is = .ok true := by
  induction is with
  | nil => rfl
  | cons j is ih =>
    obtain ⟨v, hv, hr⟩ := h j (by simp)
    simp only [Col.eqRows, hv, obind_ok, hr, if_true]
    exact ih fun i hi => h i (by simp [hi])

/-- Two columns have the same type, the same number of rows and the same cells. -/
def SameCells (a b : Col) : Prop :=
  a.sqlType = b.sqlType ∧ ∃ n, a.len = .ok n ∧ b.len = .ok n ∧
    ∀ i, i < n → ∃ v w, a.at i = .ok v ∧ b.at i = .ok w ∧ Same v w

/-- Every cell of the column has existing precisions. -/
def PreciseCol (a : Col) : Prop := ∀ i v, a.at i = .ok v → Precise v

/-- **C55**, columns that compare equal have the same type, length and cells. -/
theorem C55_column_sound_partial (a b : Col) (ha : PreciseCol a) (hb : PreciseCol b) (h : a.eq b = .ok true) : SameCells a b := by
  unfold Col.eq at h
  obtain ⟨n, hn, h⟩ := out_bind_ok.mp h
  obtain ⟨m, hm, h⟩ := out_bind_ok.mp h
  split at h
  · cases h
  · rename_i he
    have e1 : n = m := Classical.byContradiction fun hne => he (Or.inl hne)
    have e2 : a.sqlType = b.sqlType := Classical.byContradiction fun hne => he (Or.inr hne)
    subst e1
    refine ⟨e2, n, hn, hm, fun i hi => ?_⟩
    obtain ⟨v, w, hv, hw, hr⟩ := eqRows_sound h i (by simpa using hi)
    exact ⟨v, w, hv, hw, C55_ref_sound_partial v w (ha i v hv) (hb i w hw) hr⟩

/-- A column of numbers and one of strings never hold sub-second times. -/
example (t : NumTy) (xs : List Nat) : PreciseCol (.num t xs) := by
  intro i v h
  simp only [Col.at] at h
  obtain ⟨x, _, h⟩ := out_bind_ok.mp h
  cases h; exact .num

/-- **C55**, a column all of whose cells are comparable equals itself. -/
theorem C55_column_reflexive_partial (a : Col) (n : Nat) (hl : a.len = .ok n)
    (h : ∀ i, i < n → ∃ v, a.at i = .ok v ∧ RefSane v) : a.eq a = .ok true := by
  simp only [Col.eq, hl, obind_ok, ne_eq, not_true_eq_false, or_self, if_false]
  refine eqRows_refl fun i hi => ?_
  obtain ⟨v, hv, hs⟩ := h i (by simpa using hi)
  exact ⟨v, hv, C55_ref_reflexive_partial v hs⟩

example : (Col.num .u16 [7, 8]).len = .ok 2 ∧ (Col.num .u16 [7, 8]).at 1 = .ok (.num .u16 8) ∧ RefSane (.num .u16 8) :=
  ⟨rfl, rfl, .num (by decide) (by simp [NaN])⟩

/-- **C55** fails for columns: no non-empty column of booleans, addresses or UUIDs equals itself. -/
theorem C55_column_violated : (Col.num .bool [1]).eq (Col.num .bool [1]) = .ok false ∧
    (Col.ip .v4 [1, 0, 0, 127]).eq (Col.ip .v4 [1, 0, 0, 127]) = .ok false := by decide

theorem eqCols_sound {as : List NCol} : ∀ {bs : List NCol}, as.length = bs.length → eqCols as bs = .ok true →
    ∀ (j : Nat) c d, as[j]? = some c → bs[j]? = some d → c.data.eq d.data = .ok true := by
  induction as with
  | nil => intro bs _ _ j c d hc; simp at hc
  | cons x as ih =>
    intro bs hl h j c d hc hd
    cases bs with
    | nil => simp at hd
    | cons y bs =>
      simp only [eqCols] at h
      obtain ⟨r, hr, h⟩ := out_bind_ok.mp h
      cases r with
      | false => simp at h
      | true =>
        cases j with
        | zero => simp at hc hd; subst hc; subst hd; exact hr
        | succ j => exact ih (bs := bs) (by simpa using hl) (by simpa using h) j c d (by simpa using hc) (by simpa using hd)

theorem eqCols_refl {as : List NCol} (h : ∀ c ∈ as, c.data.eq c.data = .ok true) : eqCols as as = .ok true := by
  induction as with
  | nil => rfl
  | cons c as ih =>
    simp only [eqCols, h c (by simp), obind_ok, if_true]
    exact ih fun d hd => h d (by simp [hd])

/-- **C55**, blocks that compare equal have equally many columns, and the columns in the same place have the same type, length and
cells. (Names and block info may differ.) -/
theorem C55_block_sound_partial (a b : Block) (ha : ∀ c ∈ a.columns, PreciseCol c.data) (hb : ∀ c ∈ b.columns, PreciseCol c.data)
    (h : a.eq b = .ok true) : a.columns.length = b.columns.length ∧
      ∀ (j : Nat) c d, a.columns[j]? = some c → b.columns[j]? = some d → SameCells c.data d.data := by
  unfold Block.eq at h
  split at h
  · cases h
  · rename_i he
    have e : a.columns.length = b.columns.length := Classical.byContradiction fun hne => he hne
    refine ⟨e, fun j c d hc hd => ?_⟩
    exact C55_column_sound_partial _ _ (ha c (List.mem_of_getElem? hc)) (hb d (List.mem_of_getElem? hd)) (eqCols_sound e h j c d hc hd)

/-- **C55**, a block all of whose cells are comparable equals itself. -/
theorem C55_block_reflexive_partial (a : Block)
    (h : ∀ c ∈ a.columns, ∃ n, c.data.len = .ok n ∧ ∀ i, i < n → ∃ v, c.data.at i = .ok v ∧ RefSane v) : a.eq a = .ok true := by
  simp only [Block.eq, ne_eq, not_true_eq_false, if_false]
  refine eqCols_refl fun c hc => ?_
  obtain ⟨n, hl, hs⟩ := h c hc
  exact C55_column_reflexive_partial _ n hl hs

example : Block.eq ⟨BlockInfo.default, [⟨"a", .num .u8 [1, 2]⟩, ⟨"b", .str [[97], []]⟩]⟩
    ⟨BlockInfo.default, [⟨"a", .num .u8 [1, 2]⟩, ⟨"c", .str [[97], []]⟩]⟩ = .ok true := by decide

/-- **C56**, owned values: equal values feed the hasher the same data. -/
theorem C56_own (v w : Value) (x y : List Feed) (h : ownEq v w = .ok true) (hv : ownHash v = .ok x) (hw : ownHash w = .ok y) :
    x = y := by
  have hs := C55_own_sound v w h
  cases hs <;> simp only [ownHash, reduceCtorEq] at hv hw <;> try (cases hv; cases hw; rfl)
  case num t a b hn =>
    split at hv
    · cases hv
    · rename_i ht
      split at hw
      · cases hw
      · cases hv; cases hw
        cases t <;> simp_all [SameNum]
  case dt64 a p z b q z' hp hq he =>
    cases hv; cases hw
    simp only [ownEq, dt64Eq] at h
    split at h
    · rename_i e
      subst e
      have : a = b := Int.eq_of_mul_eq_mul_right (Int.ne_of_gt (Int.pow_pos (by omega))) he
      rw [this]
    · cases h

example : ownEq (.datetime 5 defaultTz) (.datetime 5 "UTC".toList) = .ok true ∧
    ownHash (.datetime 5 defaultTz) = ownHash (.datetime 5 "UTC".toList) := by decide

/-- **C56**, borrowed values: equal values feed the hasher the same data. -/
theorem C56_ref (v w : Value) (x y : List Feed) (h : refEq v w = .ok true) (hv : refHash v = .ok x) (hw : refHash w = .ok y) :
    x = y := by
  cases v <;> simp only [refHash, reduceCtorEq] at hv
  case num t a =>
    cases w <;> simp only [refHash, reduceCtorEq] at hw
    case num t' b =>
      simp [refEq] at h
      obtain ⟨⟨rfl, _⟩, h⟩ := h
      have hn := numEq_same h
      split at hv
      · cases hv
      · split at hw
        · cases hw
        · cases hv; cases hw
          cases t <;> simp_all [SameNum]
    case str b => simp [refEq] at h
  case str b =>
    cases w <;> simp only [refHash, reduceCtorEq] at hw
    case num t' b => simp [refEq] at h
    case str c => simp [refEq] at h; subst h; cases hv; cases hw; rfl

example : refHash (.num .u32 7) = .ok [.int 4 7] := by decide

/-- **C56**, exactly which values can be hashed: strings and integers, and among owned values also dates and times. -/
theorem C56_hashable (v : Value) :
    (refHash v ≠ .panic ↔ v.sqlType = .string ∨ ∃ t, v.sqlType = .num t ∧ t ≠ .bool ∧ t ≠ .f32 ∧ t ≠ .f64) ∧
    (ownHash v ≠ .panic ↔ (v.sqlType = .string ∨ ∃ t, v.sqlType = .num t ∧ t ≠ .bool ∧ t ≠ .f32 ∧ t ≠ .f64) ∨
      v.sqlType = .date ∨ (∃ s z, v = .datetime s z) ∨ ∃ p z, v.sqlType = .dt64 p z) := by
  cases v <;> simp [refHash, ownHash, Value.sqlType]

/-- **C56** fails: booleans, NULLs and UUIDs, which ClickHouse allows as map keys or dictionary entries, panic when hashed, owned or
borrowed; dates panic when borrowed, so reading a cell of a `Map(Date, …)` column panics. -/
theorem C56_panics_violated (x : Nat) (t : SqlType) (b : Bytes) :
    ownHash (.num .bool x) = .panic ∧ refHash (.num .bool x) = .panic ∧
    ownHash (.null t) = .panic ∧ ownHash (.ip .uuid b) = .panic ∧ refHash (.ip .uuid b) = .panic ∧ refHash (.date x) = .panic ∧
    (Col.map [1] (.date defaultTz [x]) (.num .u8 [1])).at 0 = .panic := by
  refine ⟨rfl, rfl, rfl, rfl, rfl, rfl, rfl⟩

end CH.Props
