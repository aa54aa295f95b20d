import Verif.Lemmas.Column

/-! Pushing values onto columns. -/

namespace CH
open Spec

theorem genuineAll_iff {vs : List Value} : GenuineAll vs ↔ ∀ v ∈ vs, Genuine v := by
  induction vs with
  | nil => simp [GenuineAll]
  | cons v vs ih => simp [GenuineAll, ih]

theorem genuine_default (t : SqlType) : Genuine (Value.default t) := by
  induction t with
  | num t => simp only [Value.default, Genuine]; exact Nat.pow_pos (by decide)
  | lowCard t ih => exact ih
  | simpleAgg f t ih => exact ih
  | _ => simp [Value.default, Genuine, GenuineAll]

/-- What a value reads as after being stored in a column of the given kind (contents of the column are irrelevant). -/
def readBack : Col → Value → Out Value
  | .num t _, v => do
    let x ← v.toNum t
    pure (.num t x)
  | .str _, v => do
    let b ← v.toBytes
    pure (.str b)
  | .date _ _, .date d => .ok (.date d)
  | .ip k _, .ip k' b => if k' = k then .ok (.ip k b) else .panic
  | .fixed n _, v => do
    let b ← v.toBytes
    pure (.str (b.take n ++ List.replicate (n - b.length) 0))
  | .datetime tz _, v => do
    let t ← v.toAppDateTime
    pure (.datetime (asU32 t.1) tz)
  | .chrono _ _, v => do
    let t ← v.toAppDateTime
    pure (.datetime (asU32 t.1) t.2.2)
  | .dt64 p tz _, v => do
    let t ← v.toAppDateTime
    let x ← fromDatetime t.1 t.2.1 p
    pure (.dt64 x p tz)
  | .nullable _ c, .null _ => .ok (.null c.sqlType)
  | .nullable _ c, .some v => do
    let w ← readBack c v
    pure (.some w)
  | .nullable _ c, v => do
    let w ← readBack c v
    pure (.some w)
  | .array _ c, .array _ vs => do
    let ws ← mapOut (readBack c) vs
    pure (.array c.sqlType ws)
  | .map _ k v, .map _ _ ks vs => do
    let ks ← mapOut (readBack k) ks
    let vs ← mapOut (readBack v) vs
    let m ← mapBuild ([], []) ks vs
    pure (.map k.sqlType v.sqlType m.1 m.2)
  | .decimal p s nb _, .decimal d => .ok (.decimal ⟨toSigned nb.width (ofSigned nb.width d.underlying), nb, p, s⟩)
  | .enum w items _, .enum w' _ x =>
    if w' = w then .ok (.enum w items (toSigned w.width (ofSigned w.width x))) else .panic
  | .simpleAgg _ c, v => readBack c v
  | .lowCard _ _ d _, v => readBack d v
  | _, _ => .panic

/-- Columns that can be the dictionary of a low-cardinality column one can push to. -/
def DictCol : Col → Prop
  | .num _ _ | .str _ | .fixed _ _ | .date _ _ | .datetime _ _ => True
  | _ => False

/-- The column has `n` rows and its parts agree with one another. -/
def Sound : Col → Nat → Prop
  | .num t xs, n => xs.length = n ∧ ∀ x ∈ xs, x < 256 ^ t.width
  | .str xs, n => xs.length = n
  | .fixed k buf, n => 0 < k ∧ buf.length = n * k
  | .date _ xs, n => xs.length = n ∧ ∀ x ∈ xs, x < 256 ^ 2
  | .datetime _ xs, n => xs.length = n ∧ ∀ x ∈ xs, x < 256 ^ 4
  | .dt64 _ _ xs, n => xs.length = n
  | .chrono _ xs, n => xs.length = n
  | .ip k buf, n => buf.length = n * k.size
  | .nullable nulls c, n => nulls.length = n ∧ (∀ b ∈ nulls, b = 0 ∨ b = 1) ∧ Sound c n
  | .array offs c, n => offs.length = n ∧ offs.Pairwise (· ≤ ·) ∧ Sound c (lastOff offs)
  | .map offs k v, n => offs.length = n ∧ offs.Pairwise (· ≤ ·) ∧ Sound k (lastOff offs) ∧ Sound v (lastOff offs)
  | .decimal p _ nb xs, n => nb = (if p ≤ 9 then .n32 else .n64) ∧ xs.length = n ∧ ∀ x ∈ xs, x < 256 ^ nb.width
  | .enum w _ xs, n => xs.length = n ∧ ∀ x ∈ xs, x < 256 ^ w.width
  | .simpleAgg _ c, n => Sound c n
  | .lowCard ity index d vmap, n => index.length = n ∧ n ≤ ity.maxLen ∧ DictCol d ∧ ∃ m, Sound d m ∧ m ≤ n + 1 ∧
      (∀ x ∈ index, x < m) ∧
      match vmap with
      | none => True
      | some mp => ∀ p ∈ mp, p.1.valHashable ∧ p.2 < m ∧ d.at p.2 = readBack d p.1
  | _, _ => False

theorem Sound.len {c : Col} {n : Nat} (h : Sound c n) : c.len = .ok n := by
  induction c generalizing n with
  | num t xs => rw [Col.len, h.1]
  | str xs => rw [Col.len, show xs.length = n from h]
  | fixed k buf => rw [Col.len, if_neg (by have := h.1; omega), h.2, Nat.mul_div_cancel _ h.1]
  | date z xs => rw [Col.len, h.1]
  | datetime z xs => rw [Col.len, h.1]
  | dt64 p z xs => rw [Col.len, show xs.length = n from h]
  | chrono z xs => rw [Col.len, show xs.length = n from h]
  | ip k buf => rw [Col.len, show buf.length = n * k.size from h, Nat.mul_div_cancel _ (by cases k <;> decide)]
  | nullable nulls c ih => rw [Col.len, ih h.2.2, obind_ok, h.1, if_pos rfl]; rfl
  | array offs c ih => rw [Col.len, h.1]
  | map offs k v _ _ => rw [Col.len, h.1]
  | decimal p s nb xs => rw [Col.len, h.2.1]
  | enum w items xs => rw [Col.len, h.1]
  | simpleAgg f c ih => exact ih h
  | lowCard ity index d vm ih => rw [Col.len, h.1]
  | _ => exact absurd h (by simp [Sound])

theorem idx_append_left {l : List α} {i : Nat} (h : i < l.length) (t : List α) : idx (l ++ t) i = idx l i := by
  unfold idx; rw [List.getElem?_append_left h]

theorem idx_append_last (l : List α) (a : α) : idx (l ++ [a]) l.length = .ok a := by
  unfold idx; simp

theorem slice_append_left {l : List α} {s e : Nat} (h : e ≤ l.length) (t : List α) : slice (l ++ t) s e = slice l s e := by
  unfold slice
  by_cases hs : s ≤ e
  · rw [if_pos ⟨hs, by simp; omega⟩, if_pos ⟨hs, h⟩, List.drop_append_of_le_length (by omega),
      List.take_append_of_le_length (by simp; omega)]
  · rw [if_neg (by omega), if_neg (by omega)]

theorem slice_append_right (l t : List α) {s e : Nat} (hs : s = l.length) (he : e = l.length + t.length) :
    slice (l ++ t) s e = .ok t := by
  subst hs; subst he
  rw [slice_ok (by omega) (by simp)]
  simp

/-- Effect of one push. -/
structure Pushed (c c' : Col) (v : Value) (n : Nat) : Prop where
  sound : Sound c' (n + 1)
  type : c'.sqlType = c.sqlType
  kind : ∀ w, readBack c' w = readBack c w
  old : ∀ i, i < n → c'.at i = c.at i
  new : c'.at n = readBack c v
  fixed : DictCol c → DictCol c'

/-- Effect of pushing a list of values. -/
structure PushedAll (c c' : Col) (vs : List Value) (n : Nat) : Prop where
  sound : Sound c' (n + vs.length)
  type : c'.sqlType = c.sqlType
  kind : ∀ w, readBack c' w = readBack c w
  old : ∀ i, i < n → c'.at i = c.at i
  new : ∀ i (h : i < vs.length), c'.at (n + i) = readBack c vs[i]

theorem pushAll_spec {t : SqlType} 
    (ih : ∀ {c c' : Col} {v : Value} {n : Nat}, c.sqlType = t → Sound c n → Genuine v → pushT t c v = .ok c' → Pushed c c' v n)
    {vs : List Value} : ∀ {c c' : Col} {n : Nat}, c.sqlType = t → Sound c n → GenuineAll vs →
      pushAllWith (pushT t) c vs = .ok c' → PushedAll c c' vs n := by
  induction vs with
  | nil =>
    intro c c' n ht hs hg h
    simp [pushAllWith] at h
    subst h
    exact ⟨hs, rfl, fun _ => rfl, fun _ _ => rfl, fun i h => absurd h (by simp)⟩
  | cons v vs ihv =>
    intro c c' n ht hs hg h
    obtain ⟨c1, h1, h2⟩ := obind_eq_ok h
    have p1 := ih ht hs hg.1 h1
    have p2 := ihv (p1.type.trans ht) p1.sound hg.2 h2
    refine ⟨?_, p2.type.trans p1.type, fun w => (p2.kind w).trans (p1.kind w),
      fun i hi => (p2.old i (by omega)).trans (p1.old i hi), ?_⟩
    · have := p2.sound
      rw [List.length_cons]
      rwa [show n + (vs.length + 1) = n + 1 + vs.length by omega]
    · intro i hi
      cases i with
      | zero => rw [Nat.add_zero, p2.old n (by omega), p1.new]; rfl
      | succ i =>
        have := p2.new i (by simpa using hi)
        rw [show n + (i + 1) = n + 1 + i by omega, this, p1.kind]; rfl

theorem rangeOut_new {f : Nat → Out Value} {g : Value → Out Value} {vs : List Value} {n : Nat}
    (h : ∀ i (hi : i < vs.length), f (n + i) = g vs[i]) : rangeOut f n (n + vs.length) = mapOut g vs := by
  unfold rangeOut
  rw [Nat.add_sub_cancel_left]
  induction vs generalizing n with
  | nil => rfl
  | cons v vs ih =>
    rw [List.length_cons, List.range'_succ, mapOut, mapOut]
    have h0 := h 0 (by simp)
    rw [Nat.add_zero] at h0
    rw [h0, ih]
    · rfl
    · intro i hi
      have := h (i + 1) (by simpa using hi)
      rw [show n + 1 + i = n + (i + 1) by omega, this]; rfl

theorem lastOff_append (offs : List Nat) (x : Nat) : lastOff (offs ++ [x]) = x := by simp [lastOff]

theorem lastOff_eq (offs : List Nat) : elemsBefore offs offs.length = lastOff offs := by simp [elemsBefore, lastOff]

theorem elemsBefore_append {offs : List Nat} {i : Nat} (h : i ≤ offs.length) (t : List Nat) :
    elemsBefore (offs ++ t) i = elemsBefore offs i := by
  unfold elemsBefore; rw [List.take_append_of_le_length h]

theorem le_lastOff {offs : List Nat} (h : offs.Pairwise (· ≤ ·)) {x : Nat} (hx : x ∈ offs) : x ≤ lastOff offs := by
  obtain ⟨i, hi, rfl⟩ := List.getElem_of_mem hx
  rw [← elemsBefore_succ hi, ← lastOff_eq]
  exact elemsBefore_mono h hi

theorem pairwise_push {offs : List Nat} (h : offs.Pairwise (· ≤ ·)) (k : Nat) :
    (offs ++ [lastOff offs + k]).Pairwise (· ≤ ·) := by
  rw [List.pairwise_append]
  refine ⟨h, by simp, ?_⟩
  intro a ha b hb
  have := le_lastOff h ha
  simp at hb
  omega

theorem asU32_lt (v : Int) : asU32 v < 256 ^ 4 := by
  unfold asU32
  have := Int.emod_lt_of_pos v (b := ((2 ^ 32 : Nat) : Int)) (by decide)
  omega

theorem toNum_ok {t : NumTy} {v : Value} {x : Nat} (h : v.toNum t = .ok x) : v = .num t x := by
  cases v with
  | num t' raw =>
    simp only [Value.toNum] at h
    split at h
    · rename_i he; subst he; injection h with h; subst h; rfl
    · simp at h
  | _ => simp [Value.toNum] at h

theorem toBytes_ok {v : Value} {x : Bytes} (h : v.toBytes = .ok x) : v = .str x := by
  cases v with
  | str b => simp only [Value.toBytes] at h; injection h with h; subst h; rfl
  | _ => simp [Value.toBytes] at h

theorem fromDatetime_i64 {s : Int} {n p : Nat} {x : Int} (h : fromDatetime s n p = .ok x) : i64Min ≤ x ∧ x ≤ i64Max := by
  unfold fromDatetime checkI64 at h
  split at h
  · rename_i hr
    rw [obind_ok] at h
    split at h
    · simp only [opure] at h
      injection h with h
      subst h
      generalize s * 1000000000 + (n : Int) = ts at *
      have hd : (1 : Int) ≤ 10 ^ (9 - p) := by
        have : 0 < (10 : Int) ^ (9 - p) := Int.pow_pos (by decide)
        omega
      have h1 := Int.natAbs_tdiv_le_natAbs ts (10 ^ (9 - p))
      unfold i64Min i64Max at *
      have h2 : ts = -(2 ^ 63) ∨ -(2 ^ 63) < ts := by omega
      rcases h2 with h2 | h2
      · have : (ts.tdiv (10 ^ (9 - p))) ≤ 0 := by
          rw [h2, Int.neg_tdiv]
          have := Int.tdiv_nonneg (a := 2 ^ 63) (b := 10 ^ (9 - p)) (by decide) (by omega)
          omega
        omega
      · omega
    · simp at h
  · simp at h

theorem lcIndexPush_spec {ity ity' : IdxTy} {index index' : List Nat} {v : Nat} (hn : index.length ≤ ity.maxLen)
    (hv : v ≤ index.length + 1) (h : lcIndexPush ity index v = .ok (ity', index')) :
    index' = index ++ [v] ∧ index.length + 1 ≤ ity'.maxLen := by
  unfold lcIndexPush at h
  have key : ∀ i : IdxTy, index.length + 1 ≤ i.maxLen → v % 2 ^ (8 * i.width) = v := by
    intro i hi
    apply Nat.mod_eq_of_lt
    unfold IdxTy.maxLen at hi
    have : 0 < 2 ^ (8 * i.width) := Nat.pow_pos (by decide)
    omega
  split at h
  · obtain ⟨i2, h1, h⟩ := obind_eq_ok h
    simp only [opure] at h
    injection h with h
    injection h with h2 h3
    subst h2
    have hw : index.length + 1 ≤ i2.maxLen := by
      cases ity <;> simp [IdxTy.wider] at h1 <;> subst h1 <;> simp [IdxTy.maxLen, IdxTy.width] at * <;> omega
    rw [key i2 hw] at h3
    exact ⟨h3.symm, hw⟩
  · rename_i hle
    simp only [obind_ok, opure] at h
    injection h with h
    injection h with h2 h3
    subst h2
    rw [key ity (by omega)] at h3
    exact ⟨h3.symm, by omega⟩

theorem valKeyEq_readBack {d : Col} {a b : Value} (hd : DictCol d) (h : Value.valKeyEq a b = true) :
    readBack d a = readBack d b ∧ b.valHashable = a.valHashable := by
  cases a <;> cases b <;> simp [Value.valKeyEq] at h
  · obtain ⟨rfl, rfl⟩ := h; exact ⟨rfl, rfl⟩
  · subst h; exact ⟨rfl, rfl⟩
  · subst h; exact ⟨rfl, rfl⟩
  · subst h
    cases d <;> first | exact ⟨rfl, rfl⟩ | exact absurd hd (by simp [DictCol])
  · obtain ⟨rfl, rfl⟩ := h
    cases d with
    | datetime z xs =>
      refine ⟨?_, rfl⟩
      simp only [readBack, Value.toAppDateTime]
      cases toDatetime _ _ <;> rfl
    | _ => first | exact ⟨rfl, rfl⟩ | exact absurd hd (by simp [DictCol])

theorem readBack_at {d : Col} {n i : Nat} {w : Value} (hd : DictCol d) (hs : Sound d n) (h : d.at i = .ok w) :
    i < n ∧ readBack d w = .ok w := by
  have hix : ∀ {α} {l : List α} {x : α}, idx l i = .ok x → ∃ hi : i < l.length, x = l[i] := by
    intro α l x hx
    unfold idx at hx
    split at hx
    · rename_i a ha
      obtain ⟨hi, ha⟩ := List.getElem?_eq_some_iff.mp ha
      injection hx with hx
      exact ⟨hi, by rw [← hx, ha]⟩
    · simp at hx
  cases d with
  | num t xs =>
    obtain ⟨x, hx, h⟩ := obind_eq_ok h
    obtain ⟨hi, rfl⟩ := hix hx
    simp at h; subst h
    exact ⟨by rw [← hs.1]; exact hi, by simp [readBack, Value.toNum]⟩
  | str xs =>
    obtain ⟨x, hx, h⟩ := obind_eq_ok h
    obtain ⟨hi, rfl⟩ := hix hx
    simp at h; subst h
    exact ⟨by rw [← show xs.length = n from hs]; exact hi, by simp [readBack, Value.toBytes]⟩
  | date z xs =>
    obtain ⟨x, hx, h⟩ := obind_eq_ok h
    obtain ⟨hi, rfl⟩ := hix hx
    simp at h; subst h
    exact ⟨by rw [← hs.1]; exact hi, by simp [readBack]⟩
  | datetime z xs =>
    obtain ⟨x, hx, h⟩ := obind_eq_ok h
    obtain ⟨hi, rfl⟩ := hix hx
    simp at h; subst h
    refine ⟨by rw [← hs.1]; exact hi, ?_⟩
    have hlt := hs.2 xs[i] (List.getElem_mem hi)
    simp only [readBack, Value.toAppDateTime, obind_ok, opure, asU32]
    congr 2
    omega
  | fixed k buf =>
    obtain ⟨x, hx, h⟩ := obind_eq_ok h
    simp at h; subst h
    unfold slice at hx
    split at hx
    · rename_i hb
      injection hx with hx
      have hl : x.length = k := by rw [← hx, length_sub hb.2]; omega
      refine ⟨?_, ?_⟩
      · have h1 := hs.2
        have h2 := hb.2
        rw [h1, ← Nat.succ_mul] at h2
        exact Nat.lt_of_succ_le (Nat.le_of_mul_le_mul_right h2 hs.1)
      · simp only [readBack, Value.toBytes, obind_ok, opure]
        rw [List.take_of_length_le (by omega), hl, Nat.sub_self]; simp
    · simp at hx
  | _ => exact absurd hd (by simp [DictCol])

theorem vmapCollect_spec {ps m m' : List (Value × Nat)} (h : vmapCollect m ps = .ok m') :
    ∀ q ∈ m', (q ∈ m ∨ q ∈ ps) ∧ (q ∉ m → q.1.valHashable = true) := by
  induction ps generalizing m with
  | nil => simp [vmapCollect] at h; subst h; intro q hq; exact ⟨.inl hq, fun hn => absurd hq hn⟩
  | cons p ps ih =>
    obtain ⟨v, i⟩ := p
    rw [vmapCollect] at h
    split at h
    · rename_i hh
      intro q hq
      obtain ⟨h1, h2⟩ := ih h q hq
      refine ⟨?_, ?_⟩
      · rcases h1 with h1 | h1
        · rcases List.mem_cons.mp h1 with h1 | h1
          · right; simp [h1]
          · left; exact h1
        · right; simp [h1]
      · intro hn
        by_cases hq' : q = (v, i)
        · rw [hq']; exact hh
        · exact h2 (by simp [hn, hq'])
    · simp at h

theorem mapOut_mem {f : α → Out β} {l : List α} {bs : List β} (h : mapOut f l = .ok bs) :
    ∀ b ∈ bs, ∃ a ∈ l, f a = .ok b := by
  induction l generalizing bs with
  | nil => simp [mapOut] at h; subst h; simp
  | cons a l ih =>
    obtain ⟨b, h1, h⟩ := obind_eq_ok h
    obtain ⟨bs', h2, h⟩ := obind_eq_ok h
    simp at h; subst h
    intro b' hb'
    rcases List.mem_cons.mp hb' with hb' | hb'
    · subst hb'; exact ⟨a, by simp, h1⟩
    · obtain ⟨a', ha', h3⟩ := ih h2 b' hb'; exact ⟨a', by simp [ha'], h3⟩

theorem lcValueMap_spec {index : List Nat} {d : Col} {n : Nat} {mp : List (Value × Nat)} (hd : DictCol d) (hs : Sound d n)
    (h : lcValueMap index d = .ok mp) :
    ∀ p ∈ mp, p.1.valHashable ∧ p.2 < n ∧ d.at p.2 = readBack d p.1 := by
  obtain ⟨ps, h1, h2⟩ := obind_eq_ok h
  intro p hp
  obtain ⟨h3, h4⟩ := vmapCollect_spec h2 p hp
  rcases h3 with h3 | h3
  · simp at h3
  · obtain ⟨i, _, h5⟩ := mapOut_mem h1 p h3
    obtain ⟨w, h6, h7⟩ := obind_eq_ok h5
    simp at h7; subst h7
    obtain ⟨h8, h9⟩ := readBack_at hd hs h6
    exact ⟨h4 (by simp), h8, by rw [h6, h9]⟩

theorem mem_snoc {P : α → Prop} {l : List α} {a : α} (h : ∀ x ∈ l, P x) (ha : P a) : ∀ x ∈ l ++ [a], P x := by
  intro x hx
  rcases List.mem_append.mp hx with hx | hx
  · exact h x hx
  · simp at hx; subst hx; exact ha

theorem length_snoc {l : List α} {a : α} {n : Nat} (h : l.length = n) : (l ++ [a]).length = n + 1 := by simp [h]

theorem resizeB_append (buf b : Bytes) (k : Nat) (hb : b.length ≤ k) :
    resizeB (buf ++ b) (buf.length + k) = buf ++ (b ++ List.replicate (k - b.length) 0) := by
  unfold resizeB
  rw [List.take_of_length_le (by simp; omega), List.length_append, show buf.length + k - (buf.length + b.length) = k - b.length by omega,
    List.append_assoc]

theorem toSigned8_fromDatetime {s : Int} {n p : Nat} {x : Int} (h : fromDatetime s n p = .ok x) : toSigned 8 (ofSigned 8 x) = x := by
  have := fromDatetime_i64 h
  apply toSigned_ofSigned (by decide)
  · simp [i64Min, i64Max] at *; omega
  · simp [i64Min, i64Max] at *; omega

/-- One push appends one row, keeps the old ones and the shape. -/
theorem push_spec_aux (k : Nat) : ∀ (t : SqlType), sizeOf t < k → ∀ {c c' : Col} {v : Value} {n : Nat}, c.sqlType = t →
    Sound c n → Genuine v → pushT t c v = .ok c' → Pushed c c' v n := by
  induction k with
  | zero => intro t hk; omega
  | succ k push_spec =>
  intro t hk c c' v n ht hs hg h
  cases c with
  | num ty xs =>
    simp only [pushT] at h
    obtain ⟨x, hx, h'⟩ := obind_eq_ok h
    obtain rfl := toNum_ok hx
    simp at h'; subst h'
    exact ⟨⟨length_snoc hs.1, mem_snoc hs.2 hg⟩, rfl, fun w => by cases w <;> rfl,
      fun i hi => by rw [Col.at, Col.at, idx_append_left (by rw [hs.1]; exact hi)],
      by rw [Col.at, ← hs.1, idx_append_last]; simp [readBack, Value.toNum], id⟩
  | str xs =>
    simp only [pushT] at h
    obtain ⟨x, hx, h'⟩ := obind_eq_ok h
    obtain rfl := toBytes_ok hx
    simp at h'; subst h'
    have hs' : xs.length = n := hs
    exact ⟨length_snoc hs', rfl, fun w => by cases w <;> rfl,
      fun i hi => by rw [Col.at, Col.at, idx_append_left (by omega)],
      by rw [Col.at, ← hs', idx_append_last]; simp [readBack, Value.toBytes], id⟩
  | fixed k buf =>
    simp only [pushT] at h
    obtain ⟨x, hx, h'⟩ := obind_eq_ok h
    obtain rfl := toBytes_ok hx
    simp at h'; subst h'
    obtain ⟨hk, hb⟩ := hs
    rw [resizeB_append _ _ _ (by simp; omega)]
    have hl : (x.take k ++ List.replicate (k - (x.take k).length) (0 : UInt8)).length = k := by simp; omega
    refine ⟨⟨hk, by rw [List.length_append, hl, hb, Nat.succ_mul]⟩, rfl, fun w => by cases w <;> rfl, fun i hi => ?_, ?_, id⟩
    · have : (i + 1) * k ≤ n * k := Nat.mul_le_mul_right k hi
      rw [Nat.succ_mul] at this
      rw [Col.at, Col.at, slice_append_left (by omega)]
    · rw [Col.at, slice_append_right _ _ (by omega) (by omega)]
      simp only [readBack, Value.toBytes, obind_ok, opure]
      congr 3
      rw [List.length_take]
      congr 1
      omega
  | date z xs =>
    cases v with
    | date d =>
      simp [pushT] at h; subst h
      exact ⟨⟨length_snoc hs.1, mem_snoc hs.2 hg⟩, rfl, fun w => by cases w <;> rfl,
        fun i hi => by rw [Col.at, Col.at, idx_append_left (by rw [hs.1]; exact hi)],
        by rw [Col.at, ← hs.1, idx_append_last]; simp [readBack], id⟩
    | _ => simp [pushT] at h
  | datetime z xs =>
    simp only [pushT] at h
    obtain ⟨x, hx, h⟩ := obind_eq_ok h
    simp at h; subst h
    exact ⟨⟨length_snoc hs.1, mem_snoc hs.2 (asU32_lt _)⟩, rfl, fun w => by cases w <;> rfl,
        fun i hi => by rw [Col.at, Col.at, idx_append_left (by rw [hs.1]; exact hi)],
        by rw [Col.at, ← hs.1, idx_append_last]; simp [readBack, hx], id⟩
  | dt64 p z xs =>
    simp only [pushT] at h
    obtain ⟨x, hx, h⟩ := obind_eq_ok h
    obtain ⟨y, hy, h⟩ := obind_eq_ok h
    simp at h; subst h
    have hs' : xs.length = n := hs
    exact ⟨length_snoc hs', rfl, fun w => by cases w <;> rfl,
        fun i hi => by rw [Col.at, Col.at, idx_append_left (by omega)],
        by rw [Col.at, ← hs', idx_append_last]; simp [readBack, hx, hy, toSigned8_fromDatetime hy], id⟩
  | chrono z xs =>
    simp only [pushT] at h
    obtain ⟨x, hx, h⟩ := obind_eq_ok h
    simp at h; subst h
    have hs' : xs.length = n := hs
    exact ⟨length_snoc hs', rfl, fun w => by cases w <;> rfl,
        fun i hi => by rw [Col.at, Col.at, idx_append_left (by omega)],
        by rw [Col.at, ← hs', idx_append_last]; simp [readBack, hx], id⟩
  | ip k buf =>
    cases v with
    | ip k' b =>
      simp only [pushT] at h
      split at h
      · rename_i hk
        subst hk
        simp at h; subst h
        have hb : buf.length = n * k'.size := hs
        have hg' : b.length = k'.size := hg
        refine ⟨by show (buf ++ b).length = _; rw [List.length_append, hb, hg', Nat.succ_mul], rfl, fun w => by cases w <;> rfl, fun i hi => ?_, ?_, id⟩
        · rw [Col.at, Col.at, slice_append_left (by rw [hb]; exact Nat.mul_le_mul_right _ hi)]
        · rw [Col.at, slice_append_right _ _ (by omega) (by rw [hb, hg', Nat.succ_mul])]
          simp [readBack]
      · simp at h
    | _ => simp [pushT] at h
  | nullable nulls c =>
    simp only [Col.sqlType] at ht
    subst ht
    obtain ⟨h1, h2, h3⟩ := hs
    have main : ∀ {c1 : Col} {b : UInt8} {w : Value} , Pushed c c1 w n → (b = 0 ∨ b = 1) →
        (readBack (.nullable nulls c) v = if b = 1 then .ok (.null c.sqlType) else readBack c w >>= fun x => pure (.some x)) →
        Pushed (.nullable nulls c) (.nullable (nulls ++ [b]) c1) v n := by
      intro c1 b w p hb hr
      refine ⟨⟨length_snoc h1, mem_snoc h2 hb, p.sound⟩, by rw [Col.sqlType, Col.sqlType, p.type], ?_, ?_, ?_, fun x => x⟩
      · intro u; cases u <;> simp [readBack, p.kind, p.type]
      · intro i hi
        rw [Col.at, Col.at, idx_append_left (by omega), p.type, p.old i hi]
      · rw [Col.at, ← h1, idx_append_last, obind_ok, hr, p.type, h1, p.new]
        rfl
    cases v with
    | null tn =>
      simp only [pushT] at h
      obtain ⟨c1, hc, h⟩ := obind_eq_ok h
      simp at h; subst h
      exact main (push_spec c.sqlType (by simp at hk; omega) rfl h3 (genuine_default tn) hc) (.inr rfl) rfl
    | some w =>
      simp only [pushT] at h
      obtain ⟨c1, hc, h⟩ := obind_eq_ok h
      simp at h; subst h
      exact main (push_spec c.sqlType (by simp at hk; omega) (v := w) rfl h3 hg hc) (.inl rfl) rfl
    | _ =>
      simp only [pushT] at h
      obtain ⟨c1, hc, h⟩ := obind_eq_ok h
      simp at h; subst h
      exact main (push_spec c.sqlType (by simp at hk; omega) rfl h3 hg hc) (.inl rfl) rfl
  | array offs c =>
    simp only [Col.sqlType] at ht
    subst ht
    obtain ⟨h1, h2, h3⟩ := hs
    cases v with
    | array tv vs =>
      simp only [pushT] at h
      obtain ⟨c1, hc, h⟩ := obind_eq_ok h
      simp at h; subst h
      have p := pushAll_spec (t := c.sqlType) (fun a b c d => push_spec _ (by simp at hk; omega) a b c d) rfl h3 hg hc
      refine ⟨⟨length_snoc h1, pairwise_push h2 _, by rw [lastOff_append]; exact p.sound⟩,
        by rw [Col.sqlType, Col.sqlType, p.type], ?_, ?_, ?_, fun x => x⟩
      · intro u; cases u <;> simp [readBack, p.type, funext p.kind]
      · intro i hi
        rw [at_array, at_array, rowStart_eq (by simp; omega), rowStart_eq (by omega), idx_append_left (by omega),
          elemsBefore_append (by omega), p.type, idx_ok (by omega)]
        simp only [obind_ok]
        rw [rangeOut_congr (g := fun j => c.at j)]
        intro j _ hj
        have := le_lastOff h2 (List.getElem_mem (l := offs) (n := i) (by omega))
        exact p.old j (by omega)
      · subst h1
        rw [at_array, rowStart_eq (by simp), elemsBefore_append (Nat.le_refl _), lastOff_eq, idx_append_last, p.type]
        simp only [obind_ok]
        rw [if_neg (by omega), rangeOut_new p.new]
        rfl
    | _ => simp [pushT] at h
  | map offs k w =>
    simp only [Col.sqlType] at ht
    subst ht
    rw [SqlType.map.sizeOf_spec] at hk
    obtain ⟨h1, h2, h3, h4⟩ := hs
    cases v with
    | map kt vt ks vs =>
      simp only [pushT] at h
      obtain ⟨k1, hk, h⟩ := obind_eq_ok h
      obtain ⟨w1, hw, h⟩ := obind_eq_ok h
      simp at h; subst h
      obtain ⟨g1, g2, g3⟩ := hg
      have p := pushAll_spec (t := k.sqlType) (fun a b c d => push_spec _ (by omega) a b c d) rfl h3 g2 hk
      have q := pushAll_spec (t := w.sqlType) (fun a b c d => push_spec _ (by omega) a b c d) rfl h4 g3 hw
      refine ⟨⟨length_snoc h1, pairwise_push h2 _, by rw [lastOff_append]; exact p.sound, by
          rw [lastOff_append, g1]; exact q.sound⟩,
        by rw [Col.sqlType, Col.sqlType, p.type, q.type], ?_, ?_, ?_, fun x => x⟩
      · intro u; cases u <;> simp [readBack, p.type, q.type, funext p.kind, funext q.kind]
      · intro i hi
        rw [at_map, at_map, rowStart_eq (by simp; omega), rowStart_eq (by omega), idx_append_left (by omega),
          elemsBefore_append (by omega), p.type, q.type, idx_ok (by omega)]
        simp only [obind_ok]
        have := le_lastOff h2 (List.getElem_mem (l := offs) (n := i) (by omega))
        rw [rangeOut_congr (g := fun j => k.at j), rangeOut_congr (f := fun j => w1.at j) (g := fun j => w.at j)]
        · intro j _ hj
          exact q.old j (by omega)
        · intro j _ hj
          exact p.old j (by omega)
      · subst h1
        rw [at_map, rowStart_eq (by simp), elemsBefore_append (Nat.le_refl _), lastOff_eq, idx_append_last, p.type, q.type]
        simp only [obind_ok]
        rw [if_neg (by omega), rangeOut_new p.new, g1, rangeOut_new q.new]
        rfl
    | _ => simp [pushT] at h
  | decimal p s nb xs =>
    cases v with
    | decimal d =>
      simp [pushT] at h; subst h
      exact ⟨⟨hs.1, length_snoc hs.2.1, mem_snoc hs.2.2 (ofSigned_lt _ _)⟩, rfl, fun w => by cases w <;> rfl,
        fun i hi => by rw [Col.at, Col.at, idx_append_left (by rw [hs.2.1]; exact hi)],
        by rw [Col.at, ← hs.2.1, idx_append_last]; rfl, id⟩
    | _ => simp [pushT] at h
  | enum w items xs =>
    cases v with
    | enum w' its x =>
      simp only [pushT] at h
      split at h
      · rename_i hw
        subst hw
        simp at h; subst h
        exact ⟨⟨length_snoc hs.1, mem_snoc hs.2 (ofSigned_lt _ _)⟩, rfl, fun w => by cases w <;> rfl,
          fun i hi => by rw [Col.at, Col.at, idx_append_left (by rw [hs.1]; exact hi)],
          by rw [Col.at, ← hs.1, idx_append_last]; simp [readBack], id⟩
      · simp at h
    | _ => simp [pushT] at h
  | simpleAgg f c =>
    simp only [Col.sqlType] at ht
    subst ht
    simp only [pushT] at h
    obtain ⟨c1, hc, h⟩ := obind_eq_ok h
    simp at h; subst h
    have p := push_spec c.sqlType (by simp at hk; omega) rfl hs hg hc
    exact ⟨p.sound, by rw [Col.sqlType, Col.sqlType, p.type], p.kind, p.old, p.new, fun x => x⟩
  | lowCard ity index d vmap =>
    simp only [Col.sqlType] at ht
    subst ht
    obtain ⟨h1, h2, hd, m, h3, h4, h5, h6⟩ := hs
    have finish : ∀ mp : List (Value × Nat), (∀ p ∈ mp, p.1.valHashable ∧ p.2 < m ∧ d.at p.2 = readBack d p.1) →
        (vmapGet mp v >>= fun o => match o with
          | some j => lcIndexPush ity index j >>= fun q => pure (.lowCard q.1 q.2 d (some mp))
          | none => d.len >>= fun j => pushT d.sqlType d v >>= fun d' =>
            lcIndexPush ity index j >>= fun q => pure (.lowCard q.1 q.2 d' (some ((v, j) :: mp)))) = .ok c' →
        Pushed (.lowCard ity index d vmap) c' v n := by
      intro mp hmp h
      obtain ⟨o, ho, h⟩ := obind_eq_ok h
      unfold vmapGet at ho
      split at ho
      case isFalse => simp at ho
      rename_i hh
      injection ho with ho
      cases o with
      | some j =>
        obtain ⟨q, hq, h⟩ := obind_eq_ok h
        obtain ⟨ity', index'⟩ := q
        simp only [Option.map_eq_some_iff] at ho
        obtain ⟨⟨v', j'⟩, hf, rfl⟩ := ho
        have hke := List.find?_some hf
        have hmem := hmp _ (List.mem_of_find?_eq_some hf)
        simp only at hke hmem hq
        obtain ⟨rfl, hl⟩ := lcIndexPush_spec (by omega) (by omega) hq
        simp only [opure] at h
        injection h with h
        subst h
        refine ⟨⟨length_snoc h1, by omega, hd, m, h3, by omega, mem_snoc h5 hmem.2.1, hmp⟩, rfl, fun _ => rfl, ?_, ?_, id⟩
        · intro i hi
          rw [Col.at, Col.at, idx_append_left (by omega)]
        · subst h1
          rw [Col.at, idx_append_last, obind_ok, hmem.2.2, (valKeyEq_readBack hd hke).1]
          rfl
      | none =>
        simp only at h
        rw [h3.len, obind_ok] at h
        obtain ⟨d', hd', h⟩ := obind_eq_ok h
        obtain ⟨q, hq, h⟩ := obind_eq_ok h
        obtain ⟨ity', index'⟩ := q
        obtain ⟨rfl, hl⟩ := lcIndexPush_spec (by omega) (by omega) hq
        simp only [opure] at h
        injection h with h
        subst h
        have p := push_spec d.sqlType (by simp at hk; omega) rfl h3 hg hd'
        refine ⟨⟨length_snoc h1, by omega, p.fixed hd, m + 1, p.sound, by omega,
          mem_snoc (fun x hx => Nat.lt_succ_of_lt (h5 x hx)) (Nat.lt_succ_self m), ?_⟩,
          by rw [Col.sqlType, Col.sqlType, p.type], p.kind, ?_, ?_, id⟩
        · intro q hq
          rcases List.mem_cons.mp hq with hq | hq
          · subst hq; exact ⟨hh, Nat.lt_succ_self m, by rw [p.new, p.kind]⟩
          · have := hmp q hq
            exact ⟨this.1, by omega, by rw [p.old _ this.2.1, p.kind, this.2.2]⟩
        · intro i hi
          rw [Col.at, Col.at, idx_append_left (by omega), idx_ok (by omega), obind_ok, obind_ok,
            p.old _ (h5 _ (List.getElem_mem _))]
        · subst h1
          rw [Col.at, idx_append_last, obind_ok, p.new]
          rfl
    simp only [pushT] at h
    cases vmap with
    | some mp => exact finish mp h6 h
    | none =>
      obtain ⟨mp, hmp, h⟩ := obind_eq_ok h
      exact finish mp (lcValueMap_spec hd h3 hmp) h
  | _ => exact absurd hs (by simp [Sound])

theorem push_spec {c c' : Col} {v : Value} {n : Nat} (hs : Sound c n) (hg : Genuine v) (h : c.push v = .ok c') :
    Pushed c c' v n := push_spec_aux _ c.sqlType (Nat.lt_succ_self _) rfl hs hg h

/-- Pushing a list of values one after another. -/
def pushList : Col → List Value → Out Col := pushAllWith Col.push

theorem pushList_spec {c c' : Col} {vs : List Value} {n : Nat} (hs : Sound c n) (hg : ∀ v ∈ vs, Genuine v)
    (h : pushList c vs = .ok c') : PushedAll c c' vs n := by
  have key : ∀ {vs : List Value} {d d' : Col}, d.sqlType = c.sqlType → ∀ {m}, Sound d m → (∀ v ∈ vs, Genuine v) →
      pushList d vs = .ok d' → pushAllWith (pushT c.sqlType) d vs = .ok d' := by
    intro vs
    induction vs with
    | nil => intro d d' _ m _ _ h; exact h
    | cons v vs ih =>
      intro d d' ht m hs hg h
      obtain ⟨d1, h1, h2⟩ := obind_eq_ok h
      have p := push_spec hs (hg v (by simp)) h1
      rw [pushAllWith, ← ht]
      rw [Col.push] at h1
      rw [h1, obind_ok, ht]
      exact ih (p.type.trans ht) p.sound (fun v hv => hg v (by simp [hv])) h2
  exact pushAll_spec (fun a b c d => push_spec_aux _ _ (Nat.lt_succ_self _) a b c d) rfl hs (genuineAll_iff.mpr hg)
    (key rfl hs hg h)

end CH
