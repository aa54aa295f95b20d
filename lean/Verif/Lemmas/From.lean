import Verif.Spec.From
import Verif.Lemmas.Fits
import Verif.Lemmas.Values
import Verif.Lemmas.Cast
import Verif.Lemmas.Iter
import Verif.Props.FromSql

namespace CH
open Spec

theorem getDays_of {d : Int} (h : 0 ≤ d ∧ d < 65536) : (getDays d : Int) = d ∧ getDays d < 65536 := by
  unfold getDays
  omega

theorem asU32_range {s : Int} (h : 0 ≤ s ∧ s < 2 ^ 32) : (asU32 s : Int) = s ∧ asU32 s < 2 ^ 32 := by
  unfold asU32
  omega

theorem encodeIp_length {k : IpKind} {o : Bytes} (h : o.length = k.size) : (encodeIp k o).length = k.size := by
  cases k <;> simp [encodeIp, IpKind.size] at * <;> omega

theorem ip_back {k : IpKind} {o : Bytes} (h : o.length = k.size) : ipOctets k (encodeIp k o) = o := by
  cases k with
  | v4 => simp [ipOctets, encodeIp]
  | v6 => rfl
  | uuid =>
    have h : o.length = 16 := h
    simp only [ipOctets, encodeIp]
    have : (List.take 8 o).reverse.length = 8 := by simp; omega
    rw [List.take_left' this, List.drop_left' this]
    simp

/-- What a cell holds for an element. -/
def cellOf : (b : Base) → List b.El → b.El → Value
  | .decimal, ds, d => .decimal ⟨d.underlying, .n64, commonPrecision ds, d.scale⟩
  | b, _, x => valueOf b x

theorem cell_back {b : Base} {xs : List b.El} {x : b.El} (h : Stored b x) :
    ∃ r, fromSql (reads b) (cellOf b xs x) = .ok r ∧ Back b x r := by
  cases b with
  | num t => exact ⟨_, by simp only [reads, cellOf, valueOf, fromSql, if_pos], rfl⟩
  | text =>
    refine ⟨.text x, ?_, rfl⟩
    simp only [reads, cellOf, valueOf, fromSql, Value.asStr, strOfBytes_strBytes]
  | bytes => exact ⟨_, rfl, rfl⟩
  | ip k =>
    refine ⟨.ip x, ?_, rfl⟩
    simp only [reads, cellOf, valueOf, fromSql, if_pos, ip_back h]
  | date =>
    have := getDays_of h
    exact ⟨_, rfl, _, rfl, this.1⟩
  | time =>
    obtain ⟨s, n, tz⟩ := x
    obtain ⟨h1, h2, h3⟩ := h
    simp only at h1 h2 h3
    refine ⟨_, rfl, ?_⟩
    have := asU32_range ⟨h1, h2⟩
    simp [Back, this.1, h3]
  | decimal => exact ⟨_, rfl, _, rfl, rfl, rfl⟩
  | enum w => exact ⟨_, by simp only [reads, cellOf, valueOf, fromSql, if_pos], rfl⟩

theorem commonScale_some {s : Nat} : ∀ {ds : List Decimal}, (∀ d ∈ ds, d.scale = s) → commonScale (some s) ds = .ok (some s) := by
  intro ds
  induction ds with
  | nil => intro _; rfl
  | cons d ds ih =>
    intro h
    rw [commonScale, if_neg (by simp [h d (by simp)])]
    exact ih fun e he => h e (by simp [he])

theorem commonScale_ok {ds : List Decimal} (h : ∀ d ∈ ds, ∀ e ∈ ds, d.scale = e.scale) :
    ∃ s, commonScale none ds = .ok s ∧ ∀ d ∈ ds, d.scale = orFour s := by
  cases ds with
  | nil => exact ⟨none, rfl, by simp⟩
  | cons d ds =>
    refine ⟨some d.scale, ?_, fun e he => h e he d (by simp)⟩
    rw [commonScale]
    exact commonScale_some fun e he => h e (by simp [he]) d (by simp)

theorem signed_back {w : Nat} {v : Int} (hw : 0 < w) (h : -(2 : Int) ^ (8 * w - 1) ≤ v ∧ v < 2 ^ (8 * w - 1)) :
    toSigned w (ofSigned w v) = v :=
  toSigned_ofSigned hw (by have := h.1; push_cast; exact this) (by have := h.2; push_cast; exact this)

theorem size_eq (k : IpKind) (i : Nat) : (i + 1) * k.size = i * k.size + k.size := Nat.succ_mul i k.size

/-- Columns of elements. -/
theorem colOf_ok {b : Base} {xs : List b.El} (h : ∀ x ∈ xs, Stored b x) (hs : SameScale b xs) :
    ∃ c, colOf b xs = .ok c ∧ c.len = .ok xs.length ∧ ∀ i (hi : i < xs.length), c.at i = .ok (cellOf b xs xs[i]) := by
  cases b with
  | num t => exact ⟨_, rfl, rfl, fun i hi => by rw [Col.at, idx_ok hi]; rfl⟩
  | text => exact ⟨_, rfl, by simp [Col.len], fun i hi => by rw [Col.at, idx_ok (by simpa using hi)]; simp [cellOf, valueOf]⟩
  | bytes => exact ⟨_, rfl, rfl, fun i hi => by rw [Col.at, idx_ok hi]; rfl⟩
  | ip k =>
    have hl : ∀ w ∈ xs.map (encodeIp k), w.length = k.size := by
      intro w hw
      obtain ⟨o, ho, rfl⟩ := List.mem_map.mp hw
      exact encodeIp_length (h o ho)
    refine ⟨_, rfl, ?_, fun i hi => ?_⟩
    · rw [Col.len, flatten_length hl, Nat.mul_div_cancel _ (size_pos k), List.length_map]
    · rw [Col.at, size_eq, flatten_slice hl (by simpa using hi)]
      simp [cellOf, valueOf]
  | date => exact ⟨_, rfl, by simp [Col.len], fun i hi => by rw [Col.at, idx_ok (by simpa using hi)]; simp [cellOf, valueOf]⟩
  | time => exact ⟨_, rfl, rfl, fun i hi => by rw [Col.at, idx_ok hi]; rfl⟩
  | decimal =>
    obtain ⟨s, h1, h2⟩ := commonScale_ok hs
    refine ⟨_, by rw [colOf, h1]; rfl, by simp [Col.len], fun i hi => ?_⟩
    rw [Col.at, idx_ok (by simpa using hi)]
    have hm := List.getElem_mem hi
    simp [cellOf, NoBits.width, signed_back (w := 8) (by omega) (h _ hm), h2 _ hm]
  | enum w =>
    refine ⟨_, rfl, by simp [Col.len], fun i hi => ?_⟩
    rw [Col.at, idx_ok (by simpa using hi)]
    have hm := List.getElem_mem hi
    have hw : 0 < w.width := by cases w <;> decide
    simp [cellOf, valueOf, signed_back hw (h _ hm)]

theorem fits_value {b : Base} {x : b.El} (h : Stored b x) (hd : b ≠ .decimal) : Fits (typeOf b) (valueOf b x) := by
  cases b with
  | num t => exact ⟨rfl, h⟩
  | text => trivial
  | bytes => trivial
  | ip k => exact ⟨rfl, encodeIp_length h⟩
  | date => exact (getDays_of h).2
  | time => exact (asU32_range ⟨h.1, h.2.1⟩).2
  | decimal => exact absurd rfl hd
  | enum w => exact ⟨rfl, rfl, h⟩

/-- Optional elements pushed one by one. -/
theorem optPush_ok {b : Base} {xs : List (Option b.El)} (hb : b ≠ .decimal) (h : ∀ x, some x ∈ xs → Stored b x)
    (hp : PlainType (typeOf b)) (he : emptyCol defaultTz (typeOf b) = .ok (noRows b)) :
    ∃ c, pushAllWith Col.push (.nullable [] (noRows b)) (xs.map (optValue b)) = .ok c ∧ c.len = .ok xs.length ∧
      c.sqlType = .nullable (typeOf b) ∧ ∀ i (hi : i < xs.length), c.at i = .ok (optValue b xs[i]) := by
  obtain ⟨c0, c, h0, h1, hty, _, h4, h5⟩ := build_spec defaultTz (t := .nullable (typeOf b)) hp (vs := xs.map (optValue b)) (by
    intro v hv
    obtain ⟨o, ho, rfl⟩ := List.mem_map.mp hv
    cases o with
    | none => rfl
    | some x => exact fits_value (h x ho) hb)
  rw [emptyCol, he] at h0
  injection h0 with h0
  subst h0
  refine ⟨c, h1, by simpa using h4, hty, fun i hi => ?_⟩
  have := h5 i (by simpa using hi)
  simpa using this

/-- The cell of an optional element. -/
def optCell (t : SqlType) (f : α → Value) : Option α → Value
  | none => .null t
  | some x => .some (f x)

/-- Cells of columns made with explicit NULL flags. -/
theorem flagged_at {xs : List (Option α)} {c : Col} {f : α → Value} (hc : c.len = .ok xs.length)
    (ha : ∀ i x, xs[i]? = some (some x) → c.at i = .ok (f x)) :
    (Col.nullable (flagsOf xs) c).len = .ok xs.length ∧ ∀ i (hi : i < xs.length), (Col.nullable (flagsOf xs) c).at i =
      .ok (optCell c.sqlType f xs[i]) := by
  refine ⟨?_, fun i hi => ?_⟩
  · rw [Col.len, hc, obind_ok, if_pos (by simp [flagsOf])]
    rfl
  · rw [Col.at, idx_ok (by simpa [flagsOf] using hi), obind_ok]
    cases ho : xs[i] with
    | none => rw [if_pos (by simp [flagsOf, ho])]; rfl
    | some x =>
      rw [if_neg (by simp [flagsOf, ho]), ha i x (by rw [List.getElem?_eq_getElem hi, ho])]
      rfl

theorem mem_some {xs : List (Option α)} {i : Nat} {x : α} (h : xs[i]? = some (some x)) : some x ∈ xs := List.mem_of_getElem? h

/-- The row read back from a column of optional elements. -/
theorem optOf_ok {b : Base} {xs : List (Option b.El)} (h : ∀ x, some x ∈ xs → Stored b x) (hs : SameScale b (xs.filterMap id)) :
    ∃ c, optOf b xs = .ok c ∧ c.len = .ok xs.length ∧ ∀ i (hi : i < xs.length), ∃ t,
      c.at i = .ok (optCell t (cellOf b (xs.filterMap id)) xs[i]) := by
  have push : b ≠ .decimal → PlainType (typeOf b) → emptyCol defaultTz (typeOf b) = .ok (noRows b) →
      (∀ x, cellOf b (xs.filterMap id) x = valueOf b x) → optOf b xs = pushAllWith Col.push (.nullable [] (noRows b)) (xs.map (optValue b)) →
      ∃ c, optOf b xs = .ok c ∧ c.len = .ok xs.length ∧ ∀ i (hi : i < xs.length), ∃ t,
      c.at i = .ok (optCell t (cellOf b (xs.filterMap id)) xs[i]) := by
    intro hb hp he hc ho
    obtain ⟨c, h1, h2, -, h3⟩ := optPush_ok hb h hp he
    refine ⟨c, ho.trans h1, h2, fun i hi => ⟨typeOf b, ?_⟩⟩
    rw [h3 i hi]
    cases xs[i] with
    | none => rfl
    | some x => simp only [hc, optCell]; rfl
  cases b with
  | num t => exact push (by simp) trivial rfl (fun _ => rfl) rfl
  | text => exact push (by simp) trivial rfl (fun _ => rfl) rfl
  | bytes => exact push (by simp) trivial rfl (fun _ => rfl) rfl
  | date => exact push (by simp) trivial rfl (fun _ => rfl) rfl
  | ip k =>
    have hl : ∀ w ∈ xs.map (encodeOptIp k),
        w.length = k.size := by
      intro w hw
      obtain ⟨o, ho, rfl⟩ := List.mem_map.mp hw
      cases o with
      | none => simp [encodeOptIp]
      | some x => exact encodeIp_length (h x ho)
    obtain ⟨g1, g2⟩ := flagged_at (xs := xs) (f := valueOf (.ip k)) (c := .ip k _)
      (by rw [Col.len, flatten_length hl, Nat.mul_div_cancel _ (size_pos k), List.length_map]) (by
        intro i x hx
        obtain ⟨hi, hx⟩ := List.getElem?_eq_some_iff.mp hx
        rw [Col.at, size_eq, flatten_slice hl (by simpa using hi)]
        simp only [List.getElem_map, hx]
        rfl)
    exact ⟨_, rfl, g1, fun i hi => ⟨_, g2 i hi⟩⟩
  | time =>
    obtain ⟨g1, g2⟩ := flagged_at (xs := xs) (f := valueOf .time) (c := .chrono (firstZone xs) (xs.map fun o =>
      match o with
      | none => (0, 0, firstZone xs)
      | some t => t)) (by rw [Col.len, List.length_map]) (by
        intro i x hx
        obtain ⟨hi, hx⟩ := List.getElem?_eq_some_iff.mp hx
        rw [Col.at, idx_ok (by simpa using hi)]
        simp only [List.getElem_map, hx]
        rfl)
    exact ⟨_, rfl, g1, fun i hi => ⟨_, g2 i hi⟩⟩
  | decimal =>
    obtain ⟨s, h1, h2⟩ := commonScale_ok hs
    obtain ⟨g1, g2⟩ := flagged_at (xs := xs) (f := cellOf .decimal (xs.filterMap id)) (c := .decimal
      (commonPrecision (xs.filterMap id)) (orFour s) .n64 (xs.map fun o =>
      match o with
      | none => 0
      | some d => ofSigned 8 d.underlying)) (by rw [Col.len, List.length_map]) (by
        intro i x hx
        have hm := mem_some hx
        obtain ⟨hi, hx⟩ := List.getElem?_eq_some_iff.mp hx
        rw [Col.at, idx_ok (by simpa using hi)]
        simp only [List.getElem_map, hx, obind_ok, NoBits.width, signed_back (w := 8) (by omega) (h _ hm), cellOf,
          h2 x (by simpa using hm)]
        rfl)
    exact ⟨_, by rw [optOf, h1]; rfl, g1, fun i hi => ⟨_, g2 i hi⟩⟩
  | enum w =>
    have hw : 0 < w.width := by cases w <;> decide
    obtain ⟨g1, g2⟩ := flagged_at (xs := xs) (f := valueOf (.enum w)) (c := .enum w [] (xs.map fun o =>
      match o with
      | none => 0
      | some x => ofSigned w.width x)) (by rw [Col.len, List.length_map]) (by
        intro i x hx
        have hm := mem_some hx
        obtain ⟨hi, hx⟩ := List.getElem?_eq_some_iff.mp hx
        rw [Col.at, idx_ok (by simpa using hi)]
        simp only [List.getElem_map, hx, obind_ok, signed_back hw (h _ hm), valueOf]
        rfl)
    exact ⟨_, rfl, g1, fun i hi => ⟨_, g2 i hi⟩⟩

/-- The row read back from a column of vectors. -/
theorem vecOf_ok {b : Base} {T : Target} (hT : vecReads b = some T) {xs : List (List b.El)} (h : ∀ ys ∈ xs, ∀ y ∈ ys, Stored b y) :
    ∃ c, vecOf b xs = .ok c ∧ c.len = .ok xs.length ∧ c.sqlType = .array (typeOf b) ∧
      ∀ i (hi : i < xs.length), c.at i = .ok (.array (typeOf b) (xs[i].map (valueOf b))) := by
  have hb : b ≠ .decimal ∧ PlainType (typeOf b) ∧ emptyCol defaultTz (typeOf b) = .ok (noRows b) := by
    cases b with
    | bytes => cases hT
    | ip k => cases hT
    | decimal => cases hT
    | _ => exact ⟨by simp, trivial, rfl⟩
  obtain ⟨c0, c, h0, h1, hty, _, h4, h5⟩ := build_spec defaultTz (t := .array (typeOf b)) hb.2.1
    (vs := xs.map fun ys => .array (typeOf b) (ys.map (valueOf b))) (by
      intro v hv
      obtain ⟨ys, hy, rfl⟩ := List.mem_map.mp hv
      refine ⟨rfl, fun v hv => ?_⟩
      obtain ⟨y, hy', rfl⟩ := List.mem_map.mp hv
      exact fits_value (h ys hy y hy') hb.1)
  rw [emptyCol, hb.2.2] at h0
  injection h0 with h0
  subst h0
  refine ⟨c, h1, by simpa using h4, hty, fun i hi => ?_⟩
  have := h5 i (by simpa using hi)
  simpa using this

theorem readAll_back {b : Base} {f : Value → Out RustVal} : ∀ {ys : List b.El},
    (∀ y ∈ ys, ∃ r, f (valueOf b y) = .ok r ∧ Back b y r) → ∃ rs, readAll f (ys.map (valueOf b)) = .ok rs ∧ rs.length = ys.length ∧
      ∀ (i : Nat) y r, ys[i]? = some y → rs[i]? = some r → Back b y r := by
  intro ys
  induction ys with
  | nil => intro _; exact ⟨[], rfl, rfl, fun i y r h => by simp at h⟩
  | cons y ys ih =>
    intro h
    obtain ⟨r, h1, h2⟩ := h y (by simp)
    obtain ⟨rs, g1, g2, g3⟩ := ih fun z hz => h z (by simp [hz])
    refine ⟨r :: rs, ?_, by simp [g2], fun i z s hz hs => ?_⟩
    · rw [List.map_cons, readAll, h1, obind_ok, g1]
      rfl
    · cases i with
      | zero =>
        simp only [List.getElem?_cons_zero, Option.some.injEq] at hz hs
        subst hz hs
        exact h2
      | succ i => exact g3 i z s (by simpa using hz) (by simpa using hs)

/-- A cell holding a vector of elements is read back as that vector. -/
theorem vec_back {b : Base} {T : Target} (hT : vecReads b = some T) {ys : List b.El} (h : ∀ y ∈ ys, Stored b y) :
    ∃ rs, fromSql T (.array (typeOf b) (ys.map (valueOf b))) = .ok (.vec rs) ∧ rs.length = ys.length ∧
      ∀ (i : Nat) y r, ys[i]? = some y → rs[i]? = some r → Back b y r := by
  have go : ∀ (f : Value → Out RustVal) (pat : SqlType → Bool), pat (typeOf b) = true →
      (∀ y ∈ ys, ∃ r, f (valueOf b y) = .ok r ∧ Back b y r) →
      ∃ rs, readVec pat f (.array (typeOf b) (ys.map (valueOf b))) = .ok (.vec rs) ∧ rs.length = ys.length ∧
      ∀ (i : Nat) y r, ys[i]? = some y → rs[i]? = some r → Back b y r := by
    intro f pat hp hf
    obtain ⟨rs, g1, g2, g3⟩ := readAll_back hf
    exact ⟨rs, by rw [readVec, if_pos hp, g1]; rfl, g2, g3⟩
  cases b with
  | num t =>
    cases hT
    exact go (Value.intoNum t) (· == .num t) (by simp [typeOf]) fun y _ => ⟨_, by simp only [valueOf, Value.intoNum, if_pos], rfl⟩
  | text =>
    cases hT
    refine go Value.asStr (· == .string) (by simp [typeOf]) fun y _ => ⟨.text y, ?_, rfl⟩
    simp only [valueOf, Value.asStr, strOfBytes_strBytes]
  | date =>
    cases hT
    exact go Value.intoDate (· == .date) (by simp [typeOf]) fun y hy => ⟨_, rfl, _, rfl, (getDays_of (h y hy)).1⟩
  | time =>
    cases hT
    refine go Value.intoTime _ rfl fun y hy => ⟨_, rfl, ?_⟩
    obtain ⟨s, n, tz⟩ := y
    obtain ⟨h1, h2, h3⟩ := h _ hy
    simp only at h1 h2 h3
    have := asU32_range ⟨h1, h2⟩
    simp [Back, this.1, h3]
  | enum w =>
    cases hT
    exact go (Value.intoEnum w) _ (by simp [typeOf]) fun y _ => ⟨_, by simp only [valueOf, Value.intoEnum, if_pos], rfl⟩
  | bytes => cases hT
  | ip k => cases hT
  | decimal => cases hT

theorem keyBase_plain {k : Base} (h : KeyBase k) : k ≠ .decimal ∧ PlainType (typeOf k) ∧ emptyCol defaultTz (typeOf k) = .ok (noRows k) ∧
    (∀ x, (valueOf k x).refHashable = true) ∧ ∀ x y, x ≠ y → Value.keyEq (valueOf k x) (valueOf k y) = false := by
  cases k with
  | text =>
    refine ⟨by simp, trivial, rfl, fun _ => rfl, fun x y hn => ?_⟩
    simp only [valueOf, Value.keyEq, beq_eq_false_iff_ne, ne_eq]
    exact fun e => hn (strBytes_injective e)
  | num t =>
    refine ⟨by simp, trivial, rfl, fun _ => ?_, fun x y hn => ?_⟩
    · simpa [valueOf, Value.refHashable, KeyBase] using h
    · simpa [valueOf, Value.keyEq] using hn
  | _ => exact False.elim h

theorem mapValue_ok {k v : Base} (hk : KeyBase k) {ps : List (k.El × v.El)} (hd : ps.Pairwise fun p q => p.1 ≠ q.1) :
    mapValue k v ps = .ok (.map (typeOf k) (typeOf v) (ps.map fun p => valueOf k p.1) (ps.map fun p => valueOf v p.2)) := by
  have h := keyBase_plain hk
  rw [mapValue, ownBuild_distinct (by simp) (by
    intro x hx
    obtain ⟨p, _, rfl⟩ := List.mem_map.mp hx
    exact h.2.2.2.1 _) (by
    rw [List.nil_append, List.pairwise_map]
    exact hd.imp fun hn => h.2.2.2.2 _ _ hn)]
  rfl

theorem mapOut_of {f : α → Out β} {g : α → β} : ∀ {xs : List α}, (∀ x ∈ xs, f x = .ok (g x)) → mapOut f xs = .ok (xs.map g) := by
  intro xs
  induction xs with
  | nil => intro _; rfl
  | cons x xs ih =>
    intro h
    rw [mapOut, h x (by simp), obind_ok, ih fun y hy => h y (by simp [hy])]
    rfl

/-- The row read back from a column of maps. -/
theorem hashOf_ok {k v : Base} {T : Target} (hk : KeyBase k) (hv : vecReads v = some T) {xs : List (List (k.El × v.El))}
    (h : ∀ ps ∈ xs, ∀ p ∈ ps, Stored k p.1 ∧ Stored v p.2) (hd : ∀ ps ∈ xs, ps.Pairwise fun p q => p.1 ≠ q.1) :
    ∃ c, hashOf k v xs = .ok c ∧ c.len = .ok xs.length ∧ c.sqlType = .map (typeOf k) (typeOf v) ∧ ∀ i (hi : i < xs.length), c.at i =
      .ok (.map (typeOf k) (typeOf v) (xs[i].map fun p => valueOf k p.1) (xs[i].map fun p => valueOf v p.2)) := by
  have hK := keyBase_plain hk
  have hV : v ≠ .decimal ∧ PlainType (typeOf v) ∧ emptyCol defaultTz (typeOf v) = .ok (noRows v) := by
    cases v with
    | bytes => cases hv
    | ip k => cases hv
    | decimal => cases hv
    | _ => exact ⟨by simp, trivial, rfl⟩
  obtain ⟨c0, c, h0, h1, hty, _, h4, h5⟩ := build_spec defaultTz (t := .map (typeOf k) (typeOf v)) ⟨hK.2.1, hV.2.1⟩
    (vs := xs.map fun ps => .map (typeOf k) (typeOf v) (ps.map fun p => valueOf k p.1) (ps.map fun p => valueOf v p.2)) (by
      intro u hu
      obtain ⟨ps, hp, rfl⟩ := List.mem_map.mp hu
      refine ⟨rfl, rfl, by simp, fun x hx => ?_, fun x hx => ?_, fun x hx => ?_, ?_⟩
      · obtain ⟨p, hp', rfl⟩ := List.mem_map.mp hx
        exact fits_value (h ps hp p hp').1 hK.1
      · obtain ⟨p, hp', rfl⟩ := List.mem_map.mp hx
        exact fits_value (h ps hp p hp').2 hV.1
      · obtain ⟨p, _, rfl⟩ := List.mem_map.mp hx
        exact hK.2.2.2.1 _
      · rw [List.pairwise_map]
        exact (hd ps hp).imp fun hn => hK.2.2.2.2 _ _ hn)
  rw [emptyCol, hK.2.2.1, obind_ok, hV.2.2] at h0
  injection h0 with h0
  subst h0
  refine ⟨c, ?_, by simpa using h4, hty, fun i hi => ?_⟩
  · rw [hashOf, mapOut_of fun ps hp => mapValue_ok hk (hd ps hp)]
    exact h1
  · have := h5 i (by simpa using hi)
    simpa using this

theorem cellOf_plain {b : Base} (hb : b ≠ .decimal) (xs : List b.El) (x : b.El) : cellOf b xs x = valueOf b x := by
  cases b <;> first | rfl | exact absurd rfl hb

theorem readPairs_back {k v : Base} (hk : k ≠ .decimal) (hv : v ≠ .decimal) : ∀ {ps : List (k.El × v.El)},
    (∀ p ∈ ps, Stored k p.1 ∧ Stored v p.2) → ∃ as bs, readPairs (fromSql (reads k)) (fromSql (reads v))
        (ps.map fun p => valueOf k p.1) (ps.map fun p => valueOf v p.2) = .ok (as, bs) ∧ as.length = ps.length ∧ bs.length = ps.length ∧
      ∀ (i : Nat) p a b, ps[i]? = some p → as[i]? = some a → bs[i]? = some b → Back k p.1 a ∧ Back v p.2 b := by
  intro ps
  induction ps with
  | nil => intro _; exact ⟨[], [], rfl, rfl, rfl, fun i p a b h => by simp at h⟩
  | cons p ps ih =>
    intro h
    obtain ⟨a, h1, h2⟩ := cell_back (xs := []) (h p (by simp)).1
    obtain ⟨b, h3, h4⟩ := cell_back (xs := []) (h p (by simp)).2
    rw [cellOf_plain hk] at h1
    rw [cellOf_plain hv] at h3
    obtain ⟨as, bs, g1, g2, g3, g4⟩ := ih fun q hq => h q (by simp [hq])
    refine ⟨a :: as, b :: bs, ?_, by simp [g2], by simp [g3], fun i q a' b' hq ha hb => ?_⟩
    · rw [List.map_cons, List.map_cons, readPairs, h1, obind_ok, h3, obind_ok, g1]
      rfl
    · cases i with
      | zero =>
        simp only [List.getElem?_cons_zero, Option.some.injEq] at hq ha hb
        subst hq ha hb
        exact ⟨h2, h4⟩
      | succ i => exact g4 i q a' b' (by simpa using hq) (by simpa using ha) (by simpa using hb)

/-- A cell holding a map is read back as that map. -/
theorem hash_back {k v : Base} (hk : k ≠ .decimal) (hv : v ≠ .decimal) {ps : List (k.El × v.El)}
    (h : ∀ p ∈ ps, Stored k p.1 ∧ Stored v p.2) : ∃ as bs, fromSql (.hmap (reads k) (reads v))
        (.map (typeOf k) (typeOf v) (ps.map fun p => valueOf k p.1) (ps.map fun p => valueOf v p.2)) = .ok (.hmap as bs) ∧
      as.length = ps.length ∧ bs.length = ps.length ∧
      ∀ (i : Nat) p a b, ps[i]? = some p → as[i]? = some a → bs[i]? = some b → Back k p.1 a ∧ Back v p.2 b := by
  obtain ⟨as, bs, g1, g2⟩ := readPairs_back hk hv h
  exact ⟨as, bs, by rw [fromSql, g1]; rfl, g2⟩

end CH
