import Verif.Spec.Iter
import Verif.Lemmas.Column
import Verif.Lemmas.Values
import Verif.Lemmas.Chunk

/-! Facts about the column iterators. -/

namespace CH
open Spec

/-! ### Runs -/

theorem pull_ok (n : Nat) : ∀ (r : Run), n ≤ r.items.length → pull n r = .ok (r.items.take n, ⟨r.items.drop n, r.stop⟩) := by
  induction n with
  | zero => intro r _; simp [pull]
  | succ n ih =>
    intro r h
    obtain ⟨items, s⟩ := r
    cases items with
    | nil => simp at h
    | cons x xs =>
      have := ih ⟨xs, s⟩ (by simpa using h)
      simp [pull, Run.next, this]

/-- The end of the row before row `i`. -/
def prevOff (start : Nat) (offs : List Nat) : Nat → Nat → Prop
  | 0, s => s = start
  | i + 1, s => offs[i]? = some s

theorem arrayRun_get : ∀ (offs : List Nat) (start : Nat) (r : Run) (i s e : Nat), prevOff start offs i s → offs[i]? = some e →
    (∀ j s' e', j ≤ i → prevOff start offs j s' → offs[j]? = some e' → s' ≤ e' ∧ e' ≤ start + r.items.length) →
    (arrayRun start offs r).items[i]? = some (.vec ((r.items.drop (s - start)).take (e - s))) := by
  intro offs
  induction offs with
  | nil => intro start r i s e _ he _; simp at he
  | cons o offs ih =>
    intro start r i s e hs he hall
    have h0 := hall 0 start o (Nat.zero_le _) rfl rfl
    have hn : ¬ o < start := by omega
    rw [arrayRun, if_neg hn, pull_ok _ _ (by omega)]
    cases i with
    | zero =>
      cases hs
      simp at he
      subst he
      simp [Run.cons]
    | succ i =>
      simp only [Run.cons, List.getElem?_cons_succ]
      simp only [List.getElem?_cons_succ] at he
      have hp : prevOff o offs i s := by
        cases i with
        | zero => simp [prevOff] at hs ⊢; exact hs.symm
        | succ k => simpa [prevOff] using hs
      have hos : o ≤ s := by
        clear ih he e
        induction i generalizing s with
        | zero => simp [prevOff] at hp; omega
        | succ k ihk =>
          cases k with
          | zero =>
            have := hall 1 o s (by omega) (by simp [prevOff]) (by simpa [prevOff] using hp)
            omega
          | succ k =>
            simp only [prevOff] at hp
            have hk : k < offs.length := by
              have := (List.getElem?_eq_some_iff.mp hp).1
              omega
            have hb := hall (k + 2) offs[k] s (by omega) (by simp [prevOff, hk]) (by simpa using hp)
            have := ihk offs[k] (by simp [prevOff, hk]) (fun j s' e' hj => hall j s' e' (by omega))
              (by simp [prevOff, hk])
            omega
      rw [ih o _ i s e hp he]
      · simp only [List.drop_drop]
        rw [show o - start + (s - o) = s - start by omega]
      · intro j s' e' hj hs' he'
        have := hall (j + 1) s' e' (by omega) (by
          cases j with
          | zero => simp [prevOff] at hs' ⊢; omega
          | succ k => simpa [prevOff] using hs') (by simpa using he')
        simp only [List.length_drop]
        omega

theorem arrayRun_all : ∀ (offs : List Nat) (start : Nat) (r : Run),
    (∀ j s' e', prevOff start offs j s' → offs[j]? = some e' → s' ≤ e' ∧ e' ≤ start + r.items.length) →
    (arrayRun start offs r).items.length = offs.length ∧ (arrayRun start offs r).stop = .done := by
  intro offs
  induction offs with
  | nil => intro start r _; simp [arrayRun]
  | cons o offs ih =>
    intro start r hall
    have h0 := hall 0 start o rfl rfl
    have hn : ¬ o < start := by omega
    rw [arrayRun, if_neg hn, pull_ok _ _ (by omega)]
    have := ih o ⟨r.items.drop (o - start), r.stop⟩ (fun j s' e' hs' he' => by
      have := hall (j + 1) s' e' (by
          cases j with
          | zero => simp [prevOff] at hs' ⊢; omega
          | succ k => simpa [prevOff] using hs') (by simpa using he')
      simp only [List.length_drop]
      omega)
    simp [Run.cons, this]

/-- Inserting pair after pair. -/
def insertAll : List Item × List Item → List Item → List Item → List Item × List Item
  | m, k :: ks, v :: vs => insertAll (itemInsert m k v) ks vs
  | m, _, _ => m

theorem pullPairs_ok (n : Nat) : ∀ (m : List Item × List Item) (k v : Run), n ≤ k.items.length → n ≤ v.items.length →
    pullPairs n m k v = .ok (insertAll m (k.items.take n) (v.items.take n), ⟨k.items.drop n, k.stop⟩, ⟨v.items.drop n, v.stop⟩) := by
  induction n with
  | zero => intro m k v _ _; simp [pullPairs, insertAll]
  | succ n ih =>
    intro m k v hk hv
    obtain ⟨ks, s⟩ := k
    obtain ⟨vs, t⟩ := v
    cases ks with
    | nil => simp at hk
    | cons a ks =>
      cases vs with
      | nil => simp at hv
      | cons b vs =>
        have := ih (itemInsert m a b) ⟨ks, s⟩ ⟨vs, t⟩ (by simpa using hk) (by simpa using hv)
        simp [pullPairs, Run.next, this, insertAll]

/-- The map made of rows `s` to `e` of keys and values. -/
def mapOf (k v : List Item) (s e : Nat) : Item :=
  let m := insertAll ([], []) ((k.drop s).take (e - s)) ((v.drop s).take (e - s))
  .hmap m.1 m.2

theorem mapRun_get : ∀ (offs : List Nat) (start : Nat) (k v : Run) (i s e : Nat), prevOff start offs i s → offs[i]? = some e →
    (∀ j s' e', j ≤ i → prevOff start offs j s' → offs[j]? = some e' →
      s' ≤ e' ∧ e' ≤ start + k.items.length ∧ e' ≤ start + v.items.length) →
    start ≤ s ∧ (mapRun start offs k v).items[i]? = some
      (.hmap (insertAll ([], []) ((k.items.drop (s - start)).take (e - s)) ((v.items.drop (s - start)).take (e - s))).1
        (insertAll ([], []) ((k.items.drop (s - start)).take (e - s)) ((v.items.drop (s - start)).take (e - s))).2) := by
  intro offs
  induction offs with
  | nil => intro start k v i s e _ he _; simp at he
  | cons o offs ih =>
    intro start k v i s e hs he hall
    have h0 := hall 0 start o (Nat.zero_le _) rfl rfl
    have hn : ¬ o < start := by omega
    rw [mapRun, if_neg hn, pullPairs_ok _ _ _ _ (by omega) (by omega)]
    cases i with
    | zero =>
      cases hs
      simp at he
      subst he
      simp [Run.cons]
    | succ i =>
      simp only [Run.cons, List.getElem?_cons_succ]
      simp only [List.getElem?_cons_succ] at he
      have hp : prevOff o offs i s := by
        cases i with
        | zero => simp [prevOff] at hs ⊢; exact hs.symm
        | succ k => simpa [prevOff] using hs
      have hq := ih o ⟨k.items.drop (o - start), k.stop⟩ ⟨v.items.drop (o - start), v.stop⟩ i s e hp he (by
        intro j s' e' hj hs' he'
        have := hall (j + 1) s' e' (by omega) (by
          cases j with
          | zero => simp [prevOff] at hs' ⊢; omega
          | succ k => simpa [prevOff] using hs') (by simpa using he')
        simp only [List.length_drop]
        omega)
      refine ⟨by omega, ?_⟩
      rw [hq.2]
      simp only [List.drop_drop]
      rw [show o - start + (s - o) = s - start by omega]

theorem mapRun_all : ∀ (offs : List Nat) (start : Nat) (k v : Run),
    (∀ j s' e', prevOff start offs j s' → offs[j]? = some e' →
      s' ≤ e' ∧ e' ≤ start + k.items.length ∧ e' ≤ start + v.items.length) →
    (mapRun start offs k v).items.length = offs.length ∧ (mapRun start offs k v).stop = .done := by
  intro offs
  induction offs with
  | nil => intro start k v _; simp [mapRun]
  | cons o offs ih =>
    intro start k v hall
    have h0 := hall 0 start o rfl rfl
    have hn : ¬ o < start := by omega
    rw [mapRun, if_neg hn, pullPairs_ok _ _ _ _ (by omega) (by omega)]
    have := ih o ⟨k.items.drop (o - start), k.stop⟩ ⟨v.items.drop (o - start), v.stop⟩ (fun j s' e' hs' he' => by
      have := hall (j + 1) s' e' (by
          cases j with
          | zero => simp [prevOff] at hs' ⊢; omega
          | succ k => simpa [prevOff] using hs') (by simpa using he')
      simp only [List.length_drop]
      omega)
    simp [Run.cons, this]

theorem nullRun_eq : ∀ (nulls : Bytes) (r : Run), nulls.length = r.items.length →
    nullRun nulls r = ⟨(nulls.zip r.items).map fun p => if p.1 ≠ 0 then .none else .some p.2, .done⟩ := by
  intro nulls
  induction nulls with
  | nil => intro r _; simp [nullRun]
  | cons f fs ih =>
    intro r h
    obtain ⟨items, s⟩ := r
    cases items with
    | nil => simp at h
    | cons x xs =>
      have := ih ⟨xs, s⟩ (by simpa using h)
      simp [nullRun, Run.next, this, Run.cons]

theorem runOf_get {α : Type} {f : α → Except Stop Item} : ∀ (as : List α) (i : Nat) (a : α) (x : Item), as[i]? = some a → f a = .ok x →
    (∀ j b, j < i → as[j]? = some b → ∃ y, f b = .ok y) → (runOf f as).items[i]? = some x := by
  intro as
  induction as with
  | nil => intro i a x h; simp at h
  | cons b as ih =>
    intro i a x h hx hall
    cases i with
    | zero =>
      simp at h
      subst h
      simp [runOf, hx, Run.cons]
    | succ i =>
      obtain ⟨y, hy⟩ := hall 0 b (by omega) rfl
      simp only [runOf, hy, Run.cons, List.getElem?_cons_succ]
      exact ih i a x (by simpa using h) hx fun j c hj hc => hall (j + 1) c (by omega) (by simpa using hc)

theorem runOf_all {α : Type} {f : α → Except Stop Item} : ∀ (as : List α), (∀ a ∈ as, ∃ y, f a = .ok y) →
    (runOf f as).items.length = as.length ∧ (runOf f as).stop = .done := by
  intro as
  induction as with
  | nil => intro _; simp [runOf]
  | cons b as ih =>
    intro hall
    obtain ⟨y, hy⟩ := hall b (by simp)
    have := ih fun a ha => hall a (by simp [ha])
    simp [runOf, hy, Run.cons, this]

/-! ### Routes: parts of a column and how `get_internal` finds them -/

/-- `d` is the part of `c` at a place, below `j` maps. -/
inductive Route (c : Col) : Place → Nat → Col → Prop
  | here : Route c .top 0 c
  | elems {pl j offs d} : Route c pl j (.array offs d) → Route c pl.elems j d
  | value {pl j offs k d} : Route c pl j (.map offs k d) → pl ≠ .deep → Route c .chain (j + 1) d
  | present {pl j nulls d} : Route c pl j (.nullable nulls d) → Route c .deep j d

theorem route_plain {c d : Col} {pl : Place} {j : Nat} (h : Route c pl j d) :
    ∀ {l s : Nat}, l ≤ d.sqlType.level → c.getInternal s l 0 = d.getInternal s l 0 := by
  induction h with
  | here => intro l s _; rfl
  | @elems pl j offs d _ ih =>
    intro l s hl
    rw [ih (by simp only [Col.sqlType, SqlType.level]; omega), Col.getInternal, if_neg (by simp only [SqlType.level]; omega)]
  | @value pl j offs k d _ _ ih =>
    intro l s hl
    rw [ih (by simp only [Col.sqlType, SqlType.level]; omega), Col.getInternal, if_neg (by omega),
      if_neg (by simp only [SqlType.level]; omega), if_pos rfl]
  | @present pl j nulls d _ ih =>
    intro l s hl
    rw [ih (by simp only [Col.sqlType, SqlType.level]; omega), Col.getInternal, if_neg (by simp only [SqlType.level]; omega)]

theorem route_props {c d : Col} {pl : Place} {j : Nat} (h : Route c pl j d) :
    ∀ (m s : Nat), c.getInternal s 0 (1 + 2 * (j + m)) = d.getInternal s 0 (1 + 2 * m) := by
  induction h with
  | here => intro m s; simp
  | @elems pl j offs d _ ih =>
    intro m s
    rw [ih, Col.getInternal, if_neg (by simp only [SqlType.level]; omega)]
  | @value pl j offs k d _ _ ih =>
    intro m s
    rw [show j + 1 + m = j + (m + 1) by omega, ih, Col.getInternal, if_neg (by omega),
      if_neg (by simp only [SqlType.level]; omega), if_neg (by omega)]
    congr 1
    omega
  | @present pl j nulls d _ ih =>
    intro m s
    rw [ih, Col.getInternal, if_neg (by simp only [SqlType.level]; omega)]

theorem route_level {c d : Col} {pl : Place} {j : Nat} (h : Route c pl j d) :
    (pl = .top → d = c ∧ j = 0) ∧ (pl = .chain → c.sqlType.mapLevel = d.sqlType.level + j) := by
  induction h with
  | here => exact ⟨fun _ => ⟨rfl, rfl⟩, fun h => by simp at h⟩
  | @elems pl j offs d _ ih =>
    cases pl with
    | top =>
      obtain ⟨hc, hj⟩ := ih.1 rfl
      refine ⟨fun h => by simp [Place.elems] at h, fun _ => ?_⟩
      rw [← hc, hj]
      simp [Col.sqlType, SqlType.mapLevel]
    | chain => exact ⟨fun h => by simp [Place.elems] at h, fun h => by simp [Place.elems] at h⟩
    | deep => exact ⟨fun h => by simp [Place.elems] at h, fun h => by simp [Place.elems] at h⟩
  | @value pl j offs k d _ hpl ih =>
    refine ⟨fun h => by simp at h, fun _ => ?_⟩
    cases pl with
    | top =>
      obtain ⟨hc, hj⟩ := ih.1 rfl
      rw [← hc, hj]
      simp only [Col.sqlType, SqlType.mapLevel]
      omega
    | chain =>
      rw [ih.2 rfl]
      simp only [Col.sqlType, SqlType.level]
      omega
    | deep => exact absurd rfl hpl
  | present _ _ => exact ⟨fun h => by simp at h, fun h => by simp at h⟩

theorem route_keys {c k v : Col} {pl : Place} {j : Nat} {offs : List Nat} (h : Route c pl j (.map offs k v)) (hpl : pl ≠ .deep) :
    ¬ c.sqlType.mapLevel < (SqlType.map k.sqlType v.sqlType).mapLevel ∧
    ∀ s, c.getInternal s 0 (1 + 2 * (c.sqlType.mapLevel - (SqlType.map k.sqlType v.sqlType).mapLevel)) = k.getInternal s 0 0 := by
  have hl := route_level h
  have e : c.sqlType.mapLevel = (SqlType.map k.sqlType v.sqlType).mapLevel + j := by
    cases pl with
    | top =>
      obtain ⟨hc, hj⟩ := hl.1 rfl
      rw [← hc, hj]
      rfl
    | chain => exact hl.2 rfl
    | deep => exact absurd rfl hpl
  refine ⟨by omega, fun s => ?_⟩
  rw [e, show (SqlType.map k.sqlType v.sqlType).mapLevel + j - (SqlType.map k.sqlType v.sqlType).mapLevel = j + 0 by omega,
    route_props h 0 s, Col.getInternal, if_pos rfl]

/-! ### Columns without structure -/

theorem idx_inv {l : List α} {i : Nat} {a : α} (h : idx l i = .ok a) : l[i]? = some a := by
  unfold idx at h
  split at h
  · rename_i e; injection h with h; subst h; exact e
  · cases h

theorem idx_some {l : List α} {i : Nat} {a : α} (h : l[i]? = some a) : idx l i = .ok a := by
  unfold idx
  rw [h]

/-- A run lists exactly the rows of a column, all of which can be read. -/
def Exact (T : ITy) (d : Col) (r : Run) : Prop :=
  ∃ n, d.len = .ok n ∧ r.items.length = n ∧ r.stop = .done ∧
    (∀ i, i < n → ∃ v x, d.at i = .ok v ∧ r.items[i]? = some x ∧ Shows T v x) ∧ ∀ i v, d.at i = .ok v → i < n

theorem bare_num {t : NumTy} : ∀ (d : Col), Native d → bare d.sqlType = .num t → ∃ xs : List Nat,
    (∀ s l p, d.getInternal s l p = (Col.num t xs).getInternal s l p) ∧ (∀ i, d.at i = (Col.num t xs).at i) ∧
      d.len = .ok xs.length := by
  intro d
  induction d with
  | num t' xs =>
    intro _ h
    simp [Col.sqlType, bare] at h
    subst h
    exact ⟨xs, fun _ _ _ => rfl, fun _ => rfl, rfl⟩
  | simpleAgg f c ih =>
    intro hn h
    obtain ⟨xs, h1, h2, h3⟩ := ih hn h
    exact ⟨xs, fun s l p => by rw [← h1]; rfl, fun i => by rw [← h2]; rfl, by rw [← h3]; rfl⟩
  | _ => intro hn h; first | (exact False.elim hn) | (simp [Col.sqlType, bare] at h)

theorem bare_ip {k : IpKind} : ∀ (d : Col), Native d → bare d.sqlType = .ip k → ∃ buf : Bytes, buf.length % k.size = 0 ∧
    (∀ s l p, d.getInternal s l p = (Col.ip k buf).getInternal s l p) ∧ (∀ i, d.at i = (Col.ip k buf).at i) ∧
      d.len = .ok (buf.length / k.size) := by
  intro d
  induction d with
  | ip k' buf =>
    intro hn h
    simp [Col.sqlType, bare] at h
    subst h
    exact ⟨buf, hn, fun _ _ _ => rfl, fun _ => rfl, rfl⟩
  | simpleAgg f c ih =>
    intro hn h
    obtain ⟨buf, h0, h1, h2, h3⟩ := ih hn h
    exact ⟨buf, h0, fun s l p => by rw [← h1]; rfl, fun i => by rw [← h2]; rfl, by rw [← h3]; rfl⟩
  | _ => intro hn h; first | (exact False.elim hn) | (simp [Col.sqlType, bare] at h)

theorem exact_of_list {T : ITy} {d : Col} {α : Type} {xs : List α} {f : α → Value} {g : α → Item}
    (hl : d.len = .ok xs.length) (ha : ∀ i, d.at i = (idx xs i >>= fun x => pure (f x))) (hs : ∀ x ∈ xs, Shows T (f x) (g x)) :
    Exact T d ⟨xs.map g, .done⟩ := by
  refine ⟨xs.length, hl, by simp, rfl, fun i hi => ?_, fun i v h => ?_⟩
  · refine ⟨f xs[i], g xs[i], ?_, by simp [hi], hs _ (List.getElem_mem _)⟩
    rw [ha, idx_ok hi]
    rfl
  · rw [ha] at h
    obtain ⟨x, h1, _⟩ := obind_eq_ok h
    exact (List.getElem?_eq_some_iff.mp (idx_inv h1)).1

theorem ip_shows {k : IpKind} {b : Bytes} (h : b.length = k.size) : Shows (.ip k) (.ip k b) (.ip k (iterOctets k b)) := by
  cases k with
  | v4 =>
    match b, h with
    | [w, x, y, z], _ => exact .ip4
  | v6 => exact .ip6
  | uuid =>
    have h : b.length = 16 := h
    have := @Shows.uuid (b.take 8).reverse (b.drop 8).reverse (by simp; omega) (by simp; omega)
    simpa [iterOctets] using this

theorem size_pos (k : IpKind) : 0 < k.size := by cases k <;> decide

/-- Row `i` of a buffer of rows of `n` bytes. -/
theorem row_bounds {i n L : Nat} (hn : 0 < n) : i < L / n ↔ i * n + n ≤ L := by
  rw [Nat.lt_iff_add_one_le, Nat.le_div_iff_mul_le hn, Nat.add_mul, Nat.one_mul]

theorem slice_inv {l r : List α} {s e : Nat} (h : slice l s e = .ok r) : s ≤ e ∧ e ≤ l.length ∧ r = (l.drop s).take (e - s) := by
  unfold slice at h
  split at h
  · rename_i hb; injection h with h; exact ⟨hb.1, hb.2, h.symm⟩
  · cases h

theorem exact_ip {k : IpKind} {d : Col} {buf : Bytes} (h0 : buf.length % k.size = 0) (ha : ∀ i, d.at i = (Col.ip k buf).at i)
    (hl : d.len = .ok (buf.length / k.size)) : Exact (.ip k) d (ipRun k buf) := by
  have hp := size_pos k
  refine ⟨_, hl, by simp [ipRun], by simp [ipRun, h0], fun i hi => ?_, fun i v h => ?_⟩
  · have hb := (row_bounds hp).mp hi
    refine ⟨_, _, ?_, ?_, ip_shows (b := (buf.drop (i * k.size)).take k.size) (by simp; omega)⟩
    · rw [ha, Col.at, slice_ok (by rw [Nat.add_mul]; omega) (by rw [Nat.add_mul]; omega)]
      simp [Nat.add_mul]
    · simp only [ipRun]
      rw [List.getElem?_map, List.getElem?_range hi]
      rfl
  · rw [ha, Col.at] at h
    obtain ⟨x, h1, _⟩ := obind_eq_ok h
    have := (slice_inv h1).2.1
    exact (row_bounds hp).mpr (by rw [Nat.add_mul] at this; omega)

theorem exact_fixed {d : Col} {n : Nat} {buf : Bytes} (hn : 0 < n) (ha : ∀ i, d.at i = (Col.fixed n buf).at i)
    (hl : d.len = .ok (buf.length / n)) :
    Exact .bytes d ⟨(List.range (buf.length / n)).map fun i => .bytes ((buf.drop (i * n)).take n), .done⟩ := by
  refine ⟨_, hl, by simp, rfl, fun i hi => ?_, fun i v h => ?_⟩
  · have hb := (row_bounds hn).mp hi
    refine ⟨_, _, ?_, ?_, @Shows.bytes ((buf.drop (i * n)).take n)⟩
    · rw [ha, Col.at, slice_ok (by omega) hb]
      simp
    · rw [List.getElem?_map, List.getElem?_range hi]
      rfl
  · rw [ha, Col.at] at h
    obtain ⟨x, h1, _⟩ := obind_eq_ok h
    exact (row_bounds hn).mpr (slice_inv h1).2.1

theorem key_exact {zones : Zones} {c d : Col} {T : ITy} {props : Nat} (hn : Native d) (hk : KeyIn T d.sqlType)
    (hg : ∀ s, c.getInternal s 0 props = d.getInternal s 0 0) :
    ∃ r, iterWith zones c T d.sqlType props = .ok r ∧ Exact T d r := by
  cases T with
  | num t =>
    have hb : bare d.sqlType = .num t := hk
    obtain ⟨xs, h1, h2, h3⟩ := bare_num d hn hb
    have hc : ∀ ty, bare ty = .num t → checkType ty (.num t) = true := by
      intro ty
      induction ty with
      | simpleAgg f ty ih => intro h; exact ih h
      | _ => intro h; simp [bare] at h <;> simp [checkType, h]
    refine ⟨⟨xs.map (.num t), .done⟩, ?_, exact_of_list h3 h2 fun x _ => Shows.num⟩
    rw [iterWith, if_pos (hc _ hb), hg, h1]
    simp [Col.getInternal, Store.asNums]
  | ip k =>
    have hb : bare d.sqlType = .ip k := hk
    obtain ⟨buf, h0, h1, h2, h3⟩ := bare_ip d hn hb
    refine ⟨ipRun k buf, ?_, exact_ip h0 h2 h3⟩
    rw [iterWith, hg, h1]
    simp [Col.getInternal, Store.asOctets]
  | bytes =>
    have hb : d.sqlType = .string := hk
    have : ∃ xs, d = .str xs := by
      cases d <;> first | (exact ⟨_, rfl⟩) | (exact False.elim hn) | (simp [Col.sqlType] at hb)
    obtain ⟨xs, rfl⟩ := this
    refine ⟨⟨xs.map .bytes, .done⟩, ?_, exact_of_list (f := .str) rfl (fun i => rfl) fun x _ => Shows.bytes⟩
    rw [Col.sqlType, iterWith, hg]
    simp [Col.getInternal, Store.asPool]
  | _ => exact False.elim hk

theorem scalar_exact {zones : Zones} {c d : Col} {T : ITy} (hn : Native d) (hk : ScalarIn T d.sqlType)
    (hg : ∀ s, c.getInternal s 0 0 = d.getInternal s 0 0) :
    ∃ r, iterWith zones c T d.sqlType 0 = .ok r ∧ Exact T d r := by
  by_cases hk' : KeyIn T d.sqlType
  · exact key_exact hn hk' hg
  · cases T with
    | bytes =>
      have : ∃ n, d.sqlType = .fixedString n ∧ 0 < n := by
        cases hd : d.sqlType with
        | fixedString n => rw [hd] at hk; exact ⟨n, rfl, hk⟩
        | _ => rw [hd] at hk hk'; exact absurd hk hk'
      obtain ⟨n, hd, hp⟩ := this
      have : ∃ buf, d = .fixed n buf := by
        cases d <;> first | (exact False.elim hn) | (simp [Col.sqlType] at hd)
        subst hd
        exact ⟨_, rfl⟩
      obtain ⟨buf, rfl⟩ := this
      have hl : (Col.fixed n buf).len = .ok (buf.length / n) := by rw [Col.len, if_neg (by omega)]
      refine ⟨_, ?_, exact_fixed hp (fun i => rfl) hl⟩
      rw [Col.sqlType, iterWith, hg]
      simp only [Col.getInternal, hl]
      simp [Store.asFixed]
    | decimal =>
      have : ∃ p s, d.sqlType = .decimal p s := by
        cases hd : d.sqlType with
        | decimal p s => exact ⟨p, s, rfl⟩
        | _ => rw [hd] at hk hk'; exact absurd hk hk'
      obtain ⟨p, s, hd⟩ := this
      have : ∃ nb xs, d = .decimal p s nb xs := by
        cases d <;> first | (exact False.elim hn) | (simp [Col.sqlType] at hd)
        obtain ⟨rfl, rfl⟩ := hd
        exact ⟨_, _, rfl⟩
      obtain ⟨nb, xs, rfl⟩ := this
      refine ⟨_, ?_, exact_of_list (xs := xs) (f := fun x => .decimal ⟨toSigned nb.width x, nb, p, s⟩) rfl (fun i => rfl)
        fun x _ => Shows.decimal⟩
      rw [Col.sqlType, iterWith, hg]
      simp [Col.getInternal, Store.asDecimals]
    | _ => exact absurd hk hk'

/-! ### Composite columns -/

/-- As far as the rows of a column can be read, a run lists them; and exactly them if all can be read. -/
def Agrees (T : ITy) (d : Col) (r : Run) : Prop :=
  (∀ i v, (∀ j, j ≤ i → ∃ w, d.at j = .ok w) → d.at i = .ok v → ∃ x, r.items[i]? = some x ∧ Shows T v x) ∧
  ∀ n, d.len = .ok n → (∀ i, i < n → ∃ w, d.at i = .ok w) → r.items.length = n ∧ r.stop = .done

theorem Exact.agrees {T : ITy} {d : Col} {r : Run} (h : Exact T d r) : Agrees T d r := by
  obtain ⟨n, hl, h1, h2, h3, h4⟩ := h
  refine ⟨fun i v _ hv => ?_, fun m hm _ => ?_⟩
  · obtain ⟨w, x, hw, hx, hs⟩ := h3 i (h4 i v hv)
    rw [hv] at hw
    injection hw with hw
    subst hw
    exact ⟨x, hx, hs⟩
  · rw [hl] at hm
    injection hm with hm
    subst hm
    exact ⟨h1, h2⟩

theorem prevOff_unique {start : Nat} {offs : List Nat} {i s t : Nat} (h : prevOff start offs i s) (h' : prevOff start offs i t) : s = t := by
  cases i with
  | zero => simp [prevOff] at h h'; omega
  | succ i =>
    simp only [prevOff] at h h'
    rw [h] at h'
    injection h'

theorem rows_cover {P : Nat → Prop} {offs : List Nat} : ∀ (i : Nat), (∀ j, j ≤ i → ∃ s e, prevOff 0 offs j s ∧ offs[j]? = some e ∧
    ∀ q, s ≤ q → q < e → P q) → ∀ e, offs[i]? = some e → ∀ q, q < e → P q := by
  intro i
  induction i with
  | zero =>
    intro h e he q hq
    obtain ⟨s, e', hs, he', hp⟩ := h 0 (Nat.le_refl _)
    rw [he] at he'
    injection he' with he'
    simp [prevOff] at hs
    exact hp q (by omega) (by omega)
  | succ i ih =>
    intro h e he q hq
    obtain ⟨s, e', hs, he', hp⟩ := h (i + 1) (Nat.le_refl _)
    rw [he] at he'
    injection he' with he'
    by_cases hsq : s ≤ q
    · exact hp q hsq (by omega)
    · exact ih (fun j hj => h j (by omega)) s hs q (by omega)

theorem range_inv {f : Nat → Out β} {s e : Nat} {vs : List β} (h : rangeOut f s e = .ok vs) :
    vs.length = e - s ∧ ∀ (k : Nat) w, vs[k]? = some w → f (s + k) = .ok w := by
  unfold rangeOut at h
  generalize hn : e - s = n at h
  clear hn
  induction n generalizing s vs with
  | zero => simp [mapOut] at h; subst h; simp
  | succ n ih =>
    rw [List.range'_succ] at h
    obtain ⟨b, h1, h⟩ := obind_eq_ok h
    obtain ⟨bs, h2, h⟩ := obind_eq_ok h
    injection h with h
    subst h
    obtain ⟨h3, h4⟩ := ih h2
    refine ⟨by simp [h3], fun k w hk => ?_⟩
    cases k with
    | zero => simp at hk; subst hk; exact h1
    | succ k =>
      have := h4 k w (by simpa using hk)
      rw [show s + (k + 1) = s + 1 + k by omega]
      exact this

theorem start_inv {offs : List Nat} {i s : Nat} (h : (if i > 0 then idx offs (i - 1) else Out.ok 0) = .ok s) : prevOff 0 offs i s := by
  cases i with
  | zero => simp at h; simp [prevOff, h]
  | succ i => rw [if_pos (by omega)] at h; exact idx_inv h

theorem array_row {offs : List Nat} {c : Col} {i : Nat} {v : Value} (h : (Col.array offs c).at i = .ok v) :
    ∃ s e vs, prevOff 0 offs i s ∧ offs[i]? = some e ∧ s ≤ e ∧ v = .array c.sqlType vs ∧ vs.length = e - s ∧
      ∀ (k : Nat) w, vs[k]? = some w → c.at (s + k) = .ok w := by
  rw [at_array] at h
  obtain ⟨s, h1, h⟩ := obind_eq_ok h
  obtain ⟨e, h2, h⟩ := obind_eq_ok h
  by_cases hse : e < s
  · rw [if_pos hse] at h; cases h
  · rw [if_neg hse] at h
    obtain ⟨vs, h3, h⟩ := obind_eq_ok h
    injection h with h
    obtain ⟨h4, h5⟩ := range_inv h3
    exact ⟨s, e, vs, start_inv h1, idx_inv h2, by omega, h.symm, h4, h5⟩

theorem map_row {offs : List Nat} {k c : Col} {i : Nat} {v : Value} (h : (Col.map offs k c).at i = .ok v) :
    ∃ s e ks vs m, prevOff 0 offs i s ∧ offs[i]? = some e ∧ s ≤ e ∧ mapBuild ([], []) ks vs = .ok m ∧
      v = .map k.sqlType c.sqlType m.1 m.2 ∧ ks.length = e - s ∧ vs.length = e - s ∧
      (∀ (q : Nat) w, ks[q]? = some w → k.at (s + q) = .ok w) ∧ ∀ (q : Nat) w, vs[q]? = some w → c.at (s + q) = .ok w := by
  rw [at_map] at h
  obtain ⟨s, h1, h⟩ := obind_eq_ok h
  obtain ⟨e, h2, h⟩ := obind_eq_ok h
  by_cases hse : e < s
  · rw [if_pos hse] at h; cases h
  · rw [if_neg hse] at h
    obtain ⟨ks, h3, h⟩ := obind_eq_ok h
    obtain ⟨vs, h4, h⟩ := obind_eq_ok h
    obtain ⟨m, h5, h⟩ := obind_eq_ok h
    injection h with h
    obtain ⟨h6, h7⟩ := range_inv h3
    obtain ⟨h8, h9⟩ := range_inv h4
    exact ⟨s, e, ks, vs, m, start_inv h1, idx_inv h2, by omega, h5, h.symm, h6, h8, h7, h9⟩

/-- Rows read one by one: all rows up to the `q`-th are listed. -/
theorem Agrees.upto {T : ITy} {d : Col} {r : Run} (h : Agrees T d r) {e : Nat} (ha : ∀ q, q < e → ∃ w, d.at q = .ok w) :
    e ≤ r.items.length := by
  cases e with
  | zero => omega
  | succ q =>
    obtain ⟨w, hw⟩ := ha q (by omega)
    obtain ⟨x, hx, _⟩ := h.1 q w (fun j hj => ha j (by omega)) hw
    exact (List.getElem?_eq_some_iff.mp hx).1

theorem Agrees.piece {T : ITy} {d : Col} {r : Run} (h : Agrees T d r) {s e : Nat} {vs : List Value}
    (ha : ∀ q, q < e → ∃ w, d.at q = .ok w) (hlen : vs.length = e - s) (hv : ∀ (k : Nat) w, vs[k]? = some w → d.at (s + k) = .ok w) :
    vs.length = ((r.items.drop s).take (e - s)).length ∧
    ∀ (k : Nat) v x, vs[k]? = some v → ((r.items.drop s).take (e - s))[k]? = some x → Shows T v x := by
  have hu := h.upto ha
  refine ⟨by simp; omega, fun k v x hk hx => ?_⟩
  have hk2 : k < e - s := by
    have := (List.getElem?_eq_some_iff.mp hk).1
    omega
  rw [List.getElem?_take_of_lt hk2, List.getElem?_drop] at hx
  obtain ⟨x', hx', hs⟩ := h.1 (s + k) v (fun j hj => ha j (by omega)) (hv k v hk)
  rw [hx] at hx'
  injection hx' with hx'
  subst hx'
  exact hs

theorem array_agrees {T : ITy} {offs : List Nat} {d : Col} {r : Run} (h : Agrees T d r) :
    Agrees (.vec T) (.array offs d) (arrayRun 0 offs r) := by
  have cover : ∀ i, (∀ j, j ≤ i → ∃ w, (Col.array offs d).at j = .ok w) → ∀ e, offs[i]? = some e → ∀ q, q < e → ∃ w, d.at q = .ok w := by
    intro i hall
    apply rows_cover
    intro j hj
    obtain ⟨w, hw⟩ := hall j hj
    obtain ⟨s, e, vs, h1, h2, h3, _, h4, h5⟩ := array_row hw
    refine ⟨s, e, h1, h2, fun q hq1 hq2 => ?_⟩
    have hlt : q - s < vs.length := by omega
    have := h5 (q - s) vs[q - s] (by simp)
    rw [show s + (q - s) = q by omega] at this
    exact ⟨_, this⟩
  have bounds : ∀ i, (∀ j, j ≤ i → ∃ w, (Col.array offs d).at j = .ok w) → ∀ j s' e', j ≤ i → prevOff 0 offs j s' →
      offs[j]? = some e' → s' ≤ e' ∧ e' ≤ 0 + r.items.length := by
    intro i hall j s' e' hj hs' he'
    obtain ⟨w, hw⟩ := hall j hj
    obtain ⟨s, e, vs, h1, h2, h3, _⟩ := array_row hw
    rw [he'] at h2
    injection h2 with h2
    have := prevOff_unique h1 hs'
    have := h.upto (cover j (fun l hl => hall l (by omega)) e' he')
    omega
  refine ⟨fun i v hall hv => ?_, fun n hn hall => ?_⟩
  · obtain ⟨s, e, vs, h1, h2, h3, hv2, h4, h5⟩ := array_row hv
    refine ⟨_, arrayRun_get offs 0 r i s e h1 h2 (bounds i hall), ?_⟩
    rw [hv2, Nat.sub_zero]
    have hp := h.piece (cover i hall e h2) h4 h5
    exact .vec hp.1 hp.2
  · simp only [Col.len] at hn
    injection hn with hn
    subst hn
    apply arrayRun_all
    intro j s' e' hs' he'
    have hj := (List.getElem?_eq_some_iff.mp he').1
    exact bounds j (fun l hl => hall l (by omega)) j s' e' (Nat.le_refl _) hs' he'

theorem keyEq_same {K : ITy} {v w : Value} {x y : Item} (hx : Shows K v x) (hy : Shows K w y) (hw : w.refHashable = true) :
    Value.keyEq v w = Item.same x y := by
  cases hy with
  | num => cases hx; rfl
  | bytes => cases hx; rfl
  | _ => simp [Value.refHashable] at hw

theorem keyIndex_items {K : ITy} {w : Value} {y : Item} (hy : Shows K w y) (hw : w.refHashable = true) : ∀ (ks : List Value) (as : List Item),
    ks.length = as.length → (∀ (i : Nat) v x, ks[i]? = some v → as[i]? = some x → Shows K v x) → keyIndex w ks = itemIndex y as := by
  intro ks
  induction ks with
  | nil => intro as h _; cases as with
    | nil => rfl
    | cons a as => simp at h
  | cons k ks ih =>
    intro as h hp
    cases as with
    | nil => simp at h
    | cons a as =>
      have h0 := keyEq_same (hp 0 k a rfl rfl) hy hw
      have h1 := ih as (by simpa using h) fun i v x hv hx => hp (i + 1) v x (by simpa using hv) (by simpa using hx)
      simp only [keyIndex, itemIndex, h0, h1]

/-- Two maps hold the same pairs. -/
def Pairs (K V : ITy) (m : List Value × List Value) (m' : List Item × List Item) : Prop :=
  m.1.length = m.2.length ∧ m.1.length = m'.1.length ∧ m.2.length = m'.2.length ∧
  (∀ (i : Nat) x a, m.1[i]? = some x → m'.1[i]? = some a → Shows K x a) ∧
  ∀ (i : Nat) x b, m.2[i]? = some x → m'.2[i]? = some b → Shows V x b

theorem pairs_append {T : ITy} {vs : List Value} {xs : List Item} (hl : vs.length = xs.length)
    (h : ∀ (i : Nat) v x, vs[i]? = some v → xs[i]? = some x → Shows T v x) {v : Value} {x : Item} (hv : Shows T v x) :
    ∀ (i : Nat) w y, (vs ++ [v])[i]? = some w → (xs ++ [x])[i]? = some y → Shows T w y := by
  intro i w y hw hy
  by_cases hi : i < vs.length
  · rw [List.getElem?_append_left hi] at hw
    rw [List.getElem?_append_left (by omega)] at hy
    exact h i w y hw hy
  · have : i = vs.length := by
      have := (List.getElem?_eq_some_iff.mp hw).1
      simp at this
      omega
    subst this
    simp at hw
    rw [hl] at hy
    simp at hy
    subst hw hy
    exact hv

theorem pairs_insert {K V : ITy} {m : List Value × List Value} {m' : List Item × List Item} {k v : Value} {a b : Item}
    (h : Pairs K V m m') (hk : Shows K k a) (hh : k.refHashable = true) (hv : Shows V v b) :
    Pairs K V (mapInsert m k v) (itemInsert m' a b) := by
  obtain ⟨h1, h2, h3, h4, h5⟩ := h
  have e := keyIndex_items hk hh m.1 m'.1 h2 h4
  unfold mapInsert itemInsert
  rw [e]
  cases itemIndex a m'.1 with
  | none =>
    refine ⟨by simp [h1], by simp [h2], by simp [h3], pairs_append h2 h4 hk, pairs_append h3 h5 hv⟩
  | some j =>
    refine ⟨by simp [h1], by simp [h2], by simp [h3], h4, fun i x y hx hy => ?_⟩
    simp only [List.getElem?_set] at hx hy
    by_cases hj : j = i
    · rw [if_pos hj] at hx hy
      have h6 : j < m.2.length ∧ v = x := by
        split at hx
        · rename_i hlt; injection hx with hx; exact ⟨hlt, hx⟩
        · cases hx
      have h7 : b = y := by
        split at hy
        · injection hy
        · cases hy
      rw [← h6.2, ← h7]
      exact hv
    · rw [if_neg hj] at hx hy
      exact h5 i x y hx hy

theorem pairs_build {K V : ITy} : ∀ (ks vs : List Value) (as bs : List Item) (m : List Value × List Value) (m' : List Item × List Item)
    (r : List Value × List Value), Pairs K V m m' → ks.length = as.length → vs.length = bs.length →
    (∀ (i : Nat) v x, ks[i]? = some v → as[i]? = some x → Shows K v x) → (∀ (i : Nat) v x, vs[i]? = some v → bs[i]? = some x → Shows V v x) →
    mapBuild m ks vs = .ok r → Pairs K V r (insertAll m' as bs) := by
  intro ks
  induction ks with
  | nil =>
    intro vs as bs m m' r h hl _ _ _ hb
    cases as with
    | nil =>
      simp [mapBuild] at hb
      subst hb
      simpa [insertAll] using h
    | cons _ _ => simp at hl
  | cons k ks ih =>
    intro vs as bs m m' r h hl hl2 hp hq hb
    cases as with
    | nil => simp at hl
    | cons a as =>
      cases vs with
      | nil =>
        cases bs with
        | nil =>
          simp [mapBuild] at hb
          subst hb
          simpa [insertAll] using h
        | cons _ _ => simp at hl2
      | cons v vs =>
        cases bs with
        | nil => simp at hl2
        | cons b bs =>
          rw [mapBuild] at hb
          by_cases hh : k.refHashable = true
          · rw [if_pos hh] at hb
            exact ih vs as bs _ _ r (pairs_insert h (hp 0 k a rfl rfl) hh (hq 0 v b rfl rfl)) (by simpa using hl) (by simpa using hl2)
              (fun i v x hv hx => hp (i + 1) v x (by simpa using hv) (by simpa using hx))
              (fun i v x hv hx => hq (i + 1) v x (by simpa using hv) (by simpa using hx)) hb
          · rw [if_neg hh] at hb; cases hb

theorem map_agrees {K V : ITy} {offs : List Nat} {k v : Col} {kr vr : Run} (hk : Agrees K k kr) (hv : Agrees V v vr) :
    Agrees (.hmap K V) (.map offs k v) (mapRun 0 offs kr vr) := by
  have cover : ∀ i, (∀ j, j ≤ i → ∃ w, (Col.map offs k v).at j = .ok w) → ∀ e, offs[i]? = some e → ∀ q, q < e →
      (∃ w, k.at q = .ok w) ∧ ∃ w, v.at q = .ok w := by
    intro i hall
    apply rows_cover
    intro j hj
    obtain ⟨w, hw⟩ := hall j hj
    obtain ⟨s, e, ks, vs, m, h1, h2, h3, _, _, h4, h5, h6, h7⟩ := map_row hw
    refine ⟨s, e, h1, h2, fun q hq1 hq2 => ?_⟩
    have hlt : q - s < vs.length := by omega
    have hlt' : q - s < ks.length := by omega
    have a := h6 (q - s) ks[q - s] (by simp)
    have b := h7 (q - s) vs[q - s] (by simp)
    rw [show s + (q - s) = q by omega] at a b
    exact ⟨⟨_, a⟩, _, b⟩
  have bounds : ∀ i, (∀ j, j ≤ i → ∃ w, (Col.map offs k v).at j = .ok w) → ∀ j s' e', j ≤ i → prevOff 0 offs j s' →
      offs[j]? = some e' → s' ≤ e' ∧ e' ≤ 0 + kr.items.length ∧ e' ≤ 0 + vr.items.length := by
    intro i hall j s' e' hj hs' he'
    obtain ⟨w, hw⟩ := hall j hj
    obtain ⟨s, e, ks, vs, m, h1, h2, h3, _⟩ := map_row hw
    rw [he'] at h2
    injection h2 with h2
    have := prevOff_unique h1 hs'
    have hc := cover j (fun l hl => hall l (by omega)) e' he'
    have := hk.upto fun q hq => (hc q hq).1
    have := hv.upto fun q hq => (hc q hq).2
    omega
  refine ⟨fun i w hall hw => ?_, fun n hn hall => ?_⟩
  · obtain ⟨s, e, ks, vs, m, h1, h2, h3, hm, hw2, h4, h5, h6, h7⟩ := map_row hw
    have hg := mapRun_get offs 0 kr vr i s e h1 h2 (bounds i hall)
    rw [Nat.sub_zero] at hg
    refine ⟨_, hg.2, ?_⟩
    have hc := cover i hall e h2
    have hp := hk.piece (fun q hq => (hc q hq).1) h4 h6
    have hq := hv.piece (fun q hq => (hc q hq).2) h5 h7
    have := pairs_build (K := K) (V := V) ks vs _ _ ([], []) ([], []) m ⟨rfl, rfl, rfl, by simp, by simp⟩ hp.1 hq.1 hp.2 hq.2 hm
    rw [hw2]
    exact .hmap this.1 this.2.1 this.2.2.1 this.2.2.2.1 this.2.2.2.2
  · simp only [Col.len] at hn
    injection hn with hn
    subst hn
    apply mapRun_all
    intro j s' e' hs' he'
    have hj := (List.getElem?_eq_some_iff.mp he').1
    exact bounds j (fun l hl => hall l (by omega)) j s' e' (Nat.le_refl _) hs' he'

theorem null_agrees {T : ITy} {nulls : Bytes} {d : Col} {r : Run} (h : Exact T d r) (hf : ∀ f ∈ nulls, f = 0 ∨ f = 1)
    (hl : nulls.length = r.items.length) : Agrees (.opt T) (.nullable nulls d) (nullRun nulls r) := by
  obtain ⟨n, h1, h2, h3, h4, h5⟩ := h
  rw [nullRun_eq nulls r hl]
  refine ⟨fun i v _ hv => ?_, fun m hm _ => ?_⟩
  · rw [Col.at] at hv
    obtain ⟨f, g1, hv⟩ := obind_eq_ok hv
    have g2 := idx_inv g1
    have hi := (List.getElem?_eq_some_iff.mp g2).1
    obtain ⟨w, x, hw, hx, hs⟩ := h4 i (by omega)
    have hz : (nulls.zip r.items)[i]? = some (f, x) := by
      rw [List.getElem?_zip_eq_some]
      exact ⟨g2, hx⟩
    refine ⟨_, by rw [List.getElem?_map, hz]; rfl, ?_⟩
    have hf0 := hf f (List.mem_of_getElem? g2)
    by_cases h01 : f = 1
    · rw [if_pos h01] at hv
      injection hv with hv
      subst hv
      simpa [h01] using Shows.none
    · rw [if_neg h01, hw] at hv
      simp at hv
      have h0 : f = 0 := hf0.resolve_right h01
      subst hv
      simpa [h0] using Shows.some hs
  · refine ⟨?_, rfl⟩
    rw [Col.len, h1] at hm
    simp at hm
    split at hm
    · simp at hm
      simp [← hl]
      omega
    · cases hm

theorem walks_scalar {pl : Place} {T : ITy} {ty : SqlType} (h : Walks pl T ty) (hv : ∀ U, T ≠ .vec U) (ho : ∀ U, T ≠ .opt U)
    (hm : ∀ K V, T ≠ .hmap K V) : ScalarIn T ty ∨ (pl = .top ∧ TopIn T ty) := by
  cases pl <;> cases T <;> first
    | (exact absurd rfl (hv _))
    | (exact absurd rfl (ho _))
    | (exact absurd rfl (hm _ _))
    | (exact Or.inl h)
    | (rcases h with h | h
       · exact Or.inr ⟨rfl, h⟩
       · exact Or.inl h)

theorem walks_vec {pl : Place} {T : ITy} {ty : SqlType} (h : Walks pl (.vec T) ty) : ∃ e, ty = .array e ∧ Walks pl.elems T e := by
  cases pl <;> cases ty <;> first
    | exact ⟨_, rfl, h⟩
    | (exact False.elim h)
    | (rcases h with h | h <;> exact False.elim h)

theorem walks_opt {pl : Place} {T : ITy} {ty : SqlType} (h : Walks pl (.opt T) ty) : ∃ e, ty = .nullable e ∧ ScalarIn T e := by
  cases pl <;> cases ty <;> first
    | exact ⟨_, rfl, h⟩
    | (exact False.elim h)
    | (rcases h with h | h <;> exact False.elim h)

theorem walks_map {pl : Place} {K V : ITy} {ty : SqlType} (h : Walks pl (.hmap K V) ty) :
    ∃ k v, ty = .map k v ∧ pl ≠ .deep ∧ KeyIn K k ∧ Walks .chain V v := by
  cases pl <;> cases ty <;> first
    | exact ⟨_, _, rfl, h⟩
    | (exact False.elim h)
    | (rcases h with h | h <;> exact False.elim h)

theorem walk {zones : Zones} {c : Col} : ∀ (T : ITy) (pl : Place) (j : Nat) (d : Col), Route c pl j d → Native d → Walks pl T d.sqlType →
    (pl = .top → TopIn T d.sqlType → ∃ r, iterWith zones c T d.sqlType 0 = .ok r ∧ Agrees T d r) →
    ∃ r, iterWith zones c T d.sqlType 0 = .ok r ∧ Agrees T d r := by
  have scalar : ∀ (T : ITy) (pl : Place) (j : Nat) (d : Col), Route c pl j d → Native d → Walks pl T d.sqlType →
      (∀ U, T ≠ .vec U) → (∀ U, T ≠ .opt U) → (∀ K V, T ≠ .hmap K V) →
      (pl = .top → TopIn T d.sqlType → ∃ r, iterWith zones c T d.sqlType 0 = .ok r ∧ Agrees T d r) →
      ∃ r, iterWith zones c T d.sqlType 0 = .ok r ∧ Agrees T d r := by
    intro T pl j d hr hn hw h1 h2 h3 ht
    rcases walks_scalar hw h1 h2 h3 with h | ⟨h, h'⟩
    · obtain ⟨r, hr, he⟩ := scalar_exact (zones := zones) (c := c) hn h fun s => route_plain hr (Nat.zero_le _)
      exact ⟨r, hr, he.agrees⟩
    · exact ht h h'
  intro T
  induction T with
  | vec T ih =>
    intro pl j d hr hn hw _
    obtain ⟨e, he, hw⟩ := walks_vec hw
    have : ∃ offs d', d = .array offs d' ∧ d'.sqlType = e := by
      cases d <;> first | (exact False.elim hn) | (simp [Col.sqlType] at he)
      exact ⟨_, _, rfl, he⟩
    obtain ⟨offs, d', rfl, rfl⟩ := this
    obtain ⟨r, h1, h2⟩ := ih pl.elems j d' (.elems hr) hn hw (fun h => by cases pl <;> simp [Place.elems] at h)
    refine ⟨arrayRun 0 offs r, ?_, array_agrees h2⟩
    have hg : c.getInternal 2 (SqlType.array d'.sqlType).level 0 = .ok (.offs offs) := by
      refine (route_plain hr (Nat.le_refl _)).trans ?_
      simp [Col.getInternal, Col.sqlType]
    rw [Col.sqlType, iterWith, h1, hg]
    rfl
  | opt T ih =>
    intro pl j d hr hn hw _
    obtain ⟨e, he, hw⟩ := walks_opt hw
    have : ∃ nulls d', d = .nullable nulls d' ∧ d'.sqlType = e := by
      cases d <;> first | (exact False.elim hn) | (simp [Col.sqlType] at he)
      exact ⟨_, _, rfl, he⟩
    obtain ⟨nulls, d', rfl, rfl⟩ := this
    obtain ⟨hf, hl, hn⟩ := hn
    obtain ⟨r, h1, h2⟩ := scalar_exact (zones := zones) (c := c) hn hw fun s => route_plain (.present hr) (Nat.zero_le _)
    have hlen : nulls.length = r.items.length := by
      obtain ⟨n, g1, g2, _⟩ := h2
      rw [hl] at g1
      injection g1 with g1
      omega
    refine ⟨nullRun nulls r, ?_, null_agrees h2 hf hlen⟩
    have hg : c.getInternal 2 (SqlType.nullable d'.sqlType).level 0 = .ok (.flags nulls) := by
      refine (route_plain hr (Nat.le_refl _)).trans ?_
      simp [Col.getInternal, Col.sqlType, Col.len, hl]
    rw [Col.sqlType, iterWith, h1, hg]
    rfl
  | hmap K V ihk ihv =>
    intro pl j d hr hn hw _
    obtain ⟨k, v, he, hpl, hk, hw⟩ := walks_map hw
    have : ∃ offs k' v', d = .map offs k' v' ∧ k'.sqlType = k ∧ v'.sqlType = v := by
      cases d <;> first | (exact False.elim hn) | (simp [Col.sqlType] at he)
      exact ⟨_, _, _, rfl, he⟩
    obtain ⟨offs, k', v', rfl, rfl, rfl⟩ := this
    obtain ⟨hl, hg'⟩ := route_keys hr hpl
    obtain ⟨kr, h1, h2⟩ := key_exact (zones := zones) (c := c) hn.1 hk hg'
    obtain ⟨vr, h3, h4⟩ := ihv .chain (j + 1) v' (.value hr hpl) hn.2 hw (fun h => by simp at h)
    refine ⟨mapRun 0 offs kr vr, ?_, map_agrees h2.agrees h4⟩
    have hg : c.getInternal 2 (SqlType.map k'.sqlType v'.sqlType).level 0 = .ok (.offs offs) := by
      refine (route_plain hr (Nat.le_refl _)).trans ?_
      simp [Col.getInternal, Col.sqlType]
    rw [Col.sqlType, iterWith, if_neg hl, h1, h3, hg]
    rfl
  | _ =>
    intro pl j d hr hn hw ht
    exact scalar _ pl j d hr hn hw (by simp) (by simp) (by simp) ht

/-! ### Dates, times and low cardinality -/

theorem runOf_map {α β : Type} (f : β → Except Stop Item) (g : α → β) : ∀ (as : List α), runOf f (as.map g) = runOf (fun a => f (g a)) as := by
  intro as
  induction as with
  | nil => rfl
  | cons a as ih => simp [runOf, ih]

theorem lc_agrees {T : ITy} {ity : IdxTy} {index : List Nat} {dict : Col} {vm : Option (List (Value × Nat))} {f : Nat → Except Stop Item}
    (h : ∀ j v, j ∈ index → dict.at j = .ok v → ∃ x, f j = .ok x ∧ Shows T v x) :
    Agrees T (.lowCard ity index dict vm) (runOf f index) := by
  have row : ∀ i v, (Col.lowCard ity index dict vm).at i = .ok v → ∃ j x, index[i]? = some j ∧ f j = .ok x ∧ Shows T v x := by
    intro i v hv
    rw [Col.at] at hv
    obtain ⟨j, h1, h2⟩ := obind_eq_ok hv
    have hj := idx_inv h1
    obtain ⟨x, hx, hs⟩ := h j v (List.mem_of_getElem? hj) h2
    exact ⟨j, x, hj, hx, hs⟩
  refine ⟨fun i v hall hv => ?_, fun n hn hall => ?_⟩
  · obtain ⟨j, x, hj, hx, hs⟩ := row i v hv
    refine ⟨x, runOf_get index i j x hj hx fun q b hq hb => ?_, hs⟩
    obtain ⟨w, hw⟩ := hall q (by omega)
    obtain ⟨j', y, hj', hy, _⟩ := row q w hw
    rw [hb] at hj'
    injection hj' with hj'
    subst hj'
    exact ⟨y, hy⟩
  · simp only [Col.len] at hn
    injection hn with hn
    subst hn
    apply runOf_all
    intro a ha
    obtain ⟨i, hi, hia⟩ := List.getElem_of_mem ha
    obtain ⟨w, hw⟩ := hall i hi
    obtain ⟨j, x, hj, hx, _⟩ := row i w hw
    rw [List.getElem?_eq_getElem hi, hia] at hj
    injection hj with hj
    subst hj
    exact ⟨x, hx⟩

theorem stamps_exact {T : ITy} {d : Col} {xs : List Nat} {f : Nat → Value} {F : Except Stop Nat → Except Stop Item}
    (hl : d.len = .ok xs.length) (ha : ∀ i, d.at i = (idx xs i >>= fun x => pure (f x)))
    (hs : ∀ x ∈ xs, ∃ y, F (.ok x) = .ok y ∧ Shows T (f x) y) : Exact T d (runOf F (stampRows none xs)) := by
  have row : ∀ i (hi : i < xs.length), (stampRows none xs)[i]? = some (.ok xs[i]) := by
    intro i hi
    simp [stampRows, hi, stampAt]
  have hlen : (stampRows none xs).length = xs.length := by simp [stampRows]
  have hall := runOf_all (f := F) (stampRows none xs) (by
    intro a ha
    obtain ⟨i, hi, hia⟩ := List.getElem_of_mem ha
    have := row i (by omega)
    rw [List.getElem?_eq_getElem hi, hia] at this
    injection this with this
    obtain ⟨y, hy, _⟩ := hs xs[i] (List.getElem_mem _)
    exact ⟨y, by rw [this]; exact hy⟩)
  refine ⟨xs.length, hl, by rw [hall.1, hlen], hall.2, fun i hi => ?_, fun i v h => ?_⟩
  · obtain ⟨y, hy, hsh⟩ := hs xs[i] (List.getElem_mem _)
    refine ⟨f xs[i], y, by rw [ha, idx_ok hi]; rfl, ?_, hsh⟩
    refine runOf_get _ i _ y (row i hi) hy fun j b hj hb => ?_
    rw [row j (by omega)] at hb
    injection hb with hb
    obtain ⟨y', hy', _⟩ := hs xs[j] (List.getElem_mem _)
    exact ⟨y', by rw [← hb]; exact hy'⟩
  · rw [ha] at h
    obtain ⟨x, h1, _⟩ := obind_eq_ok h
    exact (List.getElem?_eq_some_iff.mp (idx_inv h1)).1

theorem stamps_lc {T : ITy} {ity : IdxTy} {index xs : List Nat} {d : Col} {vm : Option (List (Value × Nat))} {f : Nat → Value}
    {F : Except Stop Nat → Except Stop Item} (ha : ∀ i, d.at i = (idx xs i >>= fun x => pure (f x)))
    (hs : ∀ x ∈ xs, ∃ y, F (.ok x) = .ok y ∧ Shows T (f x) y) : Agrees T (.lowCard ity index d vm) (runOf F (stampRows (some index) xs)) := by
  rw [stampRows, runOf_map]
  apply lc_agrees
  intro j v _ hv
  rw [ha] at hv
  obtain ⟨x, h1, h2⟩ := obind_eq_ok hv
  have hx := idx_inv h1
  injection h2 with h2
  obtain ⟨y, hy, hsh⟩ := hs x (List.mem_of_getElem? hx)
  refine ⟨y, ?_, h2 ▸ hsh⟩
  simp only [stampAt, hx]
  exact hy

theorem iterDate_east {zones : Zones} {tz : Tz} (h : East zones tz) (d : Nat) : iterDate zones tz d = d := by
  have := h ((d : Int) * 24 * 3600)
  unfold iterDate
  omega

theorem ticks_show {v : Int} {p : Nat} {tz : Tz} (h : TimelyCell (.dt64 v p tz)) :
    ∃ s n, toDatetime v p = .ok (s, n) ∧ Shows .time (.dt64 v p tz) (.time s n tz) ∧ Shows .naive (.dt64 v p tz) (.naive s n) := by
  obtain ⟨h1, h2, h3, h4⟩ := h
  obtain ⟨s, n, g1, g2, g3⟩ := toDatetime_ok h1 h2 h3 h4
  exact ⟨s, n, g1, .time64 h1 g2 g3, .naive64 h1 g2 g3⟩

/-- The dictionary of a low-cardinality column of a type that is stored as it is. -/
theorem dict_of {c : Col} {t : SqlType} (hn : Native c) (h : c.sqlType = .lowCard t) :
    ∃ ity index d vm, c = .lowCard ity index d vm ∧ d.sqlType = t ∧ Native d := by
  cases c <;> first | (exact False.elim hn) | (simp [Col.sqlType] at h)
  exact ⟨_, _, _, _, rfl, h, hn⟩

theorem top_run {zones : Zones} {c : Col} {T : ITy} (hn : Native c) (ht : TopIn T c.sqlType)
    (hz : T = .date → ∀ tz, dateZone c = some tz → East zones tz)
    (hu : T = .time ∨ T = .naive → ∀ i v, c.at i = .ok v → TimelyCell v) :
    ∃ r, iterWith zones c T c.sqlType 0 = .ok r ∧ Agrees T c r := by
  cases hc : c.sqlType with
  | lowCard t =>
    obtain ⟨ity, index, d, vm, rfl, hd, hnd⟩ := dict_of hn hc
    rw [hc] at ht
    cases T with
    | bytes =>
      cases t with
      | string =>
        have : ∃ xs, d = .str xs := by
          cases d <;> first | (exact ⟨_, rfl⟩) | (exact False.elim hnd) | (simp [Col.sqlType] at hd)
        obtain ⟨xs, rfl⟩ := this
        refine ⟨_, by rw [iterWith, Col.lcInternals]; rfl, lc_agrees ?_⟩
        intro j v _ hv
        obtain ⟨x, h1, h2⟩ := obind_eq_ok hv
        injection h2 with h2
        refine ⟨.bytes x, ?_, h2 ▸ .bytes⟩
        simp only [getString, idx_inv h1]
      | fixedString n =>
        have : ∃ buf, d = .fixed n buf := by
          cases d <;> first | (exact False.elim hnd) | (simp [Col.sqlType] at hd)
          subst hd
          exact ⟨_, rfl⟩
        obtain ⟨buf, rfl⟩ := this
        refine ⟨_, by rw [iterWith, Col.lcInternals]; rfl, lc_agrees ?_⟩
        intro j v _ hv
        obtain ⟨x, h1, h2⟩ := obind_eq_ok hv
        injection h2 with h2
        obtain ⟨_, h3, h4⟩ := slice_inv h1
        refine ⟨.bytes x, ?_, h2 ▸ .bytes⟩
        rw [getString, if_pos h3, h4, Nat.add_sub_cancel_left]
      | _ => exact False.elim ht
    | time =>
      cases t with
      | datetime =>
        have : ∃ tz xs, d = .datetime tz xs := by
          cases d <;> first | (exact ⟨_, _, rfl⟩) | (exact False.elim hnd) | (simp [Col.sqlType] at hd)
        obtain ⟨tz, xs, rfl⟩ := this
        refine ⟨_, rfl, stamps_lc (f := fun x => .datetime x tz) (fun i => rfl) fun x _ => ⟨_, rfl, .time⟩⟩
      | _ => exact False.elim ht
    | naive =>
      cases t with
      | datetime =>
        have : ∃ tz xs, d = .datetime tz xs := by
          cases d <;> first | (exact ⟨_, _, rfl⟩) | (exact False.elim hnd) | (simp [Col.sqlType] at hd)
        obtain ⟨tz, xs, rfl⟩ := this
        refine ⟨_, rfl, stamps_lc (f := fun x => .datetime x tz) (fun i => rfl) fun x _ => ⟨_, rfl, .naive⟩⟩
      | _ => exact False.elim ht
    | date =>
      cases t with
      | date =>
        have : ∃ tz xs, d = .date tz xs := by
          cases d <;> first | (exact ⟨_, _, rfl⟩) | (exact False.elim hnd) | (simp [Col.sqlType] at hd)
        obtain ⟨tz, xs, rfl⟩ := this
        have he := hz rfl tz rfl
        refine ⟨_, rfl, stamps_lc (f := .date) (fun i => rfl) fun x _ => ⟨_, rfl, ?_⟩⟩
        show Shows _ _ (.date (iterDate zones tz x))
        rw [iterDate_east he]
        exact .date
      | _ => exact False.elim ht
    | _ => exact False.elim ht
  | datetime =>
    have : ∃ tz xs, c = .datetime tz xs := by
      cases c <;> first | (exact ⟨_, _, rfl⟩) | (exact False.elim hn) | (simp [Col.sqlType] at hc)
    obtain ⟨tz, xs, rfl⟩ := this
    cases T with
    | time => exact ⟨_, rfl, (stamps_exact (f := fun x => .datetime x tz) rfl (fun i => rfl) fun x _ => ⟨_, rfl, .time⟩).agrees⟩
    | naive => exact ⟨_, rfl, (stamps_exact (f := fun x => .datetime x tz) rfl (fun i => rfl) fun x _ => ⟨_, rfl, .naive⟩).agrees⟩
    | _ => exact False.elim ht
  | dt64 p z =>
    have : ∃ xs, c = .dt64 p z xs := by
      cases c <;> first | (exact False.elim hn) | (simp [Col.sqlType] at hc)
      obtain ⟨rfl, rfl⟩ := hc
      exact ⟨_, rfl⟩
    obtain ⟨xs, rfl⟩ := this
    have hcell : (∀ i v, (Col.dt64 p z xs).at i = .ok v → TimelyCell v) → ∀ x ∈ xs, TimelyCell (.dt64 (toSigned 8 x) p z) := by
      intro hu x hx
      obtain ⟨i, hi, hix⟩ := List.getElem_of_mem hx
      apply hu i
      rw [Col.at, idx_ok hi, hix]
      rfl
    cases T with
    | time =>
      refine ⟨_, rfl, (stamps_exact (f := fun x => .dt64 (toSigned 8 x) p z) rfl (fun i => rfl) fun x hx => ?_).agrees⟩
      obtain ⟨s, n, h1, h2, _⟩ := ticks_show (hcell (hu (Or.inl rfl)) x hx)
      refine ⟨.time s n z, ?_, h2⟩
      simp only [Except.bind, iterTime, h1]
    | naive =>
      refine ⟨_, rfl, (stamps_exact (f := fun x => .dt64 (toSigned 8 x) p z) rfl (fun i => rfl) fun x hx => ?_).agrees⟩
      obtain ⟨s, n, h1, _, h2⟩ := ticks_show (hcell (hu (Or.inr rfl)) x hx)
      refine ⟨.naive s n, ?_, h2⟩
      simp only [Except.bind, iterNaive, h1]
    | _ => exact False.elim ht
  | date =>
    have : ∃ tz xs, c = .date tz xs := by
      cases c <;> first | (exact ⟨_, _, rfl⟩) | (exact False.elim hn) | (simp [Col.sqlType] at hc)
    obtain ⟨tz, xs, rfl⟩ := this
    cases T with
    | date =>
      have he := hz rfl tz rfl
      refine ⟨_, rfl, (stamps_exact (f := .date) rfl (fun i => rfl) fun x _ => ⟨_, rfl, ?_⟩).agrees⟩
      show Shows _ _ (.date (iterDate zones tz x))
      rw [iterDate_east he]
      exact .date
    | _ => exact False.elim ht
  | _ =>
    rw [hc] at ht
    cases T <;> exact False.elim ht

/-- Iterating a whole column. -/
theorem iter_agrees {zones : Zones} {c : Col} {T : ITy} (hn : Native c) (hw : Walks .top T c.sqlType) (hk : Clocks zones T c) :
    ∃ r, c.iter zones T = .ok r ∧ Agrees T c r :=
  walk T .top 0 c .here hn hw fun _ ht => top_run hn ht hk.1 hk.2

/-! ### A part of a column is iterated as if it were a column of its own -/

theorem part_route {c d : Col} {pl : Place} (h : Part c pl d) : ∃ j, Route c pl j d := by
  induction h with
  | self => exact ⟨0, .here⟩
  | elems _ ih => obtain ⟨j, h⟩ := ih; exact ⟨j, .elems h⟩
  | values _ hp ih => obtain ⟨j, h⟩ := ih; exact ⟨j + 1, .value h hp⟩
  | present _ ih => obtain ⟨j, h⟩ := ih; exact ⟨j, .present h⟩

theorem key_same {zones : Zones} {c d : Col} {T : ITy} {props : Nat} {ty : SqlType} (hk : KeyIn T ty)
    (hg : ∀ s, c.getInternal s 0 props = d.getInternal s 0 0) : iterWith zones c T ty props = iterWith zones d T ty 0 := by
  cases T with
  | num t => rw [iterWith, iterWith, hg]
  | ip k => rw [iterWith, iterWith, hg]
  | bytes =>
    have hb : ty = .string := hk
    subst hb
    rw [iterWith, iterWith, hg]
  | _ => exact False.elim hk

theorem scalar_same {zones : Zones} {c d : Col} {T : ITy} {ty : SqlType} (hk : ScalarIn T ty)
    (hg : ∀ s, c.getInternal s 0 0 = d.getInternal s 0 0) : iterWith zones c T ty 0 = iterWith zones d T ty 0 := by
  by_cases hk' : KeyIn T ty
  · exact key_same hk' hg
  · cases T with
    | bytes =>
      cases ty with
      | fixedString n => rw [iterWith, iterWith, hg]
      | _ => exact absurd hk hk'
    | decimal =>
      cases ty with
      | decimal p s => rw [iterWith, iterWith, hg]
      | _ => exact absurd hk hk'
    | _ => exact absurd hk hk'

theorem walks_chain {T : ITy} : ∀ {pl : Place} {ty : SqlType}, pl ≠ .top → Walks pl T ty → Walks .chain T ty := by
  intro pl ty hp hw
  cases pl with
  | top => exact absurd rfl hp
  | chain => exact hw
  | deep =>
    cases T with
    | vec T =>
      obtain ⟨e, rfl, hw⟩ := walks_vec hw
      exact hw
    | hmap K V =>
      obtain ⟨k, v, rfl, h, _⟩ := walks_map hw
      exact absurd rfl h
    | opt T =>
      obtain ⟨e, rfl, hw⟩ := walks_opt hw
      exact hw
    | _ => exact hw

theorem elems_ne_top (pl : Place) : pl.elems ≠ .top := by cases pl <;> simp [Place.elems]

theorem part_same {zones : Zones} {c : Col} : ∀ (T : ITy) (pl : Place) (j : Nat) (d : Col), Route c pl j d → Native d →
    Walks pl T d.sqlType → iterWith zones c T d.sqlType 0 = iterWith zones d T d.sqlType 0 := by
  have scalar : ∀ (T : ITy) (c : Col) (pl : Place) (j : Nat) (d : Col), Route c pl j d → Walks pl T d.sqlType →
      (∀ U, T ≠ .vec U) → (∀ U, T ≠ .opt U) → (∀ K V, T ≠ .hmap K V) →
      iterWith zones c T d.sqlType 0 = iterWith zones d T d.sqlType 0 := by
    intro T c pl j d hr hw h1 h2 h3
    rcases walks_scalar hw h1 h2 h3 with h | ⟨h, h'⟩
    · exact scalar_same h fun s => route_plain hr (Nat.zero_le _)
    · rw [((route_level hr).1 h).1]
  intro T
  induction T generalizing c with
  | vec T ih =>
    intro pl j d hr hn hw
    obtain ⟨e, he, hw⟩ := walks_vec hw
    have : ∃ offs d', d = .array offs d' ∧ d'.sqlType = e := by
      cases d <;> first | (exact False.elim hn) | (simp [Col.sqlType] at he)
      exact ⟨_, _, rfl, he⟩
    obtain ⟨offs, d', rfl, rfl⟩ := this
    have h1 := ih pl.elems j d' (.elems hr) hn hw
    have h2 := ih (c := .array offs d') .chain 0 d' (.elems .here) hn (walks_chain (elems_ne_top pl) hw)
    rw [Col.sqlType, iterWith, iterWith, h1, h2]
    exact congrArg (fun x => iterWith zones d' T d'.sqlType 0 >>= fun r => x >>= fun s => pure (s.asArray r))
      (route_plain hr (Nat.le_refl _))
  | opt T ih =>
    intro pl j d hr hn hw
    obtain ⟨e, he, hw⟩ := walks_opt hw
    have : ∃ nulls d', d = .nullable nulls d' ∧ d'.sqlType = e := by
      cases d <;> first | (exact False.elim hn) | (simp [Col.sqlType] at he)
      exact ⟨_, _, rfl, he⟩
    obtain ⟨nulls, d', rfl, rfl⟩ := this
    have h1 : iterWith zones c T d'.sqlType 0 = iterWith zones d' T d'.sqlType 0 :=
      scalar_same hw fun s => route_plain (.present hr) (Nat.zero_le _)
    have h2 : iterWith zones (.nullable nulls d') T d'.sqlType 0 = iterWith zones d' T d'.sqlType 0 :=
      scalar_same hw fun s => route_plain (Route.present (nulls := nulls) (d := d') .here) (Nat.zero_le _)
    rw [Col.sqlType, iterWith, iterWith, h1, h2]
    exact congrArg (fun x => iterWith zones d' T d'.sqlType 0 >>= fun r => x >>= fun s => pure (s.asFlags r))
      (route_plain hr (Nat.le_refl _))
  | hmap K V ihk ihv =>
    intro pl j d hr hn hw
    obtain ⟨k, v, he, hpl, hk, hw⟩ := walks_map hw
    have : ∃ offs k' v', d = .map offs k' v' ∧ k'.sqlType = k ∧ v'.sqlType = v := by
      cases d <;> first | (exact False.elim hn) | (simp [Col.sqlType] at he)
      exact ⟨_, _, _, rfl, he⟩
    obtain ⟨offs, k', v', rfl, rfl, rfl⟩ := this
    obtain ⟨hl, hg⟩ := route_keys hr hpl
    obtain ⟨hl', hg'⟩ := route_keys (Route.here (c := .map offs k' v')) (by simp)
    have h1 := ihv .chain (j + 1) v' (.value hr hpl) hn.2 hw
    have h2 := ihv (c := .map offs k' v') .chain 1 v' (.value .here (by simp)) hn.2 hw
    rw [Col.sqlType, iterWith, iterWith, if_neg hl, if_neg hl', key_same hk hg, key_same hk hg', h1, h2]
    exact congrArg (fun x => iterWith zones k' K k'.sqlType 0 >>= fun kr => iterWith zones v' V v'.sqlType 0 >>= fun vr =>
      x >>= fun s => pure (s.asMap kr vr)) (route_plain hr (Nat.le_refl _))
  | num t => intro pl j d hr _ hw; exact scalar _ _ pl j d hr hw (by simp) (by simp) (by simp)
  | ip k => intro pl j d hr _ hw; exact scalar _ _ pl j d hr hw (by simp) (by simp) (by simp)
  | bytes => intro pl j d hr _ hw; exact scalar _ _ pl j d hr hw (by simp) (by simp) (by simp)
  | decimal => intro pl j d hr _ hw; exact scalar _ _ pl j d hr hw (by simp) (by simp) (by simp)
  | time => intro pl j d hr _ hw; exact scalar _ _ pl j d hr hw (by simp) (by simp) (by simp)
  | naive => intro pl j d hr _ hw; exact scalar _ _ pl j d hr hw (by simp) (by simp) (by simp)
  | date => intro pl j d hr _ hw; exact scalar _ _ pl j d hr hw (by simp) (by simp) (by simp)

/-! ### Concatenated columns -/

theorem run_append_done {a b : Run} (h : a.stop = .done) : a.append b = ⟨a.items ++ b.items, b.stop⟩ := by
  simp [Run.append, h]

theorem complex_ok {zones : Zones} {T : ITy} {t : SqlType} : ∀ (cs : List Col) (ls : List Nat), cs.map Col.len = ls.map .ok →
    (∀ c ∈ cs, c.sqlType = t) → (∀ c ∈ cs, ∀ n, c.len = .ok n → ∃ items, c.iter zones T = .ok ⟨items, .done⟩ ∧ Lists T c.at n items) →
    ∃ items, complexRun zones T t cs = ⟨items, .done⟩ ∧ items.length = ls.sum ∧
      ∀ (k r : Nat) (v : Value) (hk : k < cs.length) (hk' : k < ls.length), r < ls[k] → cs[k].at r = .ok v →
        ∃ x, items[(ls.take k).sum + r]? = some x ∧ Shows T v x := by
  intro cs
  induction cs with
  | nil =>
    intro ls hl _ _
    cases ls with
    | nil => exact ⟨[], rfl, rfl, fun k r v hk => by simp at hk⟩
    | cons l ls => simp at hl
  | cons c cs ih =>
    intro ls hl ht h
    cases ls with
    | nil => simp at hl
    | cons l ls =>
      simp only [List.map_cons, List.cons.injEq] at hl
      obtain ⟨items', g1, g2, g3⟩ := ih ls hl.2 (fun d hd => ht d (by simp [hd])) (fun d hd => h d (by simp [hd]))
      by_cases h0 : l = 0
      · subst h0
        refine ⟨items', by rw [complexRun, hl.1]; simp [g1], by simp [g2], fun k r v hk hk' hr hv => ?_⟩
        cases k with
        | zero => simp at hr
        | succ k =>
          simpa using g3 k r v (by simpa using hk) (by simpa using hk') (by simpa using hr) (by simpa using hv)
      · obtain ⟨items, e1, e2, e3⟩ := h c (by simp) l hl.1
        have e1' : iterWith zones c T t 0 = .ok ⟨items, .done⟩ := by rw [← ht c (by simp)]; exact e1
        refine ⟨items ++ items', ?_, by simp [g2, e2], fun k r v hk hk' hr hv => ?_⟩
        · rw [complexRun, hl.1]
          simp only [if_neg h0, e1', run_append_done, g1]
        · cases k with
          | zero =>
            simp only [List.getElem_cons_zero] at hr hv
            obtain ⟨x, h1, h2⟩ := e3 r v hr hv
            refine ⟨x, ?_, h2⟩
            simp only [List.take_zero, List.sum_nil, Nat.zero_add]
            rw [List.getElem?_append_left (by omega)]
            exact h1
          | succ k =>
            obtain ⟨x, h1, h2⟩ := g3 k r v (by simpa using hk) (by simpa using hk') (by simpa using hr) (by simpa using hv)
            refine ⟨x, ?_, h2⟩
            rw [List.getElem?_append_right (by simp; omega)]
            rw [← h1]
            congr 1
            simp
            omega

theorem locate : ∀ (ls : List Nat) (i : Nat), i < ls.sum → ∃ k r, ∃ h : k < ls.length, r < ls[k] ∧ i = (ls.take k).sum + r := by
  intro ls
  induction ls with
  | nil => intro i h; simp at h
  | cons l ls ih =>
    intro i h
    simp only [List.sum_cons] at h
    by_cases hi : i < l
    · exact ⟨0, i, by simp, by simpa using hi, by simp⟩
    · obtain ⟨k, r, hk, hr, e⟩ := ih (i - l) (by omega)
      exact ⟨k + 1, r, by simpa using hk, by simpa using hr, by simp; omega⟩

end CH
