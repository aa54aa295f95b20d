import Verif.Lemmas.From
import Verif.Props.Iter

/-! Lemmas on addresses, dates and timestamps going through columns. -/

namespace CH

open CH.Spec

theorem onWire_encode {k : IpKind} {o : Bytes} (h : o.length = k.size) : OnWire k o (encodeIp k o) := by
  cases k with
  | v4 =>
    match o, h with
    | [a, b, c, d], _ => exact .v4
  | v6 => exact .v6 h
  | uuid =>
    have h : o.length = 16 := h
    have := OnWire.uuid (x := o.take 8) (y := o.drop 8) (by simp; omega) (by simp; omega)
    rwa [List.take_append_drop] at this

theorem onWire_inv {k : IpKind} {o w : Bytes} (h : OnWire k o w) : o.length = k.size ∧ w = encodeIp k o := by
  cases h with
  | v4 => exact ⟨rfl, rfl⟩
  | v6 h => exact ⟨h, rfl⟩
  | uuid hx hy =>
    refine ⟨by rw [List.length_append, hx, hy]; rfl, ?_⟩
    rw [encodeIp, ← hx, List.take_left, List.drop_left]

theorem allOnWire_encode {k : IpKind} : ∀ {os : List Bytes}, (∀ o ∈ os, o.length = k.size) →
    AllOnWire k os (os.map (encodeIp k)).flatten := by
  intro os
  induction os with
  | nil => intro _; exact .nil
  | cons o os ih =>
    intro h
    exact .cons (onWire_encode (h o (by simp))) (ih fun x hx => h x (by simp [hx]))

theorem allOnWire_inv {k : IpKind} {os : List Bytes} {ws : Bytes} (h : AllOnWire k os ws) :
    (∀ o ∈ os, o.length = k.size) ∧ ws = (os.map (encodeIp k)).flatten := by
  induction h with
  | nil => exact ⟨by simp, rfl⟩
  | cons h1 _ ih =>
    obtain ⟨h2, rfl⟩ := onWire_inv h1
    refine ⟨fun o ho => ?_, by rw [ih.2]; rfl⟩
    rcases List.mem_cons.mp ho with rfl | ho
    · exact h2
    · exact ih.1 o ho

theorem encoded_length {k : IpKind} {os : List Bytes} (h : ∀ o ∈ os, o.length = k.size) :
    (os.map (encodeIp k)).flatten.length = os.length * k.size := by
  rw [flatten_length (k := k.size)]
  · simp
  · intro w hw
    obtain ⟨o, ho, rfl⟩ := List.mem_map.mp hw
    exact encodeIp_length (h o ho)

/-- The item shown for an address is the address. -/
theorem shows_ip {k : IpKind} {o : Bytes} {x : Item} (h : o.length = k.size) (hs : Shows (.ip k) (.ip k (encodeIp k o)) x) :
    x = .ip k o := by
  cases k with
  | v4 =>
    match o, h with
    | [a, b, c, d], _ =>
      cases hs
      rfl
  | v6 => cases hs; rfl
  | uuid =>
    have h : o.length = 16 := h
    generalize hw : encodeIp .uuid o = w at hs
    cases hs with
    | uuid hx hy =>
      rename_i x y
      rw [encodeIp] at hw
      obtain ⟨e1, e2⟩ := List.append_inj hw (by simp; omega)
      rw [List.reverse_inj] at e1 e2
      rw [← e1, ← e2, List.take_append_drop]

/-- What an iterator yields, when the cells determine the items. -/
theorem iter_map {zones : Zones} {c : Col} {T : ITy} {xs : List α} {f : α → Item} (hn : Native c) (hw : Walks .top T c.sqlType)
    (hk : Clocks zones T c) (hl : c.len = .ok xs.length)
    (ha : ∀ i (hi : i < xs.length), ∃ v, c.at i = .ok v ∧ ∀ x, Shows T v x → x = f xs[i]) :
    c.iter zones T = .ok ⟨xs.map f, .done⟩ := by
  obtain ⟨items, h1, h2, h3⟩ := CH.Props.C23_partial hn hw hk hl fun i hi => ⟨_, (ha i hi).choose_spec.1⟩
  rw [h1]
  congr 2
  refine List.ext_getElem (by simpa using h2) fun i hi hi' => ?_
  have hi' : i < xs.length := by simpa using hi'
  obtain ⟨v, hv, g⟩ := ha i hi'
  obtain ⟨x, hx, hs⟩ := h3 i v hi' hv
  rw [List.getElem?_eq_getElem hi] at hx
  injection hx with hx
  rw [hx, g x hs, List.getElem_map]

theorem ip_iter {zones : Zones} {k : IpKind} {os : List Bytes} (h : ∀ o ∈ os, o.length = k.size) :
    (Col.ip k (os.map (encodeIp k)).flatten).iter zones (.ip k) = .ok ⟨os.map (.ip k), .done⟩ := by
  obtain ⟨c, h1, h2, h3⟩ := colOf_ok (b := .ip k) (xs := os) h trivial
  injection h1 with h1
  subst h1
  refine iter_map (by rw [Native, encoded_length h, Nat.mul_mod_left]) (Or.inr rfl) ⟨by simp, by simp⟩ h2 fun i hi =>
    ⟨_, h3 i hi, fun x hx => shows_ip (h _ (List.getElem_mem hi)) hx⟩

/-- The item of an optional address. -/
def optItem (k : IpKind) : Option Bytes → Item
  | none => .none
  | some o => .some (.ip k o)

theorem opt_ip_iter {zones : Zones} {k : IpKind} {xs : List (Option Bytes)} (h : ∀ o, some o ∈ xs → o.length = k.size) :
    ∃ c, optOf (.ip k) xs = .ok c ∧ c.iter zones (.opt (.ip k)) = .ok ⟨xs.map (optItem k), .done⟩ := by
  obtain ⟨c, h1, h2, h3⟩ := optOf_ok (b := .ip k) (xs := xs) h trivial
  refine ⟨c, h1, ?_⟩
  injection h1 with h1
  subst h1
  have hl : ∀ w ∈ xs.map (encodeOptIp k),
      w.length = k.size := by
    intro w hw
    obtain ⟨o, ho, rfl⟩ := List.mem_map.mp hw
    cases o with
    | none => simp [encodeOptIp]
    | some x => exact encodeIp_length (h x ho)
  have hf := flatten_length hl
  refine iter_map ⟨fun f hf => ?_, ?_, ?_⟩ (by exact rfl) ⟨by simp, by simp⟩ h2 fun i hi => ?_
  · obtain ⟨o, _, rfl⟩ := List.mem_map.mp hf
    cases o <;> simp
  · rw [Col.len, hf]
    simp [Nat.mul_div_cancel _ (size_pos k), flagsOf]
  · rw [Native, hf, Nat.mul_mod_left]
  · obtain ⟨t, ht⟩ := h3 i hi
    refine ⟨_, ht, fun x hx => ?_⟩
    have hm := List.getElem_mem hi
    generalize xs[i] = o at hm hx ⊢
    cases o with
    | none => cases hx; rfl
    | some o =>
      cases hx with
      | some hs => rw [shows_ip (h o hm) hs, optItem]

theorem date_iter {zones : Zones} {tz : Tz} (he : East zones tz) (xs : List Nat) :
    (Col.date tz xs).iter zones .date = .ok ⟨xs.map fun d : Nat => .date (d : Int), .done⟩ := by
  refine iter_map trivial (Or.inl trivial) ⟨fun _ z hz => ?_, by simp⟩ rfl fun i hi =>
    ⟨.date xs[i], by rw [Col.at, idx_ok hi]; rfl, fun x hx => by cases hx; rfl⟩
  simp only [dateZone, Option.some.injEq] at hz
  subst hz
  exact he

/-- A tick of `10^-p` seconds is the truncation of the instant. -/
theorem tick_drops {t : Int} {p : Nat} (h : 0 ≤ t ∨ (10 : Int) ^ (9 - p) ∣ t) :
    Drops p t (Int.tdiv t (10 ^ (9 - p)) * 10 ^ (9 - p)) := by
  have hu : (0 : Int) < 10 ^ (9 - p) := Int.pow_pos (by omega)
  unfold Drops
  generalize (10 : Int) ^ (9 - p) = u at *
  have e := Int.tdiv_mul_add_tmod t u
  refine ⟨?_, ?_, Int.dvd_mul_left _ _⟩
  · rcases h with h | h
    · have := Int.tmod_nonneg u h; omega
    · have := Int.tmod_eq_zero_of_dvd h; omega
  · rcases h with h | h
    · have := Int.tmod_lt_of_pos t hu; omega
    · have := Int.tmod_eq_zero_of_dvd h; omega

theorem tick_bounds {t u : Int} (hu : 0 < u) (h1 : -(2 ^ 63) ≤ t) (h2 : t < 2 ^ 63) :
    (-(2 ^ 63) ≤ Int.tdiv t u ∧ Int.tdiv t u < 2 ^ 63) ∧ -(2 ^ 63) ≤ Int.tdiv t u * u ∧ Int.tdiv t u * u < 2 ^ 63 := by
  have e := Int.tdiv_mul_add_tmod t u
  rcases Int.le_total 0 t with h | h
  · have a := Int.tdiv_nonneg h (Int.le_of_lt hu)
    have b := Int.tmod_nonneg u h
    have c := Int.mul_le_mul_of_nonneg_left (show 1 ≤ u by omega) a
    omega
  · have a : Int.tdiv t u ≤ 0 := by
      have := Int.tdiv_nonneg (a := -t) (b := u) (by omega) (Int.le_of_lt hu)
      rw [Int.neg_tdiv] at this; omega
    have b : Int.tmod t u ≤ 0 := by
      have := Int.tmod_nonneg u (a := -t) (by omega)
      rw [Int.neg_tmod] at this; omega
    have c := Int.mul_le_mul_of_nonneg_left (show 1 ≤ u by omega) (show 0 ≤ -Int.tdiv t u by omega)
    rw [Int.neg_mul, Int.neg_mul] at c
    omega

/-- Ticks of an instant within the range of `i64` nanoseconds. -/
theorem ticks_ok {s : Int} {n p : Nat} (hp : p ≤ 9) (h1 : -(2 ^ 63) ≤ s * 1000000000 + n) (h2 : s * 1000000000 + n < 2 ^ 63) :
    fromDatetime s n p = .ok (Int.tdiv (s * 1000000000 + n) (10 ^ (9 - p))) := by
  unfold fromDatetime
  have hc : checkI64 (s * 1000000000 + n) = .ok (s * 1000000000 + n) := by
    rw [checkI64, if_pos]
    simp only [i64Min, i64Max]
    omega
  rw [hc, obind_ok, if_pos hp]
  rfl

/-- A tick read back, from the 64 bits stored. -/
theorem tick_back {s : Int} {n p : Nat} {tz : Tz} (hp : p ≤ 9) (h1 : -(2 ^ 63) ≤ s * 1000000000 + n) (h2 : s * 1000000000 + n < 2 ^ 63)
    (h3 : 0 ≤ s ∨ n = 0) : ∃ v s' n', fromDatetime s n p = .ok v ∧
      fromSql .time (.dt64 (toSigned 8 (ofSigned 8 v)) p tz) = .ok (.time s' n' tz) ∧ n' < 1000000000 ∧
      Drops p (s * 1000000000 + n) (s' * 1000000000 + n') := by
  have hu : (0 : Int) < 10 ^ (9 - p) := Int.pow_pos (by omega)
  obtain ⟨⟨b1, b2⟩, b3, b4⟩ := tick_bounds hu h1 h2
  have hdvd : (10 : Int) ^ (9 - p) ∣ 1000000000 := by
    refine ⟨10 ^ p, ?_⟩
    rw [← Int.pow_add, Nat.sub_add_cancel hp]
    rfl
  obtain ⟨s', n', g1, g2, g3⟩ := toDatetime_ok (v := Int.tdiv (s * 1000000000 + n) (10 ^ (9 - p))) hp b3 (by omega) (by
    rcases h3 with h | h
    · exact Or.inl (Int.tdiv_nonneg (by omega) (Int.le_of_lt hu))
    · subst h
      refine Or.inr ?_
      rw [Int.tdiv_mul_cancel]
      · simp
      · simpa using Int.dvd_mul_of_dvd_right hdvd)
  refine ⟨_, s', n', ticks_ok hp h1 h2, ?_, g2, ?_⟩
  · rw [signed_back (w := 8) (by omega) ⟨b1, b2⟩, fromSql, g1]
    rfl
  · rw [g3]
    refine tick_drops ?_
    rcases h3 with h | h
    · exact Or.inl (by omega)
    · subst h
      exact Or.inr (by simpa using Int.dvd_mul_of_dvd_right hdvd)

end CH
