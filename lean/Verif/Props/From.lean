import Verif.Lemmas.Stamp

/-! Columns built from Rust values (C64), addresses (C27), dates (C28) and timestamps (C29). -/

namespace CH.Props

open CH CH.Spec

/-! ### C64: a column built from Rust values gives the values back -/

/-- C64 for plain elements. Missing (shown to fail below): dates and times out of range, fractions of seconds, decimals of
different scales. -/
theorem C64_partial {b : Base} {xs : List b.El} (h : ∀ x ∈ xs, Stored b x) (hs : SameScale b xs) :
    ∃ c, colOf b xs = .ok c ∧ c.len = .ok xs.length ∧ ∀ (i : Nat) x, xs[i]? = some x →
      ∃ v r, c.at i = .ok v ∧ fromSql (reads b) v = .ok r ∧ Back b x r := by
  obtain ⟨c, h1, h2, h3⟩ := colOf_ok h hs
  refine ⟨c, h1, h2, fun i x hx => ?_⟩
  obtain ⟨hi, rfl⟩ := List.getElem?_eq_some_iff.mp hx
  obtain ⟨r, g1, g2⟩ := cell_back (xs := xs) (h _ (List.getElem_mem hi))
  exact ⟨_, r, h3 i hi, g1, g2⟩

/-- Two prices of scale 2, one negative. -/
example : (∀ x ∈ [(⟨-150, .n32, 9, 2⟩ : Decimal), ⟨7, .n64, 18, 2⟩], Stored .decimal x) ∧
    SameScale .decimal [⟨-150, .n32, 9, 2⟩, ⟨7, .n64, 18, 2⟩] := by
  constructor
  · simp [Stored]
  · simp [SameScale]

/-- C64 for optional elements: `None` is read as `None`, `Some(x)` as `Some(x)`. -/
theorem C64_optional_partial {b : Base} {xs : List (Option b.El)} (h : ∀ x, some x ∈ xs → Stored b x)
    (hs : SameScale b (xs.filterMap id)) :
    ∃ c, optOf b xs = .ok c ∧ c.len = .ok xs.length ∧
      (∀ i : Nat, xs[i]? = some none → ∃ v, c.at i = .ok v ∧ fromSql (.opt (reads b)) v = .ok .none) ∧
      ∀ (i : Nat) x, xs[i]? = some (some x) → ∃ v r, c.at i = .ok v ∧ fromSql (.opt (reads b)) v = .ok (.some r) ∧ Back b x r := by
  obtain ⟨c, h1, h2, h3⟩ := optOf_ok h hs
  refine ⟨c, h1, h2, fun i hx => ?_, fun i x hx => ?_⟩
  · obtain ⟨hi, hx⟩ := List.getElem?_eq_some_iff.mp hx
    obtain ⟨t, ht⟩ := h3 i hi
    exact ⟨_, ht, by rw [hx]; rfl⟩
  · have hm := List.mem_of_getElem? hx
    obtain ⟨hi, hx⟩ := List.getElem?_eq_some_iff.mp hx
    obtain ⟨t, ht⟩ := h3 i hi
    obtain ⟨r, g1, g2⟩ := cell_back (xs := xs.filterMap id) (h _ hm)
    refine ⟨_, r, ht, ?_, g2⟩
    rw [hx, optCell, fromSql, g1]
    rfl

/-- A missing and a present date, the last one the type has. -/
example : ∀ x, some x ∈ [none, some (65535 : Int)] → Stored .date x := by
  simp [Stored]

/-- C64 for vectors of numbers, text, dates, times and enums. Missing: vectors of addresses, bytes and decimals (no
`column_from`). -/
theorem C64_vectors_partial {b : Base} {T : Target} (hT : vecReads b = some T) {xs : List (List b.El)}
    (h : ∀ ys ∈ xs, ∀ y ∈ ys, Stored b y) :
    ∃ c, vecOf b xs = .ok c ∧ c.len = .ok xs.length ∧ ∀ (i : Nat) ys, xs[i]? = some ys →
      ∃ v rs, c.at i = .ok v ∧ fromSql T v = .ok (.vec rs) ∧ rs.length = ys.length ∧
        ∀ (j : Nat) y r, ys[j]? = some y → rs[j]? = some r → Back b y r := by
  obtain ⟨c, h1, h2, -, h3⟩ := vecOf_ok hT h
  refine ⟨c, h1, h2, fun i ys hy => ?_⟩
  obtain ⟨hi, rfl⟩ := List.getElem?_eq_some_iff.mp hy
  obtain ⟨rs, g⟩ := vec_back hT (h _ (List.getElem_mem hi))
  exact ⟨_, rs, h3 i hi, g⟩

/-- A row of two numbers and an empty row. -/
example : vecReads (.num .u16) = some (.vecNum .u16) ∧ ∀ ys ∈ [[1, 65535], []], ∀ y ∈ ys, Stored (.num .u16) y := by
  constructor
  · rfl
  · simp [Stored, NumTy.width]

/-- C64 for maps: keys are text or integers, all different in one map. -/
theorem C64_maps_partial {k v : Base} {T : Target} (hk : KeyBase k) (hv : vecReads v = some T) {xs : List (List (k.El × v.El))}
    (h : ∀ ps ∈ xs, ∀ p ∈ ps, Stored k p.1 ∧ Stored v p.2) (hd : ∀ ps ∈ xs, ps.Pairwise fun p q => p.1 ≠ q.1) :
    ∃ c, hashOf k v xs = .ok c ∧ c.len = .ok xs.length ∧ ∀ (i : Nat) ps, xs[i]? = some ps →
      ∃ u as bs, c.at i = .ok u ∧ fromSql (.hmap (reads k) (reads v)) u = .ok (.hmap as bs) ∧ as.length = ps.length ∧
        bs.length = ps.length ∧ ∀ (j : Nat) p a b, ps[j]? = some p → as[j]? = some a → bs[j]? = some b →
          Back k p.1 a ∧ Back v p.2 b := by
  obtain ⟨c, h1, h2, -, h3⟩ := hashOf_ok hk hv h hd
  refine ⟨c, h1, h2, fun i ps hp => ?_⟩
  obtain ⟨hi, rfl⟩ := List.getElem?_eq_some_iff.mp hp
  obtain ⟨as, bs, g⟩ := hash_back (keyBase_plain hk).1 (by rintro rfl; cases hv) (h _ (List.getElem_mem hi))
  exact ⟨_, as, bs, h3 i hi, g⟩

/-- `{"a": 1, "b": 2}` and `{}`. -/
example : KeyBase .text ∧ (∀ ps ∈ [[("a", 1), ("b", 2)], []], ∀ p ∈ ps, Stored .text p.1 ∧ Stored (.num .u8) p.2) ∧
    ∀ ps ∈ [[("a", 1), ("b", 2)], ([] : List (String × Nat))], ps.Pairwise fun p q => p.1 ≠ q.1 := by
  refine ⟨trivial, ?_, ?_⟩
  · simp only [List.mem_cons, List.not_mem_nil, or_false, forall_eq_or_imp, forall_eq, Stored, NumTy.width]
    simp
  · simp

/-- Decimals of different scales make `column_from` panic. -/
theorem C64_scales_violated : ∀ d e : Decimal, d.scale ≠ e.scale → ∀ ds, colOf .decimal (d :: e :: ds) = .panic := by
  intro d e h ds
  rw [colOf, commonScale, commonScale, if_pos h]
  rfl

example : (⟨1, .n64, 18, 2⟩ : Decimal).scale ≠ (⟨1, .n64, 18, 3⟩ : Decimal).scale := by decide

/-- A time with a fraction, or outside 1970 to 2106, is read back from the column as another time. -/
theorem C64_times_violated : ∀ (s : Int) (n : Nat) (z : Tz), n ≠ 0 ∨ s < 0 ∨ 2 ^ 32 ≤ s →
    ∃ c s' n', colOf .time [(s, n, z)] = .ok c ∧ (∃ v, c.at 0 = .ok v ∧ fromSql .time v = .ok (.time s' n' z)) ∧
      (s', n') ≠ (s, n) := by
  intro s n z h
  refine ⟨_, (asU32 s : Nat), 0, rfl, ⟨_, rfl, rfl⟩, fun e => ?_⟩
  simp only [Prod.mk.injEq] at e
  have : (asU32 s : Int) < 2 ^ 32 := by
    unfold asU32
    have := Int.emod_lt_of_pos s (show (0 : Int) < (2 ^ 32 : Nat) by decide)
    have := Int.emod_nonneg s (show ((2 ^ 32 : Nat) : Int) ≠ 0 by decide)
    omega
  omega

example : (1 : Nat) ≠ 0 ∨ (5 : Int) < 0 ∨ 2 ^ 32 ≤ (5 : Int) := by simp

/-- Maps with `bool` keys cannot be stored: hashing the key is unimplemented. -/
theorem C64_flags_violated : hashOf (.num .bool) (.num .u8) [[(1, 1)]] = .panic := rfl

/-! ### C27: addresses and UUIDs -/

/-- C27, storing: an address or UUID is read back by typed access and by iteration, and saved in the form the server uses. -/
theorem C27_stored {k : IpKind} {os : List Bytes} (h : ∀ o ∈ os, o.length = k.size) (zones : Zones) :
    ∃ c, colOf (.ip k) os = .ok c ∧
      (∀ (i : Nat) o, os[i]? = some o → ∃ v, c.at i = .ok v ∧ fromSql (.ip k) v = .ok (.ip o)) ∧
      c.iter zones (.ip k) = .ok ⟨os.map (.ip k), .done⟩ ∧
      ∃ ws, c.save 0 os.length = .ok ws ∧ AllOnWire k os ws := by
  obtain ⟨c, h1, h2, h3⟩ := C64_partial (b := .ip k) (xs := os) h trivial
  refine ⟨c, h1, fun i o ho => ?_, ?_, ?_⟩
  · obtain ⟨v, r, g1, g2, rfl⟩ := h3 i o ho
    exact ⟨v, g1, g2⟩
  · injection h1 with h1
    subst h1
    exact ip_iter h
  · injection h1 with h1
    subst h1
    refine ⟨_, ?_, allOnWire_encode h⟩
    rw [Col.save, slice_ok (by simp) (by rw [encoded_length h]; exact Nat.le_refl _), Nat.zero_mul, List.drop_zero, Nat.sub_zero, ← encoded_length h,
      List.take_length]

/-- Two addresses. -/
example : ∀ o ∈ [[127, 0, 0, 1], [10, 20, 30, (40 : UInt8)]], o.length = IpKind.v4.size := by simp [IpKind.size]

/-- C27, optional addresses and UUIDs. -/
theorem C27_optional {k : IpKind} {xs : List (Option Bytes)} (h : ∀ o, some o ∈ xs → o.length = k.size) (zones : Zones) :
    ∃ c, optOf (.ip k) xs = .ok c ∧
      (∀ (i : Nat) o, xs[i]? = some (some o) → ∃ v, c.at i = .ok v ∧ fromSql (.opt (.ip k)) v = .ok (.some (.ip o))) ∧
      (∀ i : Nat, xs[i]? = some none → ∃ v, c.at i = .ok v ∧ fromSql (.opt (.ip k)) v = .ok .none) ∧
      c.iter zones (.opt (.ip k)) = .ok ⟨xs.map fun o => o.elim .none fun o => .some (.ip k o), .done⟩ := by
  obtain ⟨c, h1, _, h3, h4⟩ := C64_optional_partial (b := .ip k) (xs := xs) h trivial
  obtain ⟨c', g1, g2⟩ := opt_ip_iter (zones := zones) h
  rw [h1] at g1
  injection g1 with g1
  subst g1
  refine ⟨c, h1, fun i o ho => ?_, h3, ?_⟩
  · obtain ⟨v, r, g1, g2, rfl⟩ := h4 i o ho
    exact ⟨v, g1, g2⟩
  · rw [g2]
    congr 3
    funext o
    cases o <;> rfl

example : ∀ o, some o ∈ [none, some [1, 2, 3, 4, 5, 6, 7, 8, 9, 10, 11, 12, 13, 14, 15, (16 : UInt8)]] →
    o.length = IpKind.uuid.size := by simp [IpKind.size]

/-- C27, receiving: the wire form the server uses is read as the address or UUID it stands for. -/
theorem C27_received {k : IpKind} {os : List Bytes} {ws : Bytes} (h : AllOnWire k os ws) (hl : os.length < 2 ^ 56) (rest : Bytes) (zones : Zones) :
    ∃ c, (Plan.ip k).load os.length (ws ++ rest) = .ok c rest ∧
      (∀ (i : Nat) o, os[i]? = some o → ∃ v, c.at i = .ok v ∧ fromSql (.ip k) v = .ok (.ip o)) ∧
      c.iter zones (.ip k) = .ok ⟨os.map (.ip k), .done⟩ := by
  obtain ⟨h1, rfl⟩ := allOnWire_inv h
  obtain ⟨c, g1, g2, g3, _⟩ := C27_stored h1 zones
  refine ⟨c, ?_, g2, g3⟩
  injection g1 with g1
  subst g1
  rw [Plan.load, bind_ok (alloc_ok (room hl (by cases k <;> decide)) _), bind_ok (readN_append' _ rest (encoded_length h1))]
  rfl

/-- `00112233-4455-6677-8899-aabbccddeeff`. -/
example : AllOnWire .uuid [[0x00, 0x11, 0x22, 0x33, 0x44, 0x55, 0x66, 0x77] ++ [0x88, 0x99, 0xaa, 0xbb, 0xcc, 0xdd, 0xee, 0xff]]
    ([0x77, 0x66, 0x55, 0x44, 0x33, 0x22, 0x11, 0x00] ++ [0xff, 0xee, 0xdd, 0xcc, 0xbb, 0xaa, 0x99, 0x88] ++ []) :=
  .cons (.uuid rfl rfl) .nil

/-! ### C28: dates -/

/-- C28, what can be represented: a date from 1970-01-01 to 2149-06-06 is read back by typed access from the column built, and
sent and received (with any server time zone `tz`); by iteration when the zone is not west of UTC. Missing: iteration west of UTC, dates out of range (both shown to
fail below). -/
theorem C28_partial {ds : List Int} (hl : ds.length < 2 ^ 56) (h : ∀ d ∈ ds, 0 ≤ d ∧ d < 65536) :
    ∃ c, colOf .date ds = .ok c ∧
      (∀ (i : Nat) d, ds[i]? = some d → ∃ v r, c.at i = .ok v ∧ fromSql .date v = .ok (.date r) ∧ (r : Int) = d) ∧
      ∃ ws, c.save 0 ds.length = .ok ws ∧ ∀ (tz : Tz) (rest : Bytes), ∃ c',
        (Plan.date tz).load ds.length (ws ++ rest) = .ok c' rest ∧
        (∀ (i : Nat) d, ds[i]? = some d → ∃ v r, c'.at i = .ok v ∧ fromSql .date v = .ok (.date r) ∧ (r : Int) = d) ∧
        ∀ zones, East zones tz → c'.iter zones .date = .ok ⟨ds.map .date, .done⟩ := by
  have typed : ∀ (tz : Tz) (i : Nat) d, ds[i]? = some d → ∃ v r, (Col.date tz (ds.map getDays)).at i = .ok v ∧
      fromSql .date v = .ok (.date r) ∧ (r : Int) = d := by
    intro tz i d hd
    obtain ⟨hi, rfl⟩ := List.getElem?_eq_some_iff.mp hd
    refine ⟨.date (getDays ds[i]), getDays ds[i], ?_, rfl, (getDays_of (h _ (List.getElem_mem hi))).1⟩
    rw [Col.at, idx_ok (by simpa using hi), List.getElem_map]
    rfl
  refine ⟨_, rfl, typed _, numsBytes 2 (ds.map getDays), ?_, fun tz rest => ⟨.date tz (ds.map getDays), ?_, typed tz,
    fun zones he => ?_⟩⟩
  · rw [Col.save, saveNums_ok (Nat.zero_le _) (by simp)]
    simp only [List.drop_zero, Nat.sub_zero]
    rw [← List.length_map (f := getDays), List.take_length]
  · rw [Plan.load]
    refine bind_ok (loadNums_put (fun x hx => ?_) rest (by simp) (room hl (by decide)))
    obtain ⟨d, hd, rfl⟩ := List.mem_map.mp hx
    exact (getDays_of (h d hd)).2
  · rw [date_iter he, List.map_map]
    congr 2
    refine List.map_congr_left fun d hd => ?_
    rw [Function.comp, (getDays_of (h d hd)).1]

/-- The first and the last date, in a zone two hours ahead. -/
example : (∀ d ∈ [(0 : Int), 65535], 0 ≤ d ∧ d < 65536) ∧ East (fun _ _ => 7200) [] := by
  constructor
  · simp
  · intro s; simp

/-- West of UTC every date is iterated as the day before. -/
theorem C28_west_violated : ∀ (zones : Zones) (tz : Tz), (∀ s, -86400 < zones tz s ∧ zones tz s < 0) → ∀ d : Nat,
    (Col.date tz [d]).at 0 = .ok (.date d) ∧ (Col.date tz [d]).iter zones .date = .ok ⟨[.date ((d : Int) - 1)], .done⟩ := by
  intro zones tz h d
  refine ⟨rfl, ?_⟩
  have : iterDate zones tz d = (d : Int) - 1 := by
    have := h (d * 24 * 3600)
    unfold iterDate
    omega
  rw [← this]
  rfl

example : ∀ s, -86400 < (fun _ _ => -18000 : Zones) [] s ∧ (fun _ _ => -18000 : Zones) [] s < 0 := by simp

/-- Every date before 1970-01-01 or after 2149-06-06 is silently replaced by another one. -/
theorem C28_range_violated : ∀ d : Int, d < 0 ∨ 65536 ≤ d → ∃ c v r, colOf .date [d] = .ok c ∧ c.at 0 = .ok v ∧
    fromSql .date v = .ok (.date r) ∧ (r : Int) ≠ d := by
  intro d h
  refine ⟨_, _, getDays d, rfl, rfl, rfl, ?_⟩
  unfold getDays
  omega

example : (-1 : Int) < 0 ∨ 65536 ≤ (-1 : Int) := by simp

/-! ### C29: timestamps -/

/-- C29, values pushed to a `DateTime64(p)` column, from 1970 on or whole seconds: the value read back drops the digits beyond
`p`. Missing: fractions of seconds before 1970, instants beyond `i64` nanoseconds (shown to fail below). -/
theorem C29_partial {p : Nat} {tz z : Tz} {xs : List Nat} {s : Int} {n : Nat} (hp : p ≤ 9) (h1 : -(2 ^ 63) ≤ s * 1000000000 + n)
    (h2 : s * 1000000000 + n < 2 ^ 63) (h3 : 0 ≤ s ∨ n = 0) :
    ∃ c v s' n', (Col.dt64 p tz xs).push (.chrono s n z) = .ok c ∧ c.at xs.length = .ok v ∧
      fromSql .time v = .ok (.time s' n' tz) ∧ n' < 1000000000 ∧ Drops p (s * 1000000000 + n) (s' * 1000000000 + n') := by
  obtain ⟨t, s', n', g1, g2, g3⟩ := tick_back (tz := tz) hp h1 h2 h3
  refine ⟨.dt64 p tz (xs ++ [ofSigned 8 t]), _, s', n', ?_, ?_, g2, g3⟩
  · rw [Col.push, pushT, Value.toAppDateTime, obind_ok]
    simp only [g1, obind_ok]
    rfl
  · rw [Col.at, idx_ok (by simp)]
    simp only [List.getElem_concat_length, obind_ok]
    rfl

/-- Milliseconds: 12.345678901 s, and one second before 1970. -/
example : (-(2 ^ 63) ≤ (12 : Int) * 1000000000 + (345678901 : Nat) ∧ (12 : Int) * 1000000000 + (345678901 : Nat) < 2 ^ 63) ∧
    ((0 : Int) ≤ -1 ∨ (0 : Nat) = 0) := by decide

/-- C29, times inserted to a `DateTime64(p)` column of a table: what the server receives and returns is read back with the
digits beyond `p` dropped. -/
theorem C29_sent_partial {p : Nat} {tz z z' : Tz} {xs : List (Int × Nat × Tz)} (hp : p ≤ 9) (hl : xs.length < 2 ^ 56)
    (h : ∀ x ∈ xs, -(2 ^ 63) ≤ x.1 * 1000000000 + x.2.1 ∧ x.1 * 1000000000 + x.2.1 < 2 ^ 63 ∧ (0 ≤ x.1 ∨ x.2.1 = 0)) :
    ∃ ws, (Col.chronoAd (.chrono z xs) (.dt64 p z')).save 0 xs.length = .ok ws ∧
      ∀ rest, ∃ c, (Plan.dt64 p tz).load xs.length (ws ++ rest) = .ok c rest ∧
        ∀ (i : Nat) x, xs[i]? = some x → ∃ v s n, c.at i = .ok v ∧ fromSql .time v = .ok (.time s n tz) ∧ n < 1000000000 ∧
          Drops p (x.1 * 1000000000 + x.2.1) (s * 1000000000 + n) := by
  have hm : mapOut (fun t : Int × Nat × Tz => fromDatetime t.1 t.2.1 p) xs =
      .ok (xs.map fun t => Int.tdiv (t.1 * 1000000000 + t.2.1) (10 ^ (9 - p))) :=
    mapOut_of fun x hx => ticks_ok hp (h x hx).1 (h x hx).2.1
  refine ⟨numsBytes 8 ((xs.map fun t => Int.tdiv (t.1 * 1000000000 + t.2.1) (10 ^ (9 - p))).map (ofSigned 8)), ?_,
    fun rest => ⟨.dt64 p tz ((xs.map fun t => Int.tdiv (t.1 * 1000000000 + t.2.1) (10 ^ (9 - p))).map (ofSigned 8)),
    ?_, fun i x hx => ?_⟩⟩
  · rw [Col.save]
    simp only [slice_ok (Nat.zero_le _) (Nat.le_refl _), obind_ok, List.drop_zero, Nat.sub_zero, List.take_length, hm]
    rfl
  · rw [Plan.load]
    refine bind_ok (loadNums_put (fun x hx => ?_) rest (by simp) (room hl (by decide)))
    obtain ⟨d, hd, rfl⟩ := List.mem_map.mp hx
    exact ofSigned_lt 8 d
  · obtain ⟨hi, rfl⟩ := List.getElem?_eq_some_iff.mp hx
    obtain ⟨h1, h2, h3⟩ := h _ (List.getElem_mem hi)
    obtain ⟨v, s, n, g1, g2⟩ := tick_back (tz := tz) hp h1 h2 h3
    rw [ticks_ok hp h1 h2] at g1
    injection g1 with g1
    subst g1
    refine ⟨_, s, n, ?_, g2⟩
    rw [Col.at, idx_ok (by simpa using hi)]
    simp only [List.getElem_map, obind_ok]
    rfl

/-- A time with microseconds and one in 1960. -/
example : ∀ x ∈ [((1700000000 : Int), 123456000, "UTC".toList), (-300000000, 0, "UTC".toList)],
    -(2 ^ 63) ≤ x.1 * 1000000000 + (x.2.1 : Nat) ∧ x.1 * 1000000000 + (x.2.1 : Nat) < 2 ^ 63 ∧ (0 ≤ x.1 ∨ x.2.1 = 0) := by
  simp

/-- C29 with precision 0 as `DateTime`: from 1970 to 2106 the seconds come back. -/
theorem C29_seconds_partial {tz z : Tz} {xs : List (Int × Nat × Tz)} (hl : xs.length < 2 ^ 56)
    (h : ∀ x ∈ xs, 0 ≤ x.1 ∧ x.1 < 2 ^ 32 ∧ x.2.1 < 1000000000) :
    ∃ ws, (Col.chronoAd (.chrono z xs) .datetime).save 0 xs.length = .ok ws ∧
      ∀ rest, ∃ c, (Plan.datetime tz).load xs.length (ws ++ rest) = .ok c rest ∧
        ∀ (i : Nat) x, xs[i]? = some x → ∃ v, c.at i = .ok v ∧ fromSql .time v = .ok (.time x.1 0 tz) ∧
          Drops 0 (x.1 * 1000000000 + x.2.1) (x.1 * 1000000000) := by
  refine ⟨numsBytes 4 (xs.map fun t => asU32 t.1), ?_, fun rest => ⟨.datetime tz (xs.map fun t => asU32 t.1), ?_,
    fun i x hx => ?_⟩⟩
  · rw [Col.save]
    simp only [slice_ok (Nat.zero_le _) (Nat.le_refl _), obind_ok, List.drop_zero, Nat.sub_zero, List.take_length]
    rfl
  · rw [Plan.load]
    refine bind_ok (loadNums_put (fun x hx => ?_) rest (by simp) (room hl (by decide)))
    obtain ⟨d, hd, rfl⟩ := List.mem_map.mp hx
    exact (asU32_range ⟨(h d hd).1, (h d hd).2.1⟩).2
  · have hm := List.mem_of_getElem? hx
    obtain ⟨hi, rfl⟩ := List.getElem?_eq_some_iff.mp hx
    obtain ⟨h1, h2, h3⟩ := h _ hm
    refine ⟨.datetime (asU32 xs[i].1) tz, ?_, ?_, ?_⟩
    · rw [Col.at, idx_ok (by simpa using hi)]
      simp only [List.getElem_map, obind_ok]
      rfl
    · rw [fromSql, (asU32_range ⟨h1, h2⟩).1]
    · unfold Drops
      omega

example : ∀ x ∈ [((4294967295 : Int), 999999999, "UTC".toList)], 0 ≤ x.1 ∧ x.1 < 2 ^ 32 ∧ x.2.1 < 1000000000 := by
  simp

/-- Before 1970, a time with a fraction of a second that the precision can represent is stored, and panics when read. -/
theorem C29_before_violated : ∀ (p : Nat) (s : Int) (n : Nat) (tz z : Tz), p ≤ 9 → s < 0 → 0 < n → n < 1000000000 →
    10 ^ (9 - p) ∣ n → -(2 ^ 63) ≤ s * 1000000000 + n →
    ∃ c v, (Col.dt64 p tz []).push (.chrono s n z) = .ok c ∧ c.at 0 = .ok v ∧ fromSql .time v = .panic := by
  intro p s n tz z hp hs h1 h2 hd hb
  have hdvd : (10 : Int) ^ (9 - p) ∣ s * 1000000000 + n := by
    refine Int.dvd_add (Int.dvd_mul_of_dvd_right ⟨10 ^ p, ?_⟩) ?_
    · rw [← Int.pow_add, Nat.sub_add_cancel hp]
      rfl
    · exact_mod_cast hd
  have hu : (0 : Int) < 10 ^ (9 - p) := Int.pow_pos (by omega)
  obtain ⟨⟨b1, b2⟩, b3, b4⟩ := tick_bounds hu hb (by omega)
  refine ⟨.dt64 p tz [ofSigned 8 (Int.tdiv (s * 1000000000 + n) (10 ^ (9 - p)))], _, ?_, rfl, ?_⟩
  · rw [Col.push, pushT, Value.toAppDateTime, obind_ok]
    simp only [ticks_ok hp hb (show s * 1000000000 + (n : Int) < 2 ^ 63 by omega), obind_ok]
    rfl
  · rw [signed_back (w := 8) (by omega) ⟨b1, b2⟩, fromSql]
    unfold toDatetime
    rw [if_pos (show p < 19 by omega), if_pos hp, Int.tdiv_mul_cancel hdvd]
    have hc : checkI64 (s * 1000000000 + n) = .ok (s * 1000000000 + n) := by
      rw [checkI64, if_pos]
      simp only [i64Min, i64Max]
      omega
    rw [hc, obind_ok]
    simp only
    rw [if_pos]
    · rfl
    · have e := Int.tdiv_mul_add_tmod (s * 1000000000 + n) 1000000000
      have e1 := Int.neg_tmod (s * 1000000000 + n) 1000000000
      have e2 := Int.tmod_eq_emod_of_nonneg (a := -(s * 1000000000 + n)) (b := 1000000000) (by omega)
      omega

/-- Half a second before 1970, in milliseconds. -/
example : 10 ^ (9 - 3) ∣ 500000000 ∧ -(2 ^ 63) ≤ (-1 : Int) * 1000000000 + (500000000 : Nat) := by decide

/-- Before 1970, digits beyond the precision are not dropped: the time is moved forward. -/
theorem C29_round_violated : ∀ (p : Nat) (s : Int) (n : Nat), p ≤ 9 → s < 0 → n < 1000000000 → ¬(10 ^ (9 - p) ∣ n) →
    -(2 ^ 63) ≤ s * 1000000000 + n → ∃ v, fromDatetime s n p = .ok v ∧ s * 1000000000 + n < v * 10 ^ (9 - p) := by
  intro p s n hp hs h2 hd hb
  refine ⟨_, ticks_ok hp hb (by omega), ?_⟩
  have hnd : ¬(10 : Int) ^ (9 - p) ∣ s * 1000000000 + n := by
    intro h
    have : (10 : Int) ^ (9 - p) ∣ s * 1000000000 := by
      refine Int.dvd_mul_of_dvd_right ⟨10 ^ p, ?_⟩
      rw [← Int.pow_add, Nat.sub_add_cancel hp]
      rfl
    have := (Int.dvd_add_right this).mp h
    exact hd (by exact_mod_cast this)
  generalize (10 : Int) ^ (9 - p) = u at *
  have e := Int.tdiv_mul_add_tmod (s * 1000000000 + n) u
  have e1 := Int.neg_tmod (s * 1000000000 + n) u
  have e2 := Int.tmod_nonneg u (a := -(s * 1000000000 + n)) (by omega)
  have e3 : Int.tmod (s * 1000000000 + n) u ≠ 0 := fun h => hnd (Int.dvd_of_tmod_eq_zero h)
  omega

/-- Half a second before 1970 in whole seconds is read as the first instant of 1970. -/
example : ¬(10 ^ (9 - 0) ∣ 500000000) ∧ fromDatetime (-1) 500000000 0 = .ok 0 := by decide

/-- Times that do not fit into 64 bits of nanoseconds (before 1677 or after 2262) cannot be stored with any precision. -/
theorem C29_far_violated : ∀ (p : Nat) (s : Int) (n : Nat) (tz z : Tz) (xs : List Nat),
    s * 1000000000 + n < -(2 ^ 63) ∨ 2 ^ 63 ≤ s * 1000000000 + n → (Col.dt64 p tz xs).push (.chrono s n z) = .panic := by
  intro p s n tz z xs h
  rw [Col.push, pushT, Value.toAppDateTime, obind_ok]
  have : fromDatetime s n p = .panic := by
    unfold fromDatetime
    rw [checkI64, if_neg]
    · rfl
    · simp only [i64Min, i64Max]
      omega
  simp only [this]
  rfl

/-- The year 2300 in whole seconds. -/
example : (10413792000 : Int) * 1000000000 + (0 : Nat) < -(2 ^ 63) ∨ 2 ^ 63 ≤ (10413792000 : Int) * 1000000000 + (0 : Nat) := by
  decide

/-- Times before 1970 or after 2106 pushed to a `DateTime` column are silently replaced by others. -/
theorem C29_wrap_violated : ∀ (s : Int) (n : Nat) (tz z : Tz), s < 0 ∨ 2 ^ 32 ≤ s →
    ∃ c v s', (Col.datetime tz []).push (.chrono s n z) = .ok c ∧ c.at 0 = .ok v ∧ fromSql .time v = .ok (.time s' 0 tz) ∧ s' ≠ s := by
  intro s n tz z h
  refine ⟨.datetime tz [asU32 s], _, (asU32 s : Nat), ?_, rfl, rfl, fun e => ?_⟩
  · rw [Col.push, pushT, Value.toAppDateTime, obind_ok]
    rfl
  · unfold asU32 at e
    omega

example : (-1 : Int) < 0 ∨ 2 ^ 32 ≤ (-1 : Int) := by decide

end CH.Props
