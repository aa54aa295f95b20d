import Verif.Lemmas.Received

/-! C23, C24: iterating columns (/repo/src/types/column/iter/mod.rs). -/

namespace CH.Props
open Spec

/-- No offset anywhere, for examples. -/
def utcOnly : Zones := fun _ _ => 0

/-- Five hours behind UTC, for examples. -/
def west : Zones := fun _ _ => -18000

/-! ### C23 -/

/-- C23 for the types `Walks` names: numbers, addresses, strings, decimals, arrays, nullables, maps, and dates, times and low
cardinality standing alone. Missing: dates, times and low cardinality inside other types, maps deep in arrays, dates west of UTC, NULL flags
other than 0 and 1 (all shown to fail below). -/
theorem C23_partial {zones : Zones} {c : Col} {T : ITy} {n : Nat} (hn : Native c) (hw : Walks .top T c.sqlType)
    (hk : Clocks zones T c) (hl : c.len = .ok n) (hr : ∀ i, i < n → ∃ v, c.at i = .ok v) :
    ∃ items, c.iter zones T = .ok ⟨items, .done⟩ ∧ Lists T c.at n items := by
  obtain ⟨r, h1, h2, h3⟩ := iter_agrees hn hw hk
  obtain ⟨h4, h5⟩ := h3 n hl hr
  obtain ⟨items, stop⟩ := r
  simp only at h4 h5
  subst h5
  exact ⟨items, h1, h4, fun i v hi hv => h2 i v (fun j hj => hr j (by omega)) hv⟩

/-- A nullable column: `[Some(5), NULL]`. -/
def exNullable : Col := .nullable [0, 1] (.num .u8 [5, 0])

/-- `[[1, 2], []]` of maps: one array row with maps `{7: "a"}` and `{}`, then an empty array row. -/
def exArrayMap : Col := .array [2, 2] (.map [1, 1] (.num .u8 [7]) (.str [[97]]))

example : Native exNullable ∧ Walks .top (.opt (.num .u8)) exNullable.sqlType ∧ Clocks utcOnly (.opt (.num .u8)) exNullable ∧
    exNullable.len = .ok 2 ∧ ∀ i, i < 2 → ∃ v, exNullable.at i = .ok v := by
  refine ⟨⟨by decide, rfl, trivial⟩, rfl, ⟨by simp, by simp⟩, rfl, fun i hi => ?_⟩
  match i with
  | 0 => exact ⟨_, rfl⟩
  | 1 => exact ⟨_, rfl⟩
  | i + 2 => omega

example : Native exArrayMap ∧ Walks .top (.vec (.hmap (.num .u8) .bytes)) exArrayMap.sqlType ∧
    Clocks utcOnly (.vec (.hmap (.num .u8) .bytes)) exArrayMap ∧ exArrayMap.len = .ok 2 ∧ ∀ i, i < 2 → ∃ v, exArrayMap.at i = .ok v := by
  refine ⟨⟨trivial, trivial⟩, ⟨by simp [Place.elems], rfl, rfl⟩, ⟨by simp, by simp⟩, rfl, fun i hi => ?_⟩
  match i with
  | 0 => exact ⟨_, rfl⟩
  | 1 => exact ⟨_, rfl⟩
  | i + 2 => omega

/-- A date column east of UTC. -/
def exDates : Col := .lowCard .u8 [1, 0, 1] (.date [] [3, 65535]) none

example : Native exDates ∧ Walks .top .date exDates.sqlType ∧ Clocks (fun _ _ => 43200) .date exDates ∧ exDates.len = .ok 3 ∧
    ∀ i, i < 3 → ∃ v, exDates.at i = .ok v := by
  refine ⟨trivial, Or.inl trivial, ⟨fun _ tz _ s => by simp, by simp⟩, rfl, fun i hi => ?_⟩
  match i with
  | 0 => exact ⟨_, rfl⟩
  | 1 => exact ⟨_, rfl⟩
  | 2 => exact ⟨_, rfl⟩
  | i + 3 => omega

/-- C23 for columns as received, whatever the bytes, if they show what the crate does not check. -/
theorem C23_received_partial {zones : Zones} {known : Tz → Bool} {tz : Tz} {name : Str} {n : Nat} {bs rest : Bytes} {c : Col} {T : ITy}
    (h : loadData known tz name n bs = .ok c rest) (hh : Honest c n) (hw : Walks .top T c.sqlType) (hk : Clocks zones T c)
    (hr : ∀ i, i < n → ∃ v, c.at i = .ok v) : ∃ items, c.iter zones T = .ok ⟨items, .done⟩ ∧ Lists T c.at n items := by
  obtain ⟨h1, h2⟩ := received _ n bs rest c h hh
  exact C23_partial h1 hw hk h2 hr

example : loadData (fun _ => true) "UTC".toList (SqlType.nullable (.num .u8)).name 2 [0, 1, 5, 0, 9] = .ok exNullable [9] ∧
    Honest exNullable 2 := by
  refine ⟨?_, by decide, trivial⟩
  rw [loadData, resolve_name "UTC".toList (t := .nullable (.num .u8)) (by simp [Nameable])]
  rfl

/-- A low-cardinality column may bring more rows than its block announced: the iterator and the block disagree. -/
theorem C23_rows_violated : ∃ c, loadData (fun _ => true) "UTC".toList (SqlType.lowCard (.num .u8)).name 1
      ([1, 0, 0, 0, 0, 0, 0, 0] ++ [0, 6, 0, 0, 0, 0, 0, 0] ++ [1, 0, 0, 0, 0, 0, 0, 0] ++ [7] ++ [2, 0, 0, 0, 0, 0, 0, 0] ++ [0, 0]) =
        .ok c [] ∧ c.len = .ok 2 := by
  refine ⟨.lowCard .u8 [0, 0] (.num .u8 [7]) none, ?_, rfl⟩
  rw [loadData, resolve_name "UTC".toList (t := .lowCard (.num .u8)) (by simp [Nameable])]
  rfl

/-- C23 for columns of several blocks put together. -/
theorem C23_concat_partial {zones : Zones} {cs : List Col} {ls : List Nat} {T : ITy} {t : SqlType} (hne : cs ≠ [])
    (ht : ∀ c ∈ cs, c.sqlType = t) (hl : cs.map Col.len = ls.map .ok) (hn : ∀ c ∈ cs, Native c) (hw : Walks .top T t)
    (hk : ∀ c ∈ cs, Clocks zones T c) (hr : ∀ c ∈ cs, ∀ n i, c.len = .ok n → i < n → ∃ v, c.at i = .ok v) :
    ∃ cc items, concatCols cs = .ok cc ∧ cc.len = .ok ls.sum ∧ cc.iter zones T = .ok ⟨items, .done⟩ ∧ Lists T cc.at ls.sum items := by
  obtain ⟨items, h1, h2, h3⟩ := complex_ok (zones := zones) (T := T) cs ls hl ht fun c hc n hcn =>
    C23_partial (hn c hc) (by rw [ht c hc]; exact hw) (hk c hc) hcn fun i hi => hr c hc n i hcn hi
  refine ⟨_, items, concatCols_ok hne ht hl, concat_len, ?_, h2, fun i v hi hv => ?_⟩
  · have : (ConcatCol.mk cs (buildIndex ls)).sqlType = .ok t := by
      cases cs with
      | nil => exact absurd rfl hne
      | cons c cs => simp [ConcatCol.sqlType, idx, ht c (by simp)]
    rw [ConcatCol.iter, this]
    exact congrArg Out.ok h1
  · obtain ⟨k, r, hk, hr', e⟩ := locate ls i hi
    have hk' : k < cs.length := by
      have := congrArg List.length hl
      simp at this
      omega
    subst e
    rw [concat_at hl k r hk hk' hr'] at hv
    exact h3 k r v hk' hk hr' hv

example : ([.str [[1]], .str [], .str [[2], [3, 4]]] : List Col).map Col.len = ([1, 0, 2] : List Nat).map .ok ∧
    (∀ c ∈ ([.str [[1]], .str [], .str [[2], [3, 4]]] : List Col), c.sqlType = .string ∧ Native c ∧ Clocks utcOnly .bytes c) ∧
    Walks .top .bytes .string := by
  refine ⟨rfl, fun c hc => ?_, Or.inr rfl⟩
  simp only [List.mem_cons, List.not_mem_nil, or_false] at hc
  rcases hc with rfl | rfl | rfl <;> exact ⟨rfl, trivial, by simp, by simp⟩

theorem stamp_suits {c : Col} {f : SqlType → Bool} {ty : SqlType} {r} {T : ITy} (hf : ∀ t, f t = true → Suits T t)
    (h : stampSource c f ty = .ok r) : Suits T ty := by
  rw [stampSource.eq_def] at h
  split at h
  · split at h
    · exact .lowCard (hf _ ‹_›)
    · cases h
  · split at h
    · exact hf _ ‹_›
    · cases h

theorem anyTime_suits {t : SqlType} (h : anyTime t = true) : Suits .time t := by
  cases t <;> first | exact .time | exact .time64 | exact .timeChrono | cases h

theorem iterWith_suits (zones : Zones) (c : Col) : ∀ (T : ITy) (ty : SqlType) (props : Nat) (r : Run), NoAddress T →
    iterWith zones c T ty props = .ok r → Suits T ty := by
  intro T
  induction T with
  | num t =>
    intro ty props r _ h
    rw [iterWith] at h
    split at h
    · rename_i hc
      clear h
      induction ty with
      | simpleAgg f ty ih => exact .agg (ih hc)
      | _ => simp [checkType] at hc <;> subst hc <;> exact .num
    · cases h
  | ip k => intro ty props r hn; exact absurd hn id
  | bytes =>
    intro ty props r _ h
    unfold iterWith at h
    split at h <;> first
      | exact .lowCard .string
      | exact .lowCard .fixed
      | exact .string
      | exact .fixed
      | cases h
      | simp_all
  | decimal =>
    intro ty props r _ h
    unfold iterWith at h
    split at h <;> first | exact .decimal | cases h | simp_all
  | time =>
    intro ty props r _ h
    rw [iterWith] at h
    obtain ⟨a, ha, _⟩ := obind_eq_ok h
    exact stamp_suits (fun t => anyTime_suits) ha
  | naive =>
    intro ty props r _ h
    rw [iterWith] at h
    obtain ⟨a, ha, _⟩ := obind_eq_ok h
    exact .naive (stamp_suits (fun t => anyTime_suits) ha)
  | date =>
    intro ty props r _ h
    rw [iterWith] at h
    obtain ⟨a, ha, _⟩ := obind_eq_ok h
    refine stamp_suits (fun t ht => ?_) ha
    simp only [beq_iff_eq] at ht
    subst ht
    exact .date
  | opt T ih =>
    intro ty props r hn h
    cases ty with
    | nullable ty =>
      rw [iterWith] at h
      obtain ⟨a, ha, _⟩ := obind_eq_ok h
      exact .opt (ih _ _ _ hn ha)
    | _ => simp [iterWith] at h
  | vec T ih =>
    intro ty props r hn h
    cases ty with
    | array ty =>
      rw [iterWith] at h
      obtain ⟨a, ha, _⟩ := obind_eq_ok h
      exact .vec (ih _ _ _ hn ha)
    | _ => simp [iterWith] at h
  | hmap K V ihk ihv =>
    intro ty props r hn h
    cases ty with
    | map kt vt =>
      rw [iterWith] at h
      split at h
      · cases h
      · obtain ⟨a, ha, h2⟩ := obind_eq_ok h
        obtain ⟨b, hb, _⟩ := obind_eq_ok h2
        exact .hmap (ihk _ _ _ hn.1 ha) (ihv _ _ _ hn.2 hb)
    | _ => simp [iterWith] at h

/-- A column is never iterated as a Rust type that cannot hold its values. Missing: addresses (`C23_address_violated`). -/
theorem C23_refused_partial {zones : Zones} {c : Col} {T : ITy} (hn : NoAddress T) (hs : ¬ Suits T c.sqlType) :
    ∀ r, c.iter zones T ≠ .ok r :=
  fun r h => hs (iterWith_suits zones c T _ _ r hn h)

example : NoAddress (.vec (.num .u8)) ∧ ¬ Suits (.vec (.num .u8)) (Col.array [1] (.num .i8 [255])).sqlType :=
  ⟨trivial, fun h => by cases h; rename_i h; cases h⟩

/-- A NULL flag byte other than 0 and 1, which a server could send: indexed access finds a value, the iterator NULL. -/
theorem C23_flag_violated :
    (∃ v, (Col.nullable [2] (.num .u8 [5])).at 0 = .ok (.some v)) ∧
    (Col.nullable [2] (.num .u8 [5])).iter utcOnly (.opt (.num .u8)) = .ok ⟨[.none], .done⟩ :=
  ⟨⟨_, rfl⟩, rfl⟩

/-- West of UTC the date iterator yields the day before. -/
theorem C23_date_violated : (Col.date [] [100]).at 0 = .ok (.date 100) ∧
    (Col.date [] [100]).iter west .date = .ok ⟨[.date 99], .done⟩ :=
  ⟨rfl, rfl⟩

/-- Dates, times and low cardinality in an array or nullable can be read by index but not iterated. -/
theorem C23_inner_date_violated :
    (∃ v, (Col.array [1] (.date [] [100])).at 0 = .ok v) ∧
    (Col.array [1] (.date [] [100])).iter utcOnly (.vec .date) = .err unsupported ∧
    (∃ v, (Col.nullable [0] (.datetime [] [100])).at 0 = .ok v) ∧
    (Col.nullable [0] (.datetime [] [100])).iter utcOnly (.opt .time) = .err unsupported ∧
    (∃ v, (Col.array [1] (.lowCard .u8 [0] (.str [[97]]) none)).at 0 = .ok v) ∧
    (Col.array [1] (.lowCard .u8 [0] (.str [[97]]) none)).iter utcOnly (.vec .bytes) = .err unsupported :=
  ⟨⟨_, rfl⟩, rfl, ⟨_, rfl⟩, rfl, ⟨_, rfl⟩, rfl⟩

/-- A column built from `Vec<DateTime<Tz>>` can be read by index but not iterated, though its type is `DateTime`. -/
theorem C23_chrono_violated : (∃ v, (Col.chrono [] [(100, 0, [])]).at 0 = .ok v) ∧
    (Col.chrono [] [(100, 0, [])]).iter utcOnly .time = .err unsupported := by
  exact ⟨⟨_, rfl⟩, rfl⟩

/-- The address iterators do not look at the column's type: IPv6 rows read as IPv4 are four rows each, IPv4 rows read as IPv6 run
over the end of the buffer, and NULLs are yielded as addresses. -/
theorem C23_address_violated :
    (∃ a b c d, (Col.ip .v6 (List.replicate 16 0)).iter utcOnly (.ip .v4) = .ok ⟨[a, b, c, d], .done⟩) ∧
    (Col.ip .v4 [1, 2, 3, 4]).iter utcOnly (.ip .v6) = .ok ⟨[], .wild⟩ ∧
    (Col.nullable [1] (.ip .v4 [0, 0, 0, 0])).iter utcOnly (.ip .v4) = .ok ⟨[.ip .v4 [0, 0, 0, 0]], .done⟩ :=
  ⟨⟨_, _, _, _, rfl⟩, rfl, rfl⟩

/-- An index beyond the dictionary, which a server could send: indexed access panics, the date iterator reads outside the
dictionary. -/
theorem C23_dictionary_violated :
    (Col.lowCard .u8 [1] (.date [] [100]) none).at 0 = .panic ∧
    (Col.lowCard .u8 [1] (.date [] [100]) none).iter utcOnly .date = .ok ⟨[], .wild⟩ :=
  ⟨rfl, rfl⟩

/-- Asking a column for an iterator of another type gives an error; asking several blocks put together gives an iterator that
panics. -/
theorem C23_concat_violated :
    (Col.str [[97]]).iter utcOnly (.num .u8) = .err typeError ∧
    ∃ cc, concatCols [Col.str [[97]]] = .ok cc ∧ cc.iter utcOnly (.num .u8) = .ok ⟨[], .panic⟩ :=
  ⟨rfl, _, rfl, rfl⟩

/-! ### C24 -/

/-- C24 for maps that are the column itself, the values of such maps, or the elements of one array around them: the keys come from
iterating the map's key column on its own, the values from its value column. Missing: maps deeper in arrays and keys other
than numbers, addresses and strings (shown to fail below). -/
theorem C24_partial {zones : Zones} {c k v : Col} {pl : Place} {offs : List Nat} {K V : ITy} (hp : Part c pl (.map offs k v))
    (hpl : pl ≠ .deep) (hn : Native k ∧ Native v) (hk : KeyIn K k.sqlType) (hv : Walks .chain V v.sqlType) :
    ∃ kr vr, k.iter zones K = .ok kr ∧ v.iter zones V = .ok vr ∧
      iterWith zones c (.hmap K V) (SqlType.map k.sqlType v.sqlType) 0 = .ok (mapRun 0 offs kr vr) := by
  obtain ⟨j, hr⟩ := part_route hp
  obtain ⟨hl, hg'⟩ := route_keys hr hpl
  obtain ⟨kr, h1, h2⟩ := key_exact (zones := zones) (c := c) hn.1 hk hg'
  obtain ⟨vr, h3, h4⟩ := walk (zones := zones) V .chain (j + 1) v (.value hr hpl) hn.2 hv (fun h => by simp at h)
  refine ⟨kr, vr, ?_, ?_, ?_⟩
  · rw [← h1]
    exact (key_same hk hg').symm
  · rw [← h3]
    exact (part_same V .chain (j + 1) v (.value hr hpl) hn.2 hv).symm
  · have hg : c.getInternal 2 (SqlType.map k.sqlType v.sqlType).level 0 = .ok (.offs offs) := by
      refine (route_plain hr (Nat.le_refl _)).trans ?_
      simp [Col.getInternal, Col.sqlType]
    rw [iterWith, if_neg hl, h1, h3, hg]
    rfl

/-- Maps in maps in an array: `[{1: {"a": 2}}]`. -/
def exMaps : Col := .array [1] (.map [1] (.num .u8 [1]) (.map [1] (.str [[97]]) (.num .u16 [2])))

example : Part exMaps .chain (.map [1] (.str [[97]]) (.num .u16 [2])) ∧ KeyIn .bytes (Col.str [[97]]).sqlType ∧
    Walks .chain (.num .u16) (Col.num .u16 [2]).sqlType :=
  ⟨.values (pl := .chain) (.elems .self) (by simp), rfl, rfl⟩

/-- Every part of a column that can be iterated is iterated as if it were a column of its own. -/
theorem C24_part_partial {zones : Zones} {c d : Col} {pl : Place} {T : ITy} (hp : Part c pl d) (hn : Native d)
    (hw : Walks pl T d.sqlType) : iterWith zones c T d.sqlType 0 = d.iter zones T := by
  obtain ⟨j, hr⟩ := part_route hp
  exact part_same T pl j d hr hn hw

example : Part exMaps .chain (.map [1] (.str [[97]]) (.num .u16 [2])) ∧ Native (.map [1] (.str [[97]]) (.num .u16 [2])) ∧
    Walks .chain (.hmap .bytes (.num .u16)) (Col.map [1] (.str [[97]]) (.num .u16 [2])).sqlType :=
  ⟨.values (pl := .chain) (.elems .self) (by simp), ⟨trivial, trivial⟩, by simp, rfl, rfl⟩

/-- A map in an array in a map, `{"a": [{1: 2}]}`: the inner key 1 is read from the value storage as 2. -/
theorem C24_array_in_map_violated :
    (∃ v, (Col.map [1] (.num .u8 [1]) (.num .u8 [2])).at 0 = .ok v ∧
      Shows (.hmap (.num .u8) (.num .u8)) v (.hmap [.num .u8 1] [.num .u8 2])) ∧
    (Col.map [1] (.str [[97]]) (.array [1] (.map [1] (.num .u8 [1]) (.num .u8 [2])))).iter utcOnly
        (.hmap .bytes (.vec (.hmap (.num .u8) (.num .u8)))) =
      .ok ⟨[.hmap [.bytes [97]] [.vec [.hmap [.num .u8 2] [.num .u8 2]]]], .done⟩ := by
  refine ⟨⟨_, rfl, .hmap rfl rfl rfl (fun i x a h1 h2 => ?_) (fun i x a h1 h2 => ?_)⟩, rfl⟩ <;>
    · match i with
      | 0 => cases h1; cases h2; exact .num
      | i + 1 => cases h1

/-- A map in two arrays, `[[{1: 2}]]`, reads the key 1 as 2; with string values, `[[{1: "b"}]]`, it takes the memory of the string
pool for numbers. -/
theorem C24_arrays_violated :
    (Col.array [1] (.array [1] (.map [1] (.num .u8 [1]) (.num .u8 [2])))).iter utcOnly (.vec (.vec (.hmap (.num .u8) (.num .u8)))) =
      .ok ⟨[.vec [.vec [.hmap [.num .u8 2] [.num .u8 2]]]], .done⟩ ∧
    (Col.array [1] (.array [1] (.map [1] (.num .u8 [1]) (.str [[98]])))).iter utcOnly (.vec (.vec (.hmap (.num .u8) .bytes))) =
      .ok ⟨[], .wild⟩ :=
  ⟨rfl, rfl⟩

/-- Fixed strings as keys, `{"a": "b"}`: the keys are read from the values. -/
theorem C24_fixed_key_violated :
    (Col.map [1] (.fixed 1 [97]) (.fixed 1 [98])).iter utcOnly (.hmap .bytes .bytes) =
      .ok ⟨[.hmap [.bytes [98]] [.bytes [98]]], .done⟩ :=
  rfl

/-- Arrays as keys, `{[1, 2]: 3}`: the offsets of the map are taken for those of the keys. -/
theorem C24_array_key_violated :
    (Col.map [1] (.array [2] (.num .u8 [1, 2])) (.num .u8 [3])).iter utcOnly (.hmap (.vec (.num .u8)) (.num .u8)) =
      .ok ⟨[.hmap [.vec [.num .u8 1]] [.num .u8 3]], .done⟩ :=
  rfl

end CH.Props
