import Verif.Spec.Made
import Verif.Props.Iter
import Verif.Props.From
import Verif.Props.Rows
import Verif.Props.Transport
import Verif.Props.FromSql
import Verif.Props.Values
import Verif.Props.Options

/-!
Statements added after wrong variants of the model had passed the others: columns made for new names (C32), the number of rows of
a concatenation (C19), keys of maps (C24), what a column made of Rust values says of itself (C64), failing sockets (C47), and
optional values behind adapters (C57).
-/

namespace CH.Props
open CH CH.Spec

/-! ### C32: the column made for a new name -/

/-- C32. The empty column made for a value of some type has that type (times being kept as `chrono` times), also inside
containers. -/
theorem C32_new_column (tz : Tz) (t : SqlType) (c : Col) (h : emptyCol tz t = .ok c) : c.sqlType = made t := by
  induction t generalizing c with
  | nullable t ih =>
    rw [emptyCol] at h
    obtain ⟨d, h1, h2⟩ := obind_eq_ok h
    cases h2
    simp [Col.sqlType, made, ih d h1]
  | array t ih =>
    rw [emptyCol] at h
    obtain ⟨d, h1, h2⟩ := obind_eq_ok h
    cases h2
    simp [Col.sqlType, made, ih d h1]
  | simpleAgg f t ih =>
    rw [emptyCol] at h
    obtain ⟨d, h1, h2⟩ := obind_eq_ok h
    cases h2
    simp [Col.sqlType, made, ih d h1]
  | lowCard t ih =>
    rw [emptyCol] at h
    obtain ⟨d, h1, h2⟩ := obind_eq_ok h
    cases h2
    simp [Col.sqlType, made, ih d h1]
  | map k v ihk ihv =>
    rw [emptyCol] at h
    obtain ⟨d, h1, h2⟩ := obind_eq_ok h
    obtain ⟨e, h3, h4⟩ := obind_eq_ok h2
    cases h4
    simp [Col.sqlType, made, ihk d h1, ihv e h3]
  | decimal p s =>
    rw [emptyCol] at h
    split at h
    · simp at h
    · cases h; rfl
  | _ => rw [emptyCol] at h; cases h; rfl

example : ∃ c, emptyCol "UTC".toList (.array (.nullable (.dt64 3 "Europe/Berlin".toList))) = .ok c := ⟨_, rfl⟩

/-! ### C19: rows of a concatenation -/

/-- C19. The number of rows of a concatenation is the sum of the numbers of rows, or zero if there are no columns. -/
theorem C19_row_count (bs : List Block) (ms : List Nat) (b0 : Block) (h0 : bs.head? = some b0) (hl : bs.length = ms.length)
    (hr : ∀ k (h : k < bs.length), Rect bs[k] ms[k]) (ht : SameTypes bs) :
    ∃ cb, concatBlocks bs = .ok cb ∧ (b0.columns ≠ [] → cb.rowCount = .ok ms.sum) ∧ (b0.columns = [] → cb.rowCount = .ok 0) := by
  obtain ⟨cb, h1, _, h3, h4, _⟩ := C19_concat bs ms b0 h0 hl hr ht
  refine ⟨cb, h1, fun hn => ?_, fun hn => ?_⟩
  · cases hc : cb.columns with
    | nil => rw [hc] at h3; simp at h3; exact absurd h3 hn
    | cons c cs => simp only [CBlock.rowCount, hc]; exact h4 c (by rw [hc]; simp)
  · have : cb.columns = [] := by rw [hn] at h3; simpa using h3
    simp only [CBlock.rowCount, this]

example : ∃ cb, concatBlocks [⟨BlockInfo.default, []⟩, ⟨BlockInfo.default, []⟩] = .ok cb ∧ cb.rowCount = .ok 0 := ⟨_, rfl, rfl⟩

/-! ### C24: keys -/

theorem sames_vec (xs ys : List Item) : Item.same (.vec xs) (.vec ys) = Item.sames xs ys := rfl

theorem same_sound : ∀ (n : Nat) (x y : Item), sizeOf x ≤ n → Item.same x y = true → SameKey x y := by
  intro n
  induction n with
  | zero => intro x y h; cases x <;> simp at h
  | succ n ih =>
    intro x y hn h
    cases x <;> cases y <;> simp only [Item.same, Bool.and_eq_true, beq_iff_eq, reduceCtorEq, Bool.false_eq_true] at h
    · obtain ⟨rfl, rfl⟩ := h; exact .num
    · obtain ⟨rfl, rfl⟩ := h; exact .ip
    · subst h; exact .bytes
    · obtain ⟨rfl, rfl⟩ := h; exact .time
    · obtain ⟨rfl, rfl⟩ := h; exact .naive
    · subst h; exact .date
    · exact .none
    · simp only [Item.some.sizeOf_spec] at hn; exact .some (ih _ _ (by omega) h)
    · rename_i xs ys
      simp only [Item.vec.sizeOf_spec] at hn
      have : ∀ (xs ys : List Item), sizeOf xs ≤ n → Item.sames xs ys = true → SameKey (.vec xs) (.vec ys) := by
        intro xs
        induction xs with
        | nil => intro ys _ h; cases ys with
          | nil => exact .empty
          | cons => simp [Item.sames] at h
        | cons x xs ihx =>
          intro ys hs h
          cases ys with
          | nil => simp [Item.sames] at h
          | cons y ys =>
            simp only [Item.sames, Bool.and_eq_true] at h
            simp only [List.cons.sizeOf_spec] at hs
            exact .cons (ih x y (by omega) h.1) (ihx ys (by omega) h.2)
      exact this xs ys (by omega) h

/-- C24. Two keys are taken for the same exactly if they have the same content or are the same instant. -/
theorem C24_same_key (x y : Item) : Item.same x y = true ↔ SameKey x y := by
  constructor
  · exact same_sound _ x y (Nat.le_refl _)
  · intro h
    induction h with
    | cons h t ih1 ih2 =>
      rw [sames_vec] at ih2 ⊢
      simp only [Item.sames, ih1, ih2, Bool.and_self]
    | some h ih => simp only [Item.same, ih]
    | empty => simp [Item.same, Item.sames]
    | none => simp [Item.same]
    | _ => simp [Item.same]

example : SameKey (.vec [.some (.time 5 0 "UTC".toList)]) (.vec [.some (.time 5 0 "Europe/Berlin".toList)]) := .cons (.some .time) .empty

/-- C24. A pair read later with the same key replaces the value; any other pair is added at the end. -/
theorem C24_insert (ks vs : List Item) (k v : Item) :
    (∃ i : Nat, (∃ x, ks[i]? = some x ∧ SameKey x k) ∧ (∀ j : Nat, j < i → ∀ x, ks[j]? = some x → ¬ SameKey x k) ∧
      itemInsert (ks, vs) k v = (ks, vs.set i v)) ∨
    ((∀ x ∈ ks, ¬ SameKey x k) ∧ itemInsert (ks, vs) k v = (ks ++ [k], vs ++ [v])) := by
  have key : ∀ ks : List Item, (∃ i : Nat, itemIndex k ks = some i ∧ (∃ x, ks[i]? = some x ∧ SameKey x k) ∧
      ∀ j : Nat, j < i → ∀ x, ks[j]? = some x → ¬ SameKey x k) ∨ (itemIndex k ks = none ∧ ∀ x ∈ ks, ¬ SameKey x k) := by
    intro ks
    induction ks with
    | nil => exact .inr ⟨rfl, by simp⟩
    | cons a as ih =>
      rw [itemIndex]
      by_cases ha : Item.same a k = true
      · rw [if_pos ha]
        exact .inl ⟨0, rfl, ⟨a, rfl, (C24_same_key a k).mp ha⟩, fun j hj => absurd hj (by omega)⟩
      · rw [if_neg ha]
        have ha' : ¬ SameKey a k := fun h => ha ((C24_same_key a k).mpr h)
        rcases ih with ⟨i, h1, ⟨x, h2, h3⟩, h4⟩ | ⟨h1, h2⟩
        · refine .inl ⟨i + 1, by rw [h1]; rfl, ⟨x, by simpa using h2, h3⟩, fun j hj y hy => ?_⟩
          cases j with
          | zero => simp at hy; rw [← hy]; exact ha'
          | succ j => exact h4 j (by omega) y (by simpa using hy)
        · refine .inr ⟨by rw [h1]; rfl, fun x hx => ?_⟩
          rcases List.mem_cons.mp hx with rfl | hx
          · exact ha'
          · exact h2 x hx
  rcases key ks with ⟨i, h1, h2, h3⟩ | ⟨h1, h2⟩
  · exact .inl ⟨i, h2, h3, by simp only [itemInsert, h1]⟩
  · exact .inr ⟨h2, by simp only [itemInsert, h1]⟩

/-- C24. In the nestings where keys are read from the storage of the values (`C24_arrays_violated`), values of another number type
are read as memory of the wrong type. -/
theorem C24_arrays_types_violated :
    (Col.array [1] (.array [1] (.map [1] (.num .u8 [1]) (.num .u16 [2])))).iter utcOnly (.vec (.vec (.hmap (.num .u8) (.num .u16)))) =
      .ok ⟨[], .wild⟩ :=
  rfl

/-! ### C64: what a column says of itself -/

/-- C64. A column of times has the zone of its first time; an optional one, that of the first time there is. -/
theorem C64_zone (s : Int) (n : Nat) (z : Tz) :
    (∀ rest : List (Int × Nat × Tz), ∃ c, colOf .time ((s, n, z) :: rest) = .ok c ∧ c.timezone = some z) ∧
    ∀ (k : Nat) (rest : List (Option (Int × Nat × Tz))),
      ∃ c, optOf .time (List.replicate k none ++ some (s, n, z) :: rest) = .ok c ∧ c.timezone = some z := by
  refine ⟨fun rest => ⟨_, rfl, rfl⟩, fun k rest => ?_⟩
  have hz : firstZone (List.replicate k none ++ some (s, n, z) :: rest) = z := by
    induction k with
    | zero => rfl
    | succ k ih => rw [List.replicate_succ, List.cons_append, firstZone]; exact ih
  refine ⟨_, rfl, ?_⟩
  cases k with
  | zero => rfl
  | succ k =>
    simp only [List.replicate_succ, List.cons_append, List.map_cons] at hz ⊢
    simp only [Col.timezone, zoneOf, hz]

/-- C64. A column made of no times, of absent times only, or of dates is in the zone "Zulu". -/
theorem C64_zulu (ds : List Int) (k : Nat) :
    (∃ c, colOf .time [] = .ok c ∧ c.timezone = some "Zulu".toList) ∧
    (∃ c, optOf .time (List.replicate k none) = .ok c ∧ c.timezone = some "Zulu".toList) ∧
    ∃ c, colOf .date ds = .ok c ∧ c.timezone = some "Zulu".toList := by
  refine ⟨⟨_, rfl, rfl⟩, ⟨_, rfl, ?_⟩, ⟨_, rfl, rfl⟩⟩
  cases k with
  | zero => rfl
  | succ k =>
    have hz : firstZone (List.replicate (k + 1) none) = "Zulu".toList := by
      generalize k + 1 = n
      induction n with
      | zero => rfl
      | succ n ih => rw [List.replicate_succ, firstZone]; exact ih
    simp only [List.replicate_succ, List.map_cons] at hz ⊢
    simp only [Col.timezone, zoneOf, hz]

example : firstZone [none, none] = "Zulu".toList := rfl

theorem precision_bound (ds : List Decimal) : ∀ p0 : Nat, p0 ≤ ds.foldl (fun p d => max p d.precision) p0 ∧
    (∀ d ∈ ds, d.precision ≤ ds.foldl (fun p d => max p d.precision) p0) ∧
    (ds.foldl (fun p d => max p d.precision) p0 = p0 ∨ ∃ d ∈ ds, ds.foldl (fun p d => max p d.precision) p0 = d.precision) := by
  induction ds with
  | nil => intro p0; simp
  | cons d ds ih =>
    intro p0
    obtain ⟨h1, h2, h3⟩ := ih (max p0 d.precision)
    simp only [List.foldl_cons]
    refine ⟨by omega, fun e he => ?_, ?_⟩
    · rcases List.mem_cons.mp he with rfl | he
      · omega
      · exact h2 e he
    · rcases h3 with h3 | ⟨e, he, h3⟩
      · by_cases hm : p0 ≤ d.precision
        · exact .inr ⟨d, by simp, by rw [h3]; omega⟩
        · exact .inl (by rw [h3]; omega)
      · exact .inr ⟨e, by simp [he], h3⟩

/-- C64. A column of decimals of one scale is a `Decimal(P, S)` with that scale, where `P` is the largest of 18 and their
precisions. -/
theorem C64_decimal_type (d : Decimal) (ds : List Decimal) (hs : SameScale .decimal (d :: ds)) :
    ∃ c p, colOf .decimal (d :: ds) = .ok c ∧ c.sqlType = .decimal p d.scale ∧ 18 ≤ p ∧ (∀ e ∈ d :: ds, e.precision ≤ p) ∧
      (p = 18 ∨ ∃ e ∈ d :: ds, p = e.precision) := by
  obtain ⟨h1, h2, h3⟩ := precision_bound (d :: ds) 18
  have hc : ∀ (l : List Decimal) (s : Nat), (∀ e ∈ l, e.scale = s) → commonScale (some s) l = .ok (some s) := by
    intro l
    induction l with
    | nil => intro s _; rfl
    | cons e l ih =>
      intro s h
      rw [commonScale, if_neg (by simp [h e (by simp)])]
      exact ih s (fun x hx => h x (by simp [hx]))
  refine ⟨.decimal (commonPrecision (d :: ds)) d.scale .n64 ((d :: ds).map fun d => ofSigned 8 d.underlying), _, ?_, rfl, h1, h2, h3⟩
  rw [colOf, commonScale, hc ds d.scale (fun e he => hs e (by simp [he]) d (by simp))]
  rfl

example : SameScale .decimal [⟨1, .n64, 18, 2⟩, ⟨1, .n64, 30, 2⟩] := by intro d hd e he; simp at hd he; rcases hd with rfl | rfl <;> rcases he with rfl | rfl <;> rfl

/-- C64. The type of a column made of Rust values is the one that goes with the Rust type: bare, `Nullable(..)`, `Array(..)` or
`Map(.., ..)` of it. -/
theorem C64_type {b : Base} {t : SqlType} (ht : declared b = some t) :
    (∀ xs : List b.El, ∃ c, colOf b xs = .ok c ∧ c.sqlType = t) ∧
    (∀ xs : List (Option b.El), (∀ x, some x ∈ xs → Stored b x) → ∃ c, optOf b xs = .ok c ∧ c.sqlType = .nullable t) ∧
    (∀ T, vecReads b = some T → ∀ xs : List (List b.El), (∀ ys ∈ xs, ∀ y ∈ ys, Stored b y) →
      ∃ c, vecOf b xs = .ok c ∧ c.sqlType = .array t) ∧
    ∀ T k u, vecReads b = some T → KeyBase k → declared k = some u → ∀ xs : List (List (k.El × b.El)),
      (∀ ps ∈ xs, ∀ p ∈ ps, Stored k p.1 ∧ Stored b p.2) → (∀ ps ∈ xs, ps.Pairwise fun p q => p.1 ≠ q.1) →
      ∃ c, hashOf k b xs = .ok c ∧ c.sqlType = .map u t := by
  have hof : ∀ {b : Base} {t}, declared b = some t → typeOf b = t := by
    intro b t h
    cases b <;> simp only [declared, Option.some.injEq, reduceCtorEq] at h <;> exact h
  have hd : b ≠ .decimal := by rintro rfl; cases ht
  have e := hof ht
  refine ⟨fun xs => ?_, fun xs hx => ?_, fun T hT xs hx => ?_, fun T k u hT hk hu xs hx hp => ?_⟩
  · subst e
    cases b <;> first | exact ⟨_, rfl, rfl⟩ | exact absurd rfl hd
  · have push : PlainType (typeOf b) → emptyCol defaultTz (typeOf b) = .ok (noRows b) →
        optOf b xs = pushAllWith Col.push (.nullable [] (noRows b)) (xs.map (optValue b)) →
        ∃ c, optOf b xs = .ok c ∧ c.sqlType = .nullable t := by
      intro h1 h2 h3
      obtain ⟨c, g1, -, g2, -⟩ := optPush_ok hd hx h1 h2
      exact ⟨c, h3.trans g1, by rw [g2, e]⟩
    cases b with
    | num t => exact push trivial rfl rfl
    | text => exact push trivial rfl rfl
    | bytes => exact push trivial rfl rfl
    | date => exact push trivial rfl rfl
    | decimal => exact absurd rfl hd
    | _ => subst e; exact ⟨_, rfl, rfl⟩
  · obtain ⟨c, g1, -, g2, -⟩ := vecOf_ok hT hx
    exact ⟨c, g1, by rw [g2, e]⟩
  · obtain ⟨c, g1, -, g2, -⟩ := hashOf_ok hk hT hx hp
    exact ⟨c, g1, by rw [g2, e, hof hu]⟩

example : ∃ c, vecOf (.num .u16) [[1, 2], []] = .ok c ∧ c.sqlType = .array (.num .u16) :=
  (C64_type (b := .num .u16) rfl).2.2.1 _ rfl _ (by
    intro ys hy y hy'
    simp only [List.mem_cons, List.not_mem_nil, or_false] at hy
    rcases hy with rfl | rfl
    · simp at hy'
      rcases hy' with rfl | rfl <;> (show _ < _; decide)
    · simp at hy')

/-! ### C47: failing sockets -/

/-- C47. When the socket fails while a packet stream is receiving and no complete message is in the buffer or delivered before the
failure by the same poll, the poll reports a broken connection. -/
theorem C47_socket_failure (env : Env) (t : Transport) (st : PState) (rb : Bool) (bs : List Bytes) (rest : List ReadEv)
    (wevs : List WriteEv) (hs : st = .receive ∨ st = .yield) (hd : t.done = false) (hb : ∀ b ∈ bs, b ≠ [])
    (hm : parsePacket env t.info t.rd = .more) :
    ∃ s', PStream.pollNext env ⟨some t, st, rb⟩ (bs.map .ready ++ .fail :: rest) wevs = (.broken, [], s', rest, wevs) ∧
      ∃ t', s'.inner = some t' ∧ t'.rd = t.rd ++ bs.flatten := by
  have hr : ∀ (bs : List Bytes) (start : Nat) (rd : Bytes), (∀ b ∈ bs, b ≠ []) →
      readToEnd start (bs.map .ready ++ .fail :: rest) rd = (.fail, rd ++ bs.flatten, rest) := by
    intro bs
    induction bs with
    | nil => intro start rd _; simp [readToEnd]
    | cons b bs ih =>
      intro start rd h
      rw [List.map_cons, List.cons_append, readToEnd, if_neg (h b (by simp)), ih _ _ (fun x hx => h x (by simp [hx]))]
      simp
  have hf : fillLoop (bs.map .ready ++ .fail :: rest) t.rd = (.broken, t.rd ++ bs.flatten, rest) := by
    rw [fillLoop]
    split <;> rename_i h <;> rw [hr bs _ _ hb] at h <;> simp at h ⊢
    exact ⟨h.1.symm, h.2.symm⟩
  have hp : t.pollNext env (bs.map .ready ++ .fail :: rest) = (.broken, { t with rd := t.rd ++ bs.flatten }, rest) := by
    have hfp : t.fillAndParse env (bs.map .ready ++ .fail :: rest) = (.broken, { t with rd := t.rd ++ bs.flatten }, rest) := by
      rw [Transport.fillAndParse, hd]
      simp only [Bool.false_eq_true, if_false, hf]
    have htp : t.tryParse env = (.pending, t) := by simp only [Transport.tryParse, hm]
    rw [Transport.pollNext]
    split
    · simp only [htp]; exact hfp
    · exact hfp
  refine ⟨⟨some { t with rd := t.rd ++ bs.flatten }, .receive, rb⟩, ?_, _, rfl, rfl⟩
  rcases hs with rfl | rfl <;> simp only [PStream.pollNext, PStream.receive, hp]

example (env : Env) : parsePacket env (Transport.new false).info (Transport.new false).rd = .more := parsePacket_nil _ _

/-! ### C57: optional values behind adapters -/

/-- C57. The adapters read optional cells as `Option<T>` does; where that is an error, they panic. -/
theorem C57_adapters (w : EnumW) (v : Value) :
    (optFromSql decFromSql v = .ok none ↔ fromSql (.opt .decimal) v = .ok .none) ∧
    (∀ d, optFromSql decFromSql v = .ok (some d) ↔ fromSql (.opt .decimal) v = .ok (.some (.decimal d))) ∧
    (optFromSql decFromSql v = .panic ↔ ∃ e, fromSql (.opt .decimal) v = .err e) ∧
    (optFromSql (enumFromSql w) v = .ok none ↔ fromSql (.opt (.enum w)) v = .ok .none) ∧
    (∀ x, optFromSql (enumFromSql w) v = .ok (some x) ↔ fromSql (.opt (.enum w)) v = .ok (.some (.enum x))) ∧
    (optFromSql (enumFromSql w) v = .panic ↔ ∃ e, fromSql (.opt (.enum w)) v = .err e) ∧
    (optFromSql bytesFromSql v = .ok none ↔ fromSql (.opt .bytes) v = .ok .none) ∧
    (∀ x, optFromSql bytesFromSql v = .ok (some x) ↔ fromSql (.opt .bytes) v = .ok (.some (.bytes x))) ∧
    (optFromSql bytesFromSql v = .panic ↔ ∃ e, fromSql (.opt .bytes) v = .err e) := by
  cases v with
  | some u =>
    cases u <;> simp [optFromSql, fromSql, decFromSql, enumFromSql, bytesFromSql, Value.asBytes, Out.unwrap]
    rename_i w' _ _
    by_cases hw : w' = w <;> simp [hw]
  | _ => simp [optFromSql, fromSql]

example : ∃ e, fromSql (.opt .decimal) (.num .u8 1) = .err e := ⟨_, rfl⟩

/-! ### C55: values with the same contents -/

/-- C55. Owned values that differ at most in the zones of times and the signs of zeros compare equal. (`_partial`: `Alike` has no
maps, `C55_own_map_violated`, and no times of different precision.) -/
theorem C55_own_alike_partial (v w : Value) (h : Alike v w) : ownEq v w = .ok true := by
  have arr : ∀ {as bs : List Value}, as.length = bs.length →
      (∀ (i : Nat) a b, as[i]? = some a → bs[i]? = some b → ownEq a b = .ok true) → ownEqs as bs = .ok true := by
    intro as
    induction as with
    | nil => intro bs hl _; cases bs <;> rfl
    | cons a as ih =>
      intro bs hl h
      cases bs with
      | nil => simp at hl
      | cons b bs =>
        rw [ownEqs, h 0 a b rfl rfl, obind_ok, if_pos rfl]
        exact ih (by simpa using hl) fun i x y hx hy => h (i + 1) x y (by simpa using hx) (by simpa using hy)
  induction h with
  | num hs ha hb => simp [ownEq, numEq_of_same hs ha hb]
  | some _ ih => simpa [ownEq] using ih
  | array hl _ ih => simp only [ownEq]; simp only [true_and]; rw [if_pos hl]; exact arr hl ih
  | dt64 hp h1 h2 =>
    rename_i a p z z'
    have hc : checkI64 (a * 10 ^ (9 - p)) = .ok (a * 10 ^ (9 - p)) := by
      rw [checkI64, if_pos (by simpa [i64Min, i64Max] using ⟨h1, h2⟩)]
    simp [ownEq, dt64Eq, multiplier, hp, hc]
  | decimal hs hu => simp [ownEq, Decimal.eq, hs, hu]
  | _ => simp [ownEq]

/-- C55, borrowed values likewise, where they compare equal to themselves (`RefSane`; the others are the subject of
`C55_ref_kinds_violated` and `C55_ref_dt64_violated`). -/
theorem C55_ref_alike_partial (v w : Value) (h : Alike v w) (hr : RefSane v) : refEq v w = .ok true := by
  have arr : ∀ {as bs : List Value}, as.length = bs.length →
      (∀ (i : Nat) a b, as[i]? = some a → bs[i]? = some b → refEq a b = .ok true) → refEqs as bs = .ok true := by
    intro as
    induction as with
    | nil => intro bs hl _; cases bs <;> rfl
    | cons a as ih =>
      intro bs hl h
      cases bs with
      | nil => simp at hl
      | cons b bs =>
        rw [refEqs, h 0 a b rfl rfl, obind_ok, if_pos rfl]
        exact ih (by simpa using hl) fun i x y hx hy => h (i + 1) x y (by simpa using hx) (by simpa using hy)
  induction h with
  | num hs ha hb => cases hr with | num h1 _ => simp [refEq, numEq_of_same hs ha hb, h1]
  | some _ ih => cases hr with | some hr => simpa [refEq] using ih hr
  | array hl _ ih =>
    cases hr with
    | array hr =>
      simp only [refEq, true_and]; rw [if_pos hl]
      exact arr hl fun i a b ha hb => ih i a b ha hb (hr a (List.mem_of_getElem? ha))
  | dt64 =>
    cases hr with
    | dt64 hp h1 h2 h3 =>
      obtain ⟨s, n, h, _⟩ := toDatetime_ok hp h1 h2 h3
      simp [refEq, h]
  | decimal hs hu => simp [refEq, Decimal.eq, hs, hu]
  | chrono => cases hr
  | ip => cases hr
  | _ => simp [refEq]

example : Alike (.array (.num .f64) [.num .f64 (2 ^ 63)]) (.array (.num .f64) [.num .f64 0]) ∧
    RefSane (.array (.num .f64) [.num .f64 (2 ^ 63)]) := by
  refine ⟨.array rfl fun i a b ha hb => ?_, .array fun v hv => ?_⟩
  · cases i with
    | zero =>
      simp only [List.getElem?_cons_zero, Option.some.injEq] at ha hb
      subst ha; subst hb
      exact .num (by simp [SameNum]) (by simp [NaN]) (by simp [NaN])
    | succ i => simp at ha
  · simp only [List.mem_singleton] at hv; subst hv; exact .num (by decide) (by simp [NaN])

/-! ### C32: the zone of a new column; C35: the rest of the query -/

/-- Columns of times in the given zone, possibly inside nullables and arrays. -/
inductive Zoned (z : Tz) : SqlType → Col → Prop
  | time {xs} : Zoned z .chrono (.chrono z xs)
  | nullable {t c ns} : Zoned z t c → Zoned z (.nullable t) (.nullable ns c)
  | array {t c offs} : Zoned z t c → Zoned z (.array t) (.array offs c)

theorem Zoned.zone {z : Tz} {t : SqlType} {c : Col} (h : Zoned z t c) : c.timezone = some z ∧ c.sqlType = t := by
  induction h with
  | time => exact ⟨rfl, rfl⟩
  | nullable _ ih => exact ⟨ih.1, by simp [Col.sqlType, ih.2]⟩
  | array _ ih => exact ⟨ih.1, by simp [Col.sqlType, ih.2]⟩

theorem Zoned.push {z : Tz} {t : SqlType} : ∀ {c d : Col} {v : Value}, Zoned z t c → pushT t c v = .ok d → Zoned z t d := by
  induction t with
  | chrono =>
    intro c d v h e
    cases h
    rw [pushT] at e
    obtain ⟨_, _, e⟩ := obind_eq_ok e
    cases e; exact .time
  | nullable t ih =>
    intro c d v h e
    cases h with
    | nullable h =>
      cases v <;> simp only [pushT] at e <;> obtain ⟨c', e1, e2⟩ := obind_eq_ok e <;> cases e2 <;> exact .nullable (ih h e1)
  | array t ih =>
    intro c d v h e
    cases h with
    | array h =>
      have all : ∀ (vs : List Value) (c d : Col), Zoned z t c → pushAllWith (pushT t) c vs = .ok d → Zoned z t d := by
        intro vs
        induction vs with
        | nil => intro c d h e; cases e; exact h
        | cons v vs ih2 =>
          intro c d h e
          rw [pushAllWith] at e
          obtain ⟨c', e1, e2⟩ := obind_eq_ok e
          exact ih2 c' d (ih h e1) e2
      cases v with
      | array t' vs =>
        simp only [pushT] at e
        obtain ⟨c', e1, e2⟩ := obind_eq_ok e
        cases e2
        exact .array (all _ _ _ h e1)
      | _ => simp only [pushT] at e; cases e
  | _ => intro c d v h e; cases h

theorem emptyCol_zoned {v : Value} {z : Tz} (h : FirstTime v z) : v.timezone = z ∧ ∃ t c, emptyCol z v.sqlType = .ok c ∧ Zoned z t c := by
  induction h with
  | time => exact ⟨rfl, _, _, rfl, .time⟩
  | some _ ih =>
    obtain ⟨h1, t, c, h2, h3⟩ := ih
    exact ⟨h1, _, _, by rw [Value.sqlType, emptyCol, h2]; rfl, .nullable h3⟩
  | array ht _ ih =>
    obtain ⟨h1, t, c, h2, h3⟩ := ih
    exact ⟨h1, _, _, by rw [Value.sqlType, ht, emptyCol, h2]; rfl, .array h3⟩

/-- C32. The column made for a new name has the zone of the first time in the value. -/
theorem C32_new_zone (b b' : Block) (key : String) (v : Value) (z : Tz) (hn : key ∉ names b) (hv : FirstTime v z)
    (h : b.putParam key v = .done b') :
    ∃ c, b'.columns = b.columns ++ [⟨key, c⟩] ∧ c.timezone = some z := by
  obtain ⟨hz, t, c0, h0, hc⟩ := emptyCol_zoned hv
  have hfresh : ∀ c ∈ b.columns, c.name ≠ key := fun c hc e => hn (List.mem_map.mpr ⟨c, hc, e⟩)
  have hfind : findName key 0 (b.columns ++ [⟨key, c0⟩]) = .ok b.columns.length := by
    refine findName_first (b := { b with columns := b.columns ++ [⟨key, c0⟩] }) ⟨⟨⟨key, c0⟩, by simp, rfl⟩, fun j c hj hc => ?_⟩
    simp only [List.getElem?_append_left hj] at hc
    exact hfresh c (List.mem_of_getElem? hc)
  simp only [Block.putParam, findName_none hfresh, hz, h0, hfind] at h
  cases hr : b.rowCount with
  | err e => rw [hr] at h; cases h
  | panic => rw [hr] at h; cases h
  | ok n =>
    rw [hr] at h
    by_cases h1 : n ≤ 1
    · simp only [h1, if_true] at h
      have hg : (b.columns ++ [(⟨key, c0⟩ : NCol)])[b.columns.length]? = some ⟨key, c0⟩ := by simp
      simp only [Block.pushAt, hg, Col.push, hc.zone.2] at h
      cases e : pushT t c0 v with
      | ok d => rw [e] at h; cases h; exact ⟨d, by simp, (hc.push e).zone.1⟩
      | err x => rw [e] at h; cases h
      | panic => rw [e] at h; cases h
    · simp only [h1, if_false] at h
      cases h

example : FirstTime (.array (.nullable .datetime) [.some (.datetime 5 "Asia/Tokyo".toList), .null .datetime]) "Asia/Tokyo".toList ∧
    ∃ b', (Block.mk BlockInfo.default []).putParam "a" (.array (.nullable .datetime) [.some (.datetime 5 "Asia/Tokyo".toList), .null .datetime]) = .done b' :=
  ⟨.array rfl (.some .time), _, rfl⟩

/-- C35. Of the query given for an INSERT only the text changes: its id is kept. -/
theorem C35_query_id (numeric : Char → Bool) (table q : Query) (b : Block) (h : makeQuery numeric table b = .ok q) : q.id = table.id := by
  rw [makeQuery] at h
  obtain ⟨_, _, h⟩ := obind_eq_ok h
  cases h; rfl

example : ∃ q, makeQuery (fun c => c.isDigit) ⟨"t", "id"⟩ ⟨BlockInfo.default, [⟨"a", .num .u8 [1]⟩]⟩ = .ok q ∧ q.id = "id" := ⟨_, rfl, rfl⟩

end CH.Props
