import Verif.Lemmas.Into

/-! C75: Rust values put into a `Value` and taken out of it. -/

namespace CH.Props

open CH CH.Spec

/-- **C75**, typed reads: a Rust value turned into a `Value` can be borrowed and is then read as the same Rust value. Missing (shown
to fail below): `DateTime<Tz>`, `[u8; 4]`, dates and UTC times out of range, maps with other keys. -/
theorem C75_read_back_partial {t : RustTy} {x : t.El} (hb : Borrows t) (hh : Held t x) :
    ∃ v w r, toValue t x = .ok v ∧ toRef v = .ok w ∧ fromSql (askedFor t) w = .ok r ∧ Returns t x r := by
  obtain ⟨v, r, h1, h2, h3, h4⟩ := made_back hb hh
  exact ⟨v, v, r, h1, (borrow_id v h2).1, h3, h4⟩

/-- A map from names to maps of dates by number. -/
example : Borrows (.hmap .text (.hmap (.num .u16) .date)) ∧
    Held (.hmap .text (.hmap (.num .u16) .date)) [("a", [((1 : Nat), (65535 : Int)), ((2 : Nat), (0 : Int))]), ("b", [])] := by
  refine ⟨trivial, .inl rfl, ?_, ?_⟩
  · show ["a", "b"].Nodup
    decide
  · intro p hp
    rcases List.mem_cons.mp hp with rfl | hp
    · refine ⟨.inr ⟨.u16, rfl, by decide, by decide, by decide⟩, (by decide : [1, 2].Nodup), ?_⟩
      intro q hq
      rcases List.mem_cons.mp hq with rfl | hq
      · exact ⟨by decide, by decide⟩
      · rcases List.mem_cons.mp hq with rfl | hq
        · exact ⟨by decide, by decide⟩
        · cases hq
    · rcases List.mem_cons.mp hp with rfl | hp
      · refine ⟨.inr ⟨.u16, rfl, by decide, by decide, by decide⟩, (by decide : ([] : List Nat).Nodup), ?_⟩
        intro q hq
        cases hq
      · cases hp

/-- **C75**, `From<Value>`: what was put in is taken out. Missing (shown to fail below): dates and UTC times out of range. -/
theorem C75_back_partial {t : RustTy} {x : t.El} {k : Taker} (hk : taker t = some k) (hh : Held t x) :
    ∃ v r, toValue t x = .ok v ∧ takeOut k v = .ok r ∧ Returns t x r := by
  cases t <;> simp only [taker, Option.some.injEq, reduceCtorEq] at hk <;> subst hk
  case num t => exact ⟨_, .num x, rfl, by simp [takeOut], rfl⟩
  case text =>
    refine ⟨_, .text x, rfl, ?_, rfl⟩
    show (match strOfBytes? (strBytes (show String from x)) with | some s => Out.ok (RustVal.text s) | none => .panic) = _
    rw [strOfBytes_strBytes]
  case bytes => exact ⟨_, .bytes x, rfl, rfl, rfl⟩
  case date => exact ⟨_, .date (getDays x), rfl, rfl, _, rfl, (getDays_of hh).1⟩
  case time => exact ⟨_, _, rfl, rfl, rfl⟩
  case utc =>
    obtain ⟨s, n⟩ := x
    obtain ⟨h1, h2, h3⟩ := hh
    dsimp only at h1 h2 h3
    subst h3
    refine ⟨_, .time (asU32 s) 0 "UTC".toList, rfl, rfl, ?_⟩
    simp only [Returns]
    rw [(asU32_range ⟨h1, h2⟩).1]
  case octets4 => exact ⟨_, .ip x, rfl, rfl, rfl⟩

/-- A time before 1970 with a fraction, in a zone. -/
example : taker .time = some .time ∧ Held .time ((-1, 500000000, "Asia/Tokyo".toList) : Int × Nat × Tz) := ⟨rfl, trivial⟩

/-- **C75**, `From<Value>` is exact: it gives a Rust value only if the `Value` holds it, and panics otherwise (it has no other way
to refuse). Missing (shown to fail below): precisions above 18. -/
theorem C75_exact_partial {k : Taker} {v : Value} (hp : ∀ x p z, v = .dt64 x p z → p < 19) :
    (∀ r, takeOut k v = .ok r → Holds k v r) ∧ ∀ e, takeOut k v ≠ .err e := by
  have h64 : ∀ {x : Int} {p : Nat}, (∀ e, toDatetime x p ≠ .err e) := by
    intro x p e h
    unfold toDatetime at h
    by_cases h1 : p < 19
    · rw [if_pos h1] at h
      by_cases h2 : p ≤ 9
      · rw [if_pos h2] at h
        unfold checkI64 at h
        split at h
        · rw [obind_ok] at h
          dsimp only at h
          split at h <;> cases h
        · cases h
      · rw [if_neg h2] at h; cases h
    · rw [if_neg h1, obind_ok] at h
      dsimp only at h
      split at h <;> cases h
  cases k with
  | num t =>
    cases v <;> simp only [takeOut] <;> try (refine ⟨?_, ?_⟩ <;> intro _ h <;> cases h; done)
    case num t' x =>
      split
      · rename_i e; subst e
        exact ⟨fun r h => by cases h; exact .num, nofun⟩
      · exact ⟨nofun, nofun⟩
  | octets4 =>
    cases v <;> try (refine ⟨?_, ?_⟩ <;> intro _ h <;> cases h; done)
    case ip kk b =>
      cases kk <;> try (refine ⟨?_, ?_⟩ <;> intro _ h <;> cases h; done)
      exact ⟨fun r h => by cases h; exact .octets4, nofun⟩
  | text =>
    cases v <;> try (refine ⟨?_, ?_⟩ <;> intro _ h <;> cases h; done)
    case str b =>
      simp only [takeOut]
      cases hs : strOfBytes? b with
      | none => exact ⟨nofun, nofun⟩
      | some s =>
        refine ⟨fun r h => ?_, nofun⟩
        cases h
        rw [← strOfBytes_some hs]
        exact .text
  | bytes =>
    cases v <;> try (refine ⟨?_, ?_⟩ <;> intro _ h <;> cases h; done)
    exact ⟨fun r h => by cases h; exact .bytes, nofun⟩
  | date =>
    cases v <;> try (refine ⟨?_, ?_⟩ <;> intro _ h <;> cases h; done)
    exact ⟨fun r h => by cases h; exact .date, nofun⟩
  | time =>
    cases v <;> try (refine ⟨?_, ?_⟩ <;> intro _ h <;> cases h; done)
    case datetime s z => exact ⟨fun r h => by cases h; exact .time, nofun⟩
    case chrono s n z => exact ⟨fun r h => by cases h; exact .chrono, nofun⟩
    case dt64 x p z =>
      have hp := hp x p z rfl
      simp only [takeOut, Value.toAppDateTime]
      cases ht : toDatetime x p with
      | panic => exact ⟨nofun, nofun⟩
      | err e => exact absurd ht (h64 e)
      | ok sn =>
        obtain ⟨s, n⟩ := sn
        refine ⟨fun r h => ?_, nofun⟩
        cases h
        by_cases h9 : p ≤ 9
        · have := toDatetime_exact h9 ht
          exact .time64 h9 this.1 this.2
        · exfalso
          unfold toDatetime at ht
          rw [if_pos hp, if_neg h9] at ht
          cases ht

example : ∀ x p z, (Value.dt64 1500 3 "UTC".toList) = .dt64 x p z → p < 19 := by
  rintro _ _ _ ⟨⟩; decide

/-- **C75**, the other direction: what a `Value` holds is taken out of it. Missing: times that do not fit 64 bits of nanoseconds or
have a fraction before 1970, on which the conversion panics (`C75_time_violated`). -/
theorem C75_takes_partial {k : Taker} {v : Value} {r : RustVal} (h : Holds k v r) (ht : TimelyCell v) : takeOut k v = .ok r := by
  cases h with
  | num => simp [takeOut]
  | octets4 => rfl
  | text => rw [takeOut, strOfBytes_strBytes]
  | bytes => rfl
  | date => rfl
  | time => rfl
  | chrono => rfl
  | @time64 x p z s n h1 h2 h3 =>
    obtain ⟨_, t1, t2, t3⟩ := ht
    obtain ⟨s', n', e, g1, g2⟩ := toDatetime_ok h1 t1 t2 t3
    have hs : s' = s ∧ n' = n := by omega
    obtain ⟨rfl, rfl⟩ := hs
    simp only [takeOut, Value.toAppDateTime, e, obind_ok]
    rfl

example : Holds .time (.dt64 1500 3 "UTC".toList) (.time 1 500000000 "UTC".toList) ∧ TimelyCell (.dt64 1500 3 "UTC".toList) :=
  ⟨.time64 (by decide) (by decide) (by decide), by decide, by decide, by decide, .inl (by decide)⟩

/-- **C75**, the type: the `Value` of a Rust value has the column type of the Rust type; `None` and `Some` have the same. -/
theorem C75_type {t : RustTy} {x : t.El} {s : SqlType} {v : Value} (hl : Legal t) (hs : declares t = some s)
    (h : toValue t x = .ok v) : v.sqlType = s := by
  induction t generalizing s v with
  | opt t ih =>
    obtain ⟨h1, h2⟩ := hl
    have e := declares_typed h1 h2
    rw [declares, e] at hs
    cases hs
    cases x with
    | none => cases h; rfl
    | some y =>
      simp only [toValue] at h
      obtain ⟨w, hw, h⟩ := obind_eq_ok h
      cases h
      rw [Value.sqlType, ih h2 e hw]
  | hmap k v' _ _ =>
    have e := declares_typed (t := .hmap k v') trivial hl
    rw [e] at hs
    cases hs
    simp only [toValue] at h
    obtain ⟨ps, _, h⟩ := obind_eq_ok h
    obtain ⟨m, _, h⟩ := obind_eq_ok h
    cases h
    rfl
  | decimal => cases hs
  | _ => cases hs; cases h; rfl

example : Legal (.opt (.hmap .text .time)) ∧ declares (.opt (.hmap .text .time)) = some (.nullable (.map .string .datetime)) ∧
    toValue (.opt (.hmap .text .time)) none = .ok (.null (.map .string .datetime)) := by
  simp [Legal, Legal.Typed, Legal.KeyTy, declares, toValue, RustTy.sqlType]

/-! ### Where C75 fails -/

/-- **C75** fails: a date outside 1970 to 2149 becomes another date, and no error says so. -/
theorem C75_date_violated {d : Int} (h : d < 0 ∨ 65536 ≤ d) :
    ∃ v n, toValue .date d = .ok v ∧ takeOut .date v = .ok (.date n) ∧ (n : Int) ≠ d := by
  refine ⟨_, getDays d, rfl, rfl, ?_⟩
  unfold getDays
  omega

/-- 1969-12-31 is taken out as 2149-06-06. -/
example : (-1 : Int) < 0 ∨ 65536 ≤ (-1 : Int) := by decide

/-- **C75** fails: a UTC time outside 1970 to 2106, or with a fraction of a second, becomes another time. -/
theorem C75_utc_violated {s : Int} {n : Nat} (h : s < 0 ∨ 2 ^ 32 ≤ s ∨ n ≠ 0) :
    ∃ v s' n' z, toValue .utc ((s, n) : Int × Nat) = .ok v ∧ takeOut .time v = .ok (.time s' n' z) ∧ (s', n') ≠ (s, n) := by
  refine ⟨_, _, _, _, rfl, rfl, ?_⟩
  unfold asU32
  simp only [ne_eq, Prod.mk.injEq]
  omega

example : (1000000000 : Int) < 0 ∨ 2 ^ 32 ≤ (1000000000 : Int) ∨ (5 : Nat) ≠ 0 := by decide

/-- **C75** fails: four octets are stored in the order given, but addresses are stored backwards; unless the octets read the same
both ways, the address read differs from the one given. -/
theorem C75_octets_violated {o : Bytes} (h : o.reverse ≠ o) :
    ∃ v o', toValue .octets4 o = .ok v ∧ toRef v = .ok v ∧ fromSql (.ip .v4) v = .ok (.ip o') ∧ o' ≠ o :=
  ⟨.ip .v4 o, o.reverse, rfl, rfl, rfl, h⟩

/-- 127.0.0.1 is read as 1.0.0.127. -/
example : ([127, 0, 0, 1] : Bytes).reverse ≠ [127, 0, 0, 1] := by decide

/-- **C75** fails: the `Value` of a `DateTime<Tz>` cannot be borrowed, so it cannot be read as any type. -/
theorem C75_chrono_violated (x : Int × Nat × Tz) : ∃ v, toValue .time x = .ok v ∧ toRef v = .panic := ⟨_, rfl, rfl⟩

/-- **C75** fails: a map with `bool` or `DateTime<Tz>` keys, which Rust allows, cannot be turned into a `Value`; one with date keys
can, but not borrowed. -/
theorem C75_keys_violated (b : Nat) (x : Int × Nat × Tz) (d : Int) :
    Legal (.hmap (.num .bool) .text) ∧ toValue (.hmap (.num .bool) .text) [(b, "")] = .panic ∧
    Legal (.hmap .time .text) ∧ toValue (.hmap .time .text) [(x, "")] = .panic ∧
    Legal (.hmap .date .text) ∧ ∃ v, toValue (.hmap .date .text) [(d, "")] = .ok v ∧ toRef v = .panic := by
  refine ⟨?_, rfl, ?_, rfl, ?_, _, rfl, rfl⟩ <;> simp [Legal, Legal.KeyTy, Legal.Typed]

/-- **C75** fails: two dates 65536 days apart, different keys, become one key; the map loses a pair. -/
theorem C75_date_keys_violated : toValue (.hmap .date (.num .u8)) [((0 : Int), (1 : Nat)), ((65536 : Int), (2 : Nat))] =
    .ok (.map .date (.num .u8) [.date 0] [.num .u8 2]) := rfl

/-- **C75** fails: from precision 19 on, every sub-second time is taken out as 1970-01-01. -/
theorem C75_precision_violated {x : Int} {p : Nat} (h : 19 ≤ p) (z : Tz) :
    takeOut .time (.dt64 x p z) = .ok (.time 0 0 z) := by
  have : toDatetime x p = .ok (0, 0) := by
    unfold toDatetime; rw [if_neg (by omega)]; rfl
  simp only [takeOut, Value.toAppDateTime, this, obind_ok]; rfl

example : (19 : Nat) ≤ 19 := by decide

/-- **C75** fails: half a second before 1970 is held by a `Value` of precision 1, but taking it out panics. -/
theorem C75_time_violated (z : Tz) : Holds .time (.dt64 (-5) 1 z) (.time (-1) 500000000 z) ∧
    takeOut .time (.dt64 (-5) 1 z) = .panic :=
  ⟨.time64 (by decide) (by decide) (by decide), rfl⟩

/-- A typed read and `From<Value>` agree: whenever one gives a Rust value, so does the other, and the same one; only the way of
refusing differs. (A `DateTime<Tz>` inside a `Value` has no borrowed form.) -/
theorem C75_agree {T : Target} {k : Taker} {v : Value} {r : RustVal}
    (hk : (∃ t, T = .num t ∧ k = .num t) ∨ (T = .text ∧ k = .text) ∨ (T = .bytes ∧ k = .bytes) ∨ (T = .date ∧ k = .date) ∨
      (T = .time ∧ k = .time)) (hv : ∀ s n z, v ≠ .chrono s n z) :
    fromSql T v = .ok r ↔ takeOut k v = .ok r := by
  rcases hk with ⟨t, rfl, rfl⟩ | ⟨rfl, rfl⟩ | ⟨rfl, rfl⟩ | ⟨rfl, rfl⟩ | ⟨rfl, rfl⟩
  · cases v <;> simp only [fromSql, takeOut, reduceCtorEq]
    split <;> simp
  · cases v <;> simp only [fromSql, takeOut, Value.asStr, reduceCtorEq]
    rename_i b
    cases strOfBytes? b <;> simp
  · cases v <;> simp [fromSql, takeOut, Value.asBytes]
  · cases v <;> simp [fromSql, takeOut]
  · cases v <;> simp only [fromSql, takeOut, Value.toAppDateTime, reduceCtorEq] <;> try exact Iff.rfl
    all_goals try (constructor <;> intro h <;> cases h; done)
    case chrono s n z => exact absurd rfl (hv s n z)
    case dt64 x p z => cases toDatetime x p <;> exact Iff.rfl

example : ∀ s n z, Value.dt64 1500 3 "UTC".toList ≠ .chrono s n z := nofun

end CH.Props
