import Verif.Lemmas.Cursor
import Verif.Props.Iter

/-! C73: typed iterators as iterators (/repo/src/types/column/iter/mod.rs). -/

namespace CH.Props
open Spec

/-- C73: on every column, asking for `next` any number of times gives the items that `Model/Iter.lean` says the column yields, then
`None` for ever; and if that iteration panics or leaves its memory, it does so at the same call. -/
theorem C73_next (zones : Zones) (c : Col) (T : ITy) :
    (∃ s r, c.cursor T = .ok s ∧ c.iter zones T = .ok r ∧ ∀ n, firstBy (T.next zones) n s = firstOf n r.items r.stop) ∨
    (∃ e, c.cursor T = .err e ∧ c.iter zones T = .err e) ∨ (c.cursor T = .panic ∧ c.iter zones T = .panic) := by
  have hm := cursor_meets zones c T c.sqlType 0
  cases hc : cursorWith c T c.sqlType 0 with
  | err e => rw [hc] at hm; exact .inr (.inl ⟨e, hc, hm⟩)
  | panic => rw [hc] at hm; exact .inr (.inr ⟨hc, hm⟩)
  | ok s =>
    rw [hc] at hm
    exact .inl ⟨s, _, hc, hm.2, fun n => firstBy_sim (next_sim zones T) n s hm.1⟩

/-- C73: if iterating a column yields as many items as it has rows, then any sequence of `next`, `nth`, `len`, `size_hint` and
`count` is answered as by the list of the items. -/
theorem C73_calls {zones : Zones} {c : Col} {T : ITy} {items : List Item} (h : c.iter zones T = .ok ⟨items, .done⟩)
    (hl : c.len = .ok items.length) :
    ∃ s, c.cursor T = .ok s ∧ ∀ asks, answersBy (T.next zones) (T.nth zones) T.len s asks = answersOf items asks := by
  obtain ⟨s, h1, h2⟩ := cursor_faithful h hl rfl
  exact ⟨s, h1, h2.answers⟩

example : exArrayMap.iter utcOnly (.vec (.hmap (.num .u8) .bytes)) =
      .ok ⟨[.vec [.hmap [.num .u8 7] [.bytes [97]], .hmap [] []], .vec []], .done⟩ ∧ exArrayMap.len = .ok 2 := ⟨rfl, rfl⟩

/-- C73 for the columns of C23: the list is that of the rows. Missing is what is missing there. -/
theorem C73_partial {zones : Zones} {c : Col} {T : ITy} {n : Nat} (hn : Native c) (hw : Walks .top T c.sqlType)
    (hk : Clocks zones T c) (hl : c.len = .ok n) (hr : ∀ i, i < n → ∃ v, c.at i = .ok v) :
    ∃ s items, c.cursor T = .ok s ∧ Lists T c.at n items ∧
      ∀ asks, answersBy (T.next zones) (T.nth zones) T.len s asks = answersOf items asks := by
  obtain ⟨items, h1, h2⟩ := C23_partial hn hw hk hl hr
  obtain ⟨s, h3, h4⟩ := C73_calls h1 (by rw [hl, h2.1])
  exact ⟨s, items, h3, h2, h4⟩

example : Native exDates ∧ Walks .top .date exDates.sqlType ∧ Clocks (fun _ _ => 43200) .date exDates ∧ exDates.len = .ok 3 ∧
    ∀ i, i < 3 → ∃ v, exDates.at i = .ok v := by
  refine ⟨trivial, Or.inl trivial, ⟨fun _ tz _ s => by simp, by simp⟩, rfl, fun i hi => ?_⟩
  match i with
  | 0 => exact ⟨_, rfl⟩
  | 1 => exact ⟨_, rfl⟩
  | 2 => exact ⟨_, rfl⟩
  | i + 3 => omega

/-- C73 for concatenated columns, whose iterator has only `next` and `nth`. -/
theorem C73_concat_partial {zones : Zones} {cs : List Col} {ls : List Nat} {T : ITy} {t : SqlType} (hne : cs ≠ [])
    (ht : ∀ c ∈ cs, c.sqlType = t) (hl : cs.map Col.len = ls.map .ok) (hn : ∀ c ∈ cs, Native c) (hw : Walks .top T t)
    (hk : ∀ c ∈ cs, Clocks zones T c) (hr : ∀ c ∈ cs, ∀ n i, c.len = .ok n → i < n → ∃ v, c.at i = .ok v) :
    ∃ cc s items, concatCols cs = .ok cc ∧ cc.cursor T = .ok s ∧ Lists T cc.at ls.sum items ∧
      ∀ asks, (∀ a ∈ asks, a ≠ .len) →
        answersBy (ComplexIt.next zones T) (nthDefault (ComplexIt.next zones T)) (fun _ => .panic) s asks = answersOf items asks := by
  obtain ⟨cc, items, h1, _, h2, h3⟩ := C23_concat_partial (zones := zones) hne ht hl hn hw hk hr
  rw [ConcatCol.iter] at h2
  obtain ⟨ty, h4, h5⟩ := obind_eq_ok h2
  simp only [pure, Out.ok.injEq] at h5
  refine ⟨cc, ⟨ty, cc.data, 0, none⟩, items, h1, ?_, h3, fun asks ha => ?_⟩
  · rw [ConcatCol.cursor, h4]; rfl
  · exact complex_answers (s := ⟨ty, cc.data, 0, none⟩) trivial h5 _ asks ha

example : ([.str [[1]], .str [], .str [[2], [3, 4]]] : List Col).map Col.len = ([1, 0, 2] : List Nat).map .ok ∧
    (∀ c ∈ ([.str [[1]], .str [], .str [[2], [3, 4]]] : List Col), c.sqlType = .string ∧ Native c ∧ Clocks utcOnly .bytes c) ∧
    Walks .top .bytes .string := by
  refine ⟨rfl, fun c hc => ?_, Or.inr rfl⟩
  simp only [List.mem_cons, List.not_mem_nil, or_false] at hc
  rcases hc with rfl | rfl | rfl <;> exact ⟨rfl, trivial, by simp, by simp⟩

/-- `nth` passes over an item whose reading would panic, where `next` as often does not: a dictionary of the server that lacks an
entry. -/
theorem C73_skip_violated : ∃ (c : Col) (s : ITy.bytes.State), c.cursor .bytes = .ok s ∧ c.len = .ok 2 ∧
    answersBy (ITy.next utcOnly .bytes) (ITy.nth utcOnly .bytes) (ITy.len .bytes) s [.nth 1] = [.item (some (.bytes [65]))] ∧
    answersBy (ITy.next utcOnly .bytes) (ITy.nth utcOnly .bytes) (ITy.len .bytes) s [.next, .next] = [.broken] :=
  ⟨.lowCard .u8 [7, 0] (.str [[65]]) none, _, rfl, rfl, rfl, rfl⟩

end CH.Props
