import Verif.Lemmas.Trip

namespace CH.Trip
open CH CH.Spec CH.Props

theorem alikeRows_trans {X Y Z : List (List Value)} (h : AlikeRows X Y) (h' : AlikeRows Y Z) : AlikeRows X Z := by
  refine ⟨h.1.trans h'.1, fun i x z hx hz => ?_⟩
  have hi := (List.getElem?_eq_some_iff.mp hx).1
  have hy := List.getElem?_eq_getElem (l := Y) (i := i) (h.1 ▸ hi)
  exact reorderedCells_trans (h.2 i x _ hx hy) (h'.2 i _ z hy hz)

theorem alikeRows_refl (X : List (List Value)) : AlikeRows X X :=
  ⟨rfl, fun i x y h1 h2 => by
    rw [h1] at h2
    cases h2
    exact ⟨rfl, fun j v w e1 e2 => by rw [e1] at e2; cases e2; exact .same⟩⟩

theorem alike_of_said {said said' : List Said} (h1 : said'.length = said.length)
    (h2 : ∀ (i : Nat) m m', said[i]? = some m → said'[i]? = some m' → ReorderedSaid m m')
    (hw : ∀ m ∈ said, ∀ i r c, m = .block i r c → (c = [] → r = 0) ∧ ∀ f ∈ c, f.cells.length = r) :
    AlikeRows (said.flatMap saidRows) (said'.flatMap saidRows) := by
  refine ⟨(alike_rows h1 h2).symm, fun i x y hx hy => ?_⟩
  obtain ⟨x', e1, e2⟩ := alike_cells h1 h2 hw hy
  rw [hx] at e1
  cases e1
  exact e2

/-- The same fields, but for the order of the entries of maps. -/
def Alike (fs fs' : List Field) : Prop :=
  fs'.length = fs.length ∧ ∀ (i : Nat) f f', fs[i]? = some f → fs'[i]? = some f' → f'.name = f.name ∧ f'.type = f.type ∧ ReorderedCells f.cells f'.cells

theorem alike_trans {X Y Z : List Field} (h : Alike X Y) (h' : Alike Y Z) : Alike X Z := by
  refine ⟨h'.1.trans h.1, fun i x z hx hz => ?_⟩
  have hi := (List.getElem?_eq_some_iff.mp hx).1
  have hy := List.getElem?_eq_getElem (l := Y) (i := i) (h.1 ▸ hi)
  obtain ⟨a1, a2, a3⟩ := h.2 i x _ hx hy
  obtain ⟨b1, b2, b3⟩ := h'.2 i _ z hy hz
  exact ⟨b1.trans a1, b2.trans a2, reorderedCells_trans a3 b3⟩

theorem alike_symm {X Y : List Field} (h : Alike X Y) : Alike Y X :=
  ⟨h.1.symm, fun i x y hx hy => by
    obtain ⟨a1, a2, a3⟩ := h.2 i y x hy hx
    exact ⟨a1.symm, a2.symm, reorderedCells_symm a3⟩⟩

theorem laid_alike {known : Tz → Bool} {tz : Tz} {info : BlockInfo} {r : Nat} {fs : List Field} {b : Bytes} (h : BlockLaid tz info r fs b)
    (hf : ∀ f ∈ fs, Flat f.type ∧ KeysHash f.type ∧ Nameable known f.type) (hr : r < 2 ^ 64) (hb : b.length < 2 ^ 56) :
    ∃ cs fs', (∀ rest, rawLoad known tz (b ++ rest) = .ok ⟨info, cs⟩ rest) ∧ Holding cs r fs' ∧ Alike fs fs' := by
  obtain ⟨cs, fs', h1, h2, h3, h4, h5, h6⟩ := C76_block_load_partial known tz info r fs b h hf hr hb
  obtain ⟨-, -, -, -, -, -, -, -, -, hl⟩ := h3
  refine ⟨cs, fs', h1, ⟨h2.trans h5.symm, h4, fun i c f' e1 e2 => ?_⟩, h5, fun i f f' e1 e2 => ?_⟩
  · have hi := (List.getElem?_eq_some_iff.mp e2).1
    exact ⟨(h6 i c _ f' e1 (List.getElem?_eq_getElem (by omega)) e2).1, hl f' (List.mem_of_getElem? e2)⟩
  · have hi := (List.getElem?_eq_some_iff.mp e2).1
    obtain ⟨-, g2, g3, -, g5⟩ := h6 i _ f f' (List.getElem?_eq_getElem (by omega)) e1 e2
    exact ⟨g2, g3, g5⟩

theorem understood_alike {env : Env} {kind : String → SettingKind} {known : Tz → Bool} {tz tz' : Tz} {q : Query} {ctx : Context}
    {types : List SqlType} (hne : types ≠ []) (ht : ∀ t ∈ types, Flat t ∧ KeysHash t ∧ Nameable known t) {b : Bytes} {p : List (Nat × List Field)}
    (h : Understood env kind tz tz' q ctx types b p) : ∀ {p'}, Understood env kind tz tz' q ctx types b p' →
      p'.length = p.length ∧ ∀ (i : Nat) x y, p[i]? = some x → p'[i]? = some y → y.1 = x.1 ∧ Alike x.2 y.2 := by
  induction h with
  | nil =>
    intro p' h'
    generalize hb : ([] : Bytes) = b' at h'
    cases h' with
    | nil => exact ⟨rfl, by simp⟩
    | cons => simp at hb
  | @cons stmt raw empty x y bytes info info' r fs pieces a1 a2 a3 a4 a5 a6 a7 a8 a9 _ ih =>
    intro p' h'
    generalize hb : stmt ++ ([2, 0] ++ x ++ ([2, 0] ++ y)) ++ bytes = b' at h'
    cases h' with
    | nil => simp at hb
    | @cons stmt' raw' empty' x' y' bytes' _ _ r' fs' pieces' b1 b2 b3 b4 b5 b6 b7 b8 b9 hrest =>
      have hfields : ∀ {fs : List Field}, fs.map (·.type) = types → ∀ f ∈ fs, Flat f.type ∧ KeysHash f.type ∧ Nameable known f.type :=
        fun e f hf => ht _ (e ▸ List.mem_map_of_mem hf)
      simp only [List.append_assoc] at hb
      obtain ⟨s1, _, e1, e2, -⟩ := a1 ([2, 0] ++ (x ++ ([2, 0] ++ (y ++ bytes))))
      obtain ⟨s2, _, e3, e4, -⟩ := b1 ([2, 0] ++ (x' ++ ([2, 0] ++ (y' ++ bytes'))))
      rw [hb, e3] at e1
      cases e1
      rw [e4] at e2
      injection e2 with _ e5
      have e5 : x' ++ ([2, 0] ++ (y' ++ bytes')) = x ++ ([2, 0] ++ (y ++ bytes)) := by simpa using e5
      obtain ⟨cs, gs, l1, l2, k1⟩ := laid_alike a3 (hfields a2) a5 a4
      obtain ⟨cs', gs', l3, l4, k2⟩ := laid_alike b3 (hfields b2) b5 b4
      have l5 := carried_load a6 l1 ([2, 0] ++ (y ++ bytes))
      have l6 := carried_load b6 l3 ([2, 0] ++ (y' ++ bytes'))
      rw [e5, l5] at l6
      injection l6 with l6 l7
      injection l6 with _ l6
      subst l6
      have hcs : cs ≠ [] := by
        rintro rfl
        rw [List.length_eq_zero_iff.mp (k1.1.symm.trans l2.1.symm)] at a2
        exact hne a2.symm
      obtain ⟨rfl, rfl⟩ := holding_same l2 l4 hcs
      have l7 : y ++ bytes = y' ++ bytes' := by simpa using l7
      obtain ⟨es, m1, -⟩ := laid_read (known := known) a7 (by simp) (by decide) a8
      obtain ⟨es', m3, -⟩ := laid_read (known := known) b7 (by simp) (by decide) b8
      have m5 := carried_load a9 m1 bytes
      have m6 := carried_load b9 m3 bytes'
      rw [l7, m6] at m5
      injection m5 with _ m5
      subst m5
      obtain ⟨i1, i2⟩ := ih hrest
      refine ⟨by simp [i1], fun i u v hu hv => ?_⟩
      cases i with
      | zero => cases hu; cases hv; exact ⟨rfl, alike_trans k1 (alike_symm k2)⟩
      | succ i => exact i2 i u v hu hv

theorem understood_laid {env : Env} {kind : String → SettingKind} {tz tz' : Tz} {q : Query} {ctx : Context} {types : List SqlType} {b : Bytes}
    {p : List (Nat × List Field)} (h : Understood env kind tz tz' q ctx types b p) :
    ∀ x ∈ p, x.2.map (·.type) = types ∧ ∀ f ∈ x.2, f.cells.length = x.1 := by
  induction h with
  | nil => simp
  | cons _ a2 a3 _ _ _ _ _ _ _ ih =>
    intro x hx
    rcases List.mem_cons.mp hx with rfl | hx
    · obtain ⟨-, -, -, -, -, -, -, -, -, hl⟩ := a3
      exact ⟨a2, hl⟩
    · exact ih x hx

/-- Two readings of the same bytes have the same rows, but for the order of the entries of maps. -/
theorem understood_rows {env : Env} {kind : String → SettingKind} {known : Tz → Bool} {tz tz' : Tz} {q : Query} {ctx : Context}
    {types : List SqlType} (hne : types ≠ []) (ht : ∀ t ∈ types, Flat t ∧ KeysHash t ∧ Nameable known t) {b : Bytes} {p p' : List (Nat × List Field)}
    (h : Understood env kind tz tz' q ctx types b p) (h' : Understood env kind tz tz' q ctx types b p') : AlikeRows (pieceRows p) (pieceRows p') := by
  obtain ⟨h1, h2⟩ := understood_alike hne ht h h'
  have := alike_of_said (said := p.map fun x => .block BlockInfo.default x.1 x.2) (said' := p'.map fun x => .block BlockInfo.default x.1 x.2)
    (by simp [h1]) (fun i m m' e1 e2 => by
      rw [List.getElem?_map] at e1 e2
      obtain ⟨x, f1, rfl⟩ := Option.map_eq_some_iff.mp e1
      obtain ⟨y, f2, rfl⟩ := Option.map_eq_some_iff.mp e2
      obtain ⟨g1, g2, g3⟩ := h2 i x y f1 f2
      exact ⟨rfl, g1, g2, g3⟩) (fun m hm i r c e => by
      obtain ⟨x, hx, rfl⟩ := List.mem_map.mp hm
      cases e
      obtain ⟨g1, g2⟩ := understood_laid h x hx
      exact ⟨fun e => absurd (by rw [← g1, e]; rfl) hne, g2⟩)
  rwa [List.flatMap_map, List.flatMap_map] at this

end CH.Trip
