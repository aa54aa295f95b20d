import Verif.Spec.Trip
import Verif.Props.Native
import Verif.Props.Whole
import Verif.Lemmas.Store

namespace CH.Trip
open CH CH.Spec CH.Props

/-- The columns hold the fields of a block of `r` rows. -/
def Holding (cs : List NCol) (r : Nat) (fs : List Field) : Prop :=
  cs.length = fs.length ∧ (∀ c ∈ cs, c.data.len = .ok r) ∧ ∀ (i : Nat) c f, cs[i]? = some c → fs[i]? = some f → HoldsField c f ∧ f.cells.length = r

theorem holding_same {cs : List NCol} {r r' : Nat} {fs fs' : List Field} (h : Holding cs r fs) (h' : Holding cs r' fs') (hne : cs ≠ []) :
    r = r' ∧ fs = fs' := by
  obtain ⟨a1, a2, a3⟩ := h
  obtain ⟨b1, b2, b3⟩ := h'
  have hr : r = r' := by
    obtain ⟨c, cs, rfl⟩ := List.exists_cons_of_ne_nil hne
    have e := (a2 c (by simp)).symm.trans (b2 c (by simp))
    injection e
  refine ⟨hr, List.ext_getElem? fun i => ?_⟩
  by_cases hi : i < cs.length
  · have e0 := List.getElem?_eq_getElem hi
    have e1 := List.getElem?_eq_getElem (l := fs) (i := i) (by omega)
    have e2 := List.getElem?_eq_getElem (l := fs') (i := i) (by omega)
    rw [e1, e2]
    obtain ⟨⟨n1, t1, c1⟩, l1⟩ := a3 i _ _ e0 e1
    obtain ⟨⟨n2, t2, c2⟩, l2⟩ := b3 i _ _ e0 e2
    generalize fs[i]'(by omega) = f at *
    generalize fs'[i]'(by omega) = f' at *
    obtain ⟨fn, ft, fc⟩ := f
    obtain ⟨gn, gt, gc⟩ := f'
    simp only at n1 t1 c1 l1 n2 t2 c2 l2
    have hc : fc = gc := by
      apply List.ext_getElem?
      intro j
      by_cases hj : j < fc.length
      · have e3 := List.getElem?_eq_getElem hj
        have e4 := List.getElem?_eq_getElem (l := gc) (i := j) (by omega)
        have e5 := (c1 j _ e3).symm.trans (c2 j _ e4)
        injection e5 with e5
        rw [e3, e4, e5]
      · rw [List.getElem?_eq_none (by omega), List.getElem?_eq_none (by omega)]
    rw [← n1, ← n2, ← t1, ← t2, hc]
  · rw [List.getElem?_eq_none (by omega), List.getElem?_eq_none (by omega)]

theorem laid_read {known : Tz → Bool} {tz : Tz} {info : BlockInfo} {r : Nat} {fs : List Field} {b : Bytes} (h : BlockLaid tz info r fs b)
    (hf : ∀ f ∈ fs, Flat f.type ∧ MapFree f.type ∧ Nameable known f.type) (hr : r < 2 ^ 64) (hb : b.length < 2 ^ 56) :
    ∃ cs, (∀ rest, rawLoad known tz (b ++ rest) = .ok ⟨info, cs⟩ rest) ∧ Holding cs r fs := by
  obtain ⟨cs, fs', h1, h2, h3, h4, h5, h6⟩ := C76_block_load_partial known tz info r fs b h
    (fun f hm => ⟨(hf f hm).1, mapFree_keys (hf f hm).2.1, (hf f hm).2.2⟩) hr hb
  refine ⟨cs, h1, h2, h4, fun i c f e1 e2 => ?_⟩
  have hi := (List.getElem?_eq_some_iff.mp e2).1
  obtain ⟨g1, g2, g3, g4, -⟩ := h6 i c f _ e1 e2 (List.getElem?_eq_getElem (by omega))
  have hm : f ∈ fs := List.mem_of_getElem? e2
  obtain ⟨-, -, -, -, -, -, -, -, -, hl⟩ := h
  refine ⟨⟨by rw [g1.1, g2], by rw [g1.2.1, g3], ?_⟩, hl f hm⟩
  rw [← g4 (hf f hm).2.1]
  exact g1.2.2

theorem understood_same {env : Env} {kind : String → SettingKind} {known : Tz → Bool} {tz tz' : Tz} {q : Query} {ctx : Context}
    {types : List SqlType} (hne : types ≠ []) (ht : ∀ t ∈ types, Flat t ∧ MapFree t ∧ Nameable known t) {b : Bytes} {p : List (Nat × List Field)}
    (h : Understood env kind tz tz' q ctx types b p) : ∀ {p'}, Understood env kind tz tz' q ctx types b p' → p = p' := by
  induction h with
  | nil =>
    intro p' h'
    generalize hb : ([] : Bytes) = b' at h'
    cases h' with
    | nil => rfl
    | cons => simp at hb
  | @cons stmt raw empty x y bytes info info' r fs pieces a1 a2 a3 a4 a5 a6 a7 a8 a9 _ ih =>
    intro p' h'
    generalize hb : stmt ++ ([2, 0] ++ x ++ ([2, 0] ++ y)) ++ bytes = b' at h'
    cases h' with
    | nil => simp at hb
    | @cons stmt' raw' empty' x' y' bytes' _ _ r' fs' pieces' b1 b2 b3 b4 b5 b6 b7 b8 b9 hrest =>
      have hfields : ∀ {fs : List Field}, fs.map (·.type) = types → ∀ f ∈ fs, Flat f.type ∧ MapFree f.type ∧ Nameable known f.type :=
        fun e f hf => ht _ (e ▸ List.mem_map_of_mem hf)
      simp only [List.append_assoc] at hb
      obtain ⟨s1, _, e1, e2, -⟩ := a1 ([2, 0] ++ (x ++ ([2, 0] ++ (y ++ bytes))))
      obtain ⟨s2, _, e3, e4, -⟩ := b1 ([2, 0] ++ (x' ++ ([2, 0] ++ (y' ++ bytes'))))
      rw [hb, e3] at e1
      cases e1
      rw [e4] at e2
      injection e2 with _ e5
      have e5 : x' ++ ([2, 0] ++ (y' ++ bytes')) = x ++ ([2, 0] ++ (y ++ bytes)) := by simpa using e5
      obtain ⟨cs, l1, l2⟩ := laid_read a3 (hfields a2) a5 a4
      obtain ⟨cs', l3, l4⟩ := laid_read b3 (hfields b2) b5 b4
      have l5 := carried_load a6 l1 ([2, 0] ++ (y ++ bytes))
      have l6 := carried_load b6 l3 ([2, 0] ++ (y' ++ bytes'))
      rw [e5, l5] at l6
      injection l6 with l6 l7
      injection l6 with _ l6
      subst l6
      have hcs : cs ≠ [] := by
        rintro rfl
        rw [List.length_eq_zero_iff.mp l2.1.symm] at a2
        exact hne a2.symm
      obtain ⟨rfl, rfl⟩ := holding_same l2 l4 hcs
      have l7 : y ++ bytes = y' ++ bytes' := by simpa using l7
      obtain ⟨es, m1, -⟩ := laid_read (known := known) a7 (by simp) (by decide) a8
      obtain ⟨es', m3, -⟩ := laid_read (known := known) b7 (by simp) (by decide) b8
      have m5 := carried_load a9 m1 bytes
      have m6 := carried_load b9 m3 bytes'
      rw [l7, m6] at m5
      injection m5 with _ m5
      subst m5
      rw [ih hrest]

end CH.Trip
