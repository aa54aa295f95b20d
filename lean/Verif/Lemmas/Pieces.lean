import Verif.Props.Store
import Verif.Spec.Written

/-! The pieces of a block that was converted for a table. -/

namespace CH.Pieces
open CH CH.Spec CH.Props

theorem pieces_by {b : Block} {m n : Nat} (hn : 0 < n) (hm : 0 < m) (hr : Rect b m) (hne : b.columns ≠ []) {R : Nat → List Value}
    {L : Nat → List Field → Bytes → Prop}
    (h : ∀ s e, s < e → e ≤ m → (m ≤ n → s = 0 ∧ e = m) → ∃ raw fs, (cut b s e).write = .ok raw ∧ L (e - s) fs raw ∧
      saidRows (.block BlockInfo.default (e - s) fs) = (List.range' s (e - s)).map R)
    (k : Nat) : ∀ pos, pos ≤ m → (pos = 0 ∨ n ≤ pos ∨ pos = m) → m - pos ≤ k → ∃ bs, ∃ parts : List (Nat × List Field × Bytes), Yields ⟨pos, n, b⟩ bs ∧ bs.length ≤ k ∧
      parts.length = bs.length ∧
      (∀ (i : Nat) x p, bs[i]? = some x → parts[i]? = some p → 0 < p.1 ∧ p.1 ≤ n ∧ x.write = .ok p.2.2 ∧ L p.1 p.2.1 p.2.2) ∧
      (parts.flatMap fun p => saidRows (.block BlockInfo.default p.1 p.2.1)) = (List.range' pos (m - pos)).map R ∧ (pos < m → parts ≠ []) := by
  have hrc := rect_rowCount hr hne
  induction k with
  | zero =>
    intro pos h1 h1' h2
    refine ⟨[], [], .done ?_, by simp, rfl, by simp, ?_, by omega⟩
    · rw [ChunkIter.next]; simp only [hrc, obind_ok]
      rw [if_neg (by omega), if_pos (by omega)]; rfl
    · rw [show m - pos = 0 by omega]; rfl
  | succ k ih =>
    intro pos h1 h1' h2
    by_cases hp : pos = m
    · refine ⟨[], [], .done ?_, by simp, rfl, by simp, ?_, by omega⟩
      · rw [ChunkIter.next]; simp only [hrc, obind_ok]
        rw [if_neg (by omega), if_pos (by omega)]; rfl
      · rw [show m - pos = 0 by omega]; rfl
    · obtain ⟨bs, parts, g1, g2, g3, g4, g5, -⟩ := ih (pos + min n (m - pos)) (by omega) (by omega) (by omega)
      obtain ⟨raw, fs, p1, p2, p3⟩ := h pos (pos + min n (m - pos)) (by omega) (by omega) (by omega)
      rw [Nat.add_sub_cancel_left] at p2 p3
      refine ⟨cut b pos (pos + min n (m - pos)) :: bs, (min n (m - pos), fs, raw) :: parts, .more ?_ g1, by simp; omega, by simp [g3], ?_, ?_, by simp⟩
      · rw [ChunkIter.next]; simp only [hrc, obind_ok]
        rw [if_neg (by omega), if_neg (by omega)]
        rw [appendAll_ok (k := min n (m - pos))]
        · simp [cut, Block.new]
        · intro c hc
          simp only [List.mem_map] at hc
          obtain ⟨d, _, rfl⟩ := hc
          simp [NCol.slice, Col.len]
        · simp [Block.new]
      · intro i x p hx hy
        cases i with
        | zero => cases hx; cases hy; exact ⟨by show 0 < min n (m - pos); omega, Nat.min_le_left _ _, p1, p2⟩
        | succ i => exact g4 i x p hx hy
      · rw [List.flatMap_cons, g5, p3, ← List.map_append]
        congr 1
        have hq : min n (m - pos) ≤ m - pos := by omega
        generalize min n (m - pos) = q at hq
        rw [List.range'_append_1]
        congr 1; omega

/-- A part of a converted column, or all of it. -/
theorem sent_part {parse : IpKind → String → Option Bytes} {tz : Tz} {c d : Col} {t : SqlType} {n s e : Nat} (h : Sent parse tz c t d n) (hf : Flat t)
    (hk : KeysHash t) (hg : Flagged c) (hl : s = 0 ∧ e = n ∨ ListFree t) (hse : s < e) (he : e ≤ n) :
    ∃ b vs, d.save s e = .ok b ∧ vs.length = e - s ∧ Stream tz t vs b ∧
      ∀ i v w, i < e - s → cell c (s + i) = some v → convert parse tz t v = some w → vs[i]? = some w := by
  rcases hl with ⟨rfl, rfl⟩ | hl
  · simpa using sent_laid h hf hk hg
  · exact sent_slice h hf hk hg hl hse he

/-- A piece of converted columns. -/
theorem sent_piece {parse : IpKind → String → Option Bytes} {tz : Tz} {n s e : Nat} {b table : Block} {ds : List NCol} {fs : List Field}
    (hdl : ds.length = b.columns.length) (hlen : b.columns.length = table.columns.length) (hse : s < e) (he : e ≤ n)
    (hst : TableHolds parse tz b table n fs)
    (hs : ∀ (i : Nat) c t d, b.columns[i]? = some c → table.columns[i]? = some t → ds[i]? = some d →
      d.name = c.name ∧ Sent parse tz c.data t.data.sqlType d.data n ∧ Flat t.data.sqlType ∧ KeysHash t.data.sqlType ∧ Flagged c.data ∧
        (s = 0 ∧ e = n ∨ ListFree t.data.sqlType)) (hne : ds ≠ []) (info : BlockInfo) :
    ∃ raw gs, (cut ⟨info, ds⟩ s e).write = .ok raw ∧
      (BlockLaid tz BlockInfo.default (e - s) gs raw ∧ gs.map (fun f => (f.name, f.type)) = fs.map fun f => (f.name, f.type)) ∧
      saidRows (.block BlockInfo.default (e - s) gs) = (List.range' s (e - s)).map fun j => fs.filterMap fun f => f.cells[j]? := by
  obtain ⟨bss, gs, g1, g2, g3, g4, g5⟩ := sent_fields (tz := tz) (n := e - s) (ds := ds.map fun c => c.slice s e)
    (P := fun i g => ∀ f, fs[i]? = some f → g.name = f.name ∧ g.type = f.type ∧ ∀ j, j < e - s → g.cells[j]? = f.cells[s + j]?) (by
    intro i d' hd'
    rw [List.getElem?_map] at hd'
    obtain ⟨d, hd, rfl⟩ := Option.map_eq_some_iff.mp hd'
    have hi := (List.getElem?_eq_some_iff.mp hd).1
    have hc := List.getElem?_eq_getElem (l := b.columns) (i := i) (by omega)
    have ht := List.getElem?_eq_getElem (l := table.columns) (i := i) (by omega)
    obtain ⟨a1, a2, a3, a4, a5, a6⟩ := hs i _ _ d hc ht hd
    obtain ⟨x, vs, l1, l2, l3, l4⟩ := sent_part a2 a3 a4 a5 a6 hse he
    refine ⟨by simp [NCol.slice, Col.len], x, vs, ?_, l2, by simpa [NCol.slice, Col.sqlType, a2.type] using l3, fun f hf => ?_⟩
    · simp only [NCol.slice, Col.save]
      rw [Nat.add_zero, show min e (s + (e - s)) = e by omega]
      exact l1
    · obtain ⟨f1, f2, f3, f4⟩ := hst.2 i _ _ f hc ht hf
      refine ⟨by simp [NCol.slice, a1, f1], by simp [NCol.slice, Col.sqlType, a2.type, f2], fun j hj => ?_⟩
      obtain ⟨v, w, e1, e2, e3⟩ := f4 (s + j) (by omega)
      rw [e3]
      exact l4 j v w hj e1 e2)
  have hgl : gs.length = fs.length := by rw [g3, List.length_map, hdl, hst.1]
  refine ⟨_, gs, ?_, ⟨⟨_, putUvarint (ds.map fun c => c.slice s e).length, _, _, rfl, info_put (show -(2 ^ 31 : Nat) ≤ BlockInfo.default.bucketNum by decide)
    (show BlockInfo.default.bucketNum < (2 ^ 31 : Nat) by decide), ?_, leb_put _, g2, g4⟩, ?_⟩, ?_⟩
  rotate_left
  · rw [g3]
    exact leb_put _
  · apply List.ext_getElem (by simp [hgl])
    intro i h1 h2
    simp only [List.length_map] at h1 h2
    obtain ⟨a1, a2, -⟩ := g5 i _ (List.getElem?_eq_getElem h1) _ (List.getElem?_eq_getElem h2)
    simp [a1, a2]
  · rw [saidRows, List.range'_eq_map_range, List.map_map]
    refine List.map_congr_left fun j hj => ?_
    simp only [Function.comp]
    have hj := List.mem_range.mp hj
    have : ∀ (gs fs : List Field), gs.length = fs.length → (∀ (i : Nat) g f, gs[i]? = some g → fs[i]? = some f → g.cells[j]? = f.cells[s + j]?) →
        (gs.filterMap fun f => f.cells[j]?) = fs.filterMap fun f => f.cells[s + j]? := by
      intro gs
      induction gs with
      | nil => intro fs hl _; cases fs with | nil => rfl | cons => cases hl
      | cons g gs ih =>
        intro fs hl hall
        cases fs with
        | nil => cases hl
        | cons f fs =>
          have h0 := hall 0 g f rfl rfl
          have h1 := ih fs (by simpa using hl) fun i g f h1 h2 => hall (i + 1) g f (by simpa using h1) (by simpa using h2)
          rw [List.filterMap_cons, List.filterMap_cons, h0, h1]
    exact this gs fs hgl fun i g f h1 h2 => (g5 i g h1 f h2).2.2 j hj
  · rw [Block.write, cut_rows (by simpa using hne)]; simp only [obind_ok]
    rw [show (cut ⟨info, ds⟩ s e).columns = ds.map (fun c => c.slice s e) from rfl, g1]; rfl

end CH.Pieces
