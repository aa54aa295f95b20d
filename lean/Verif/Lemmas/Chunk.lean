import Verif.Lemmas.Column
import Verif.Spec.Block

namespace CH
open Spec

theorem Yields.unique {it : ChunkIter} {bs bs' : List Block} (h : Yields it bs) (h' : Yields it bs') : bs = bs' := by
  induction h generalizing bs' with
  | done h =>
    cases h' with
    | done => rfl
    | more h1 => rw [h] at h1; simp at h1
  | more h _ ih =>
    cases h' with
    | done h1 => rw [h] at h1; simp at h1
    | more h1 h2 => rw [h] at h1; simp at h1; obtain ⟨rfl, rfl⟩ := h1; rw [ih h2]

theorem appendAll_ok {k : Nat} (cs : List NCol) (hc : ∀ c ∈ cs, c.data.len = .ok k) (b : Block)
    (hb : ∀ c ∈ b.columns, c.data.len = .ok k) : appendAll b cs = .ok { b with columns := b.columns ++ cs } := by
  induction cs generalizing b with
  | nil => simp [appendAll]
  | cons c cs ih =>
    have h1 : b.append c = .ok { b with columns := b.columns ++ [c] } := by
      rw [Block.append, hc c (by simp)]
      cases hcols : b.columns with
      | nil => simp
      | cons d ds =>
        have : b.rowCount = .ok k := by rw [Block.rowCount, hcols]; exact hb d (by simp [hcols])
        simp [this]
    rw [appendAll, h1, obind_ok, ih (fun c h => hc c (by simp [h]))]
    · simp
    · intro d hd
      simp only [List.mem_append, List.mem_singleton] at hd
      rcases hd with hd | rfl
      · exact hb d hd
      · exact hc _ (by simp)

theorem rect_rowCount {b : Block} {m : Nat} (h : Rect b m) (hne : b.columns ≠ []) : b.rowCount = .ok m := by
  rw [Block.rowCount]
  cases hc : b.columns with
  | nil => exact absurd hc hne
  | cons c cs => exact h c (by simp [hc])

/-- The rows `s..e` of a block as a block. -/
def cut (b : Block) (s e : Nat) : Block := ⟨BlockInfo.default, b.columns.map fun c => c.slice s e⟩

theorem cut_rows {b : Block} {s e : Nat} (hne : b.columns ≠ []) : (cut b s e).rowCount = .ok (e - s) := by
  rw [Block.rowCount, cut]
  cases hc : b.columns with
  | nil => exact absurd hc hne
  | cons c cs => rfl

theorem cut_header {b : Block} {s e : Nat} : header (cut b s e) = header b := by
  simp [header, cut, NCol.slice, Col.sqlType]

theorem cut_rowsOf {b : Block} {s e : Nat} (hne : b.columns ≠ []) :
    rowsOf (cut b s e) = (List.range' s (e - s)).map (rowOf b) := by
  rw [rowsOf, cut_rows hne, List.range'_eq_map_range, List.map_map]
  refine List.map_congr_left fun i hi => ?_
  simp only [List.mem_range] at hi
  simp only [rowOf, cut, List.map_map, Function.comp]
  refine List.map_congr_left fun c _ => ?_
  simp only [Function.comp, NCol.slice, Col.at]
  rw [if_neg (by omega), Nat.add_comm]

theorem chunks_from {b : Block} {m n : Nat} (hn : 0 < n) (hm : 0 < m) (hr : Rect b m) (hne : b.columns ≠ []) (k : Nat) :
    ∀ pos, pos ≤ m → m - pos ≤ k → ∃ bs, Yields ⟨pos, n, b⟩ bs ∧ (pos = m → bs = []) ∧
      (∀ c ∈ bs, header c = header b ∧ ∃ r, c.rowCount = .ok r ∧ 0 < r ∧ r ≤ n) ∧
      (∀ c ∈ bs.dropLast, c.rowCount = .ok n) ∧
      bs.flatMap rowsOf = (List.range' pos (m - pos)).map (rowOf b) := by
  have hrc := rect_rowCount hr hne
  induction k with
  | zero =>
    intro pos h1 h2
    refine ⟨[], .done ?_, fun _ => rfl, by simp, by simp, ?_⟩
    · rw [ChunkIter.next]; simp only [hrc, obind_ok]
      rw [if_neg (by omega), if_pos (by omega)]; rfl
    · rw [show m - pos = 0 by omega]; rfl
  | succ k ih =>
    intro pos h1 h2
    by_cases hp : pos = m
    · refine ⟨[], .done ?_, fun _ => rfl, by simp, by simp, ?_⟩
      · rw [ChunkIter.next]; simp only [hrc, obind_ok]
        rw [if_neg (by omega), if_pos (by omega)]; rfl
      · rw [show m - pos = 0 by omega]; rfl
    · obtain ⟨bs, g1, g2, g3, g4, g5⟩ := ih (pos + min n (m - pos)) (by omega) (by omega)
      refine ⟨cut b pos (pos + min n (m - pos)) :: bs, .more ?_ g1, by omega, ?_, ?_, ?_⟩
      · rw [ChunkIter.next]; simp only [hrc, obind_ok]
        rw [if_neg (by omega), if_neg (by omega)]
        rw [appendAll_ok (k := min n (m - pos))]
        · simp [cut, Block.new]
        · intro c hc
          simp only [List.mem_map] at hc
          obtain ⟨d, _, rfl⟩ := hc
          simp [NCol.slice, Col.len]
        · simp [Block.new]
      · intro c hc
        simp only [List.mem_cons] at hc
        rcases hc with rfl | hc
        · exact ⟨cut_header, _, cut_rows hne, by omega, by omega⟩
        · exact g3 c hc
      · intro c hc
        cases bs with
        | nil => simp at hc
        | cons d ds =>
          rw [List.dropLast_cons_of_ne_nil (by simp)] at hc
          simp only [List.mem_cons] at hc
          rcases hc with rfl | hc
          · have : ¬ pos + min n (m - pos) = m := fun h => by simpa using g2 h
            rw [cut_rows hne]; congr 1; omega
          · exact g4 c hc
      · rw [List.flatMap_cons, g5, cut_rowsOf hne, ← List.map_append]
        congr 1
        have hq : min n (m - pos) ≤ m - pos := by omega
        generalize min n (m - pos) = q at hq
        rw [Nat.add_sub_cancel_left, List.range'_append_1]
        congr 1; omega

/-! Concatenation. -/

theorem buildIndexFrom_idx (acc : Nat) (ls : List Nat) (j : Nat) (h : j ≤ ls.length) :
    (buildIndexFrom acc ls)[j]? = some (acc + (ls.take j).sum) := by
  induction ls generalizing acc j with
  | nil => simp at h; subst h; simp [buildIndexFrom]
  | cons n ns ih =>
    cases j with
    | zero => simp [buildIndexFrom]
    | succ j => rw [buildIndexFrom, List.getElem?_cons_succ, ih _ _ (by simpa using h)]; simp; omega

theorem buildIndexFrom_length (acc : Nat) (ls : List Nat) : (buildIndexFrom acc ls).length = ls.length + 1 := by
  induction ls generalizing acc with
  | nil => rfl
  | cons n ns ih => simp [buildIndexFrom, ih]

theorem buildIndex_idx (ls : List Nat) (j : Nat) (h : j ≤ ls.length) : idx (buildIndex ls) j = .ok ((ls.take j).sum) := by
  rw [idx, buildIndex, buildIndexFrom_idx _ _ _ h, Nat.zero_add]

theorem sum_take_mono (ls : List Nat) {i j : Nat} (h : i ≤ j) : (ls.take i).sum ≤ (ls.take j).sum := by
  rw [show j = i + (j - i) by omega, List.take_add, List.sum_append]; omega

theorem sum_take_succ (ls : List Nat) {i : Nat} (h : i < ls.length) : (ls.take (i + 1)).sum = (ls.take i).sum + ls[i] := by
  rw [List.take_add_one, List.sum_append]; simp [h]

theorem findChunkLoop_ok (ls : List Nat) (k r : Nat) (hk : k < ls.length) (hr : r < ls[k]) (d : Nat) :
    ∀ lo hi, hi - lo ≤ d → lo ≤ k → k < hi → hi ≤ ls.length →
      findChunkLoop (buildIndex ls) ((ls.take k).sum + r) lo hi = .ok k := by
  have hs := sum_take_succ ls hk
  induction d with
  | zero => intro lo hi; omega
  | succ d ih =>
    intro lo hi h1 h2 h3 h4
    rw [findChunkLoop, if_pos (by omega)]
    simp only
    rw [buildIndex_idx ls lo (by omega), buildIndex_idx ls (lo + 1) (by omega)]
    simp only [obind_ok]
    split
    · rename_i heq
      refine ih _ _ (by omega) ?_ h3 h4
      rcases Nat.lt_or_ge lo k with h | h
      · exact h
      · have : lo = k := by omega
        subst this; omega
    · rw [buildIndex_idx ls _ (by omega), obind_ok]
      have hmid : lo ≤ lo + (hi - lo) / 2 ∧ lo + (hi - lo) / 2 < hi := by omega
      generalize lo + (hi - lo) / 2 = mid at hmid
      split
      · rename_i hlt
        refine ih _ _ (by omega) h2 ?_ (by omega)
        rcases Nat.lt_or_ge k mid with h | h
        · exact h
        · have := sum_take_mono ls h; omega
      · rw [buildIndex_idx ls _ (by omega), obind_ok]
        split
        · refine ih _ _ (by omega) ?_ h3 h4
          rcases Nat.lt_or_ge mid k with h | h
          · exact h
          · have := sum_take_mono ls (show k + 1 ≤ mid + 1 by omega); omega
        · rename_i h5 h6
          congr 1
          rcases Nat.lt_trichotomy mid k with h | h | h
          · have := sum_take_mono ls (show mid + 1 ≤ k by omega); omega
          · exact h
          · have := sum_take_mono ls (show k + 1 ≤ mid by omega); omega

theorem findChunk_ok (ls : List Nat) (k r : Nat) (hk : k < ls.length) (hr : r < ls[k]) :
    findChunk (buildIndex ls) ((ls.take k).sum + r) = .ok k := by
  have hl : (buildIndex ls).length = ls.length + 1 := buildIndexFrom_length _ _
  rw [findChunk, if_neg (by intro h; rw [h] at hl; simp at hl), hl, Nat.add_sub_cancel]
  exact findChunkLoop_ok ls k r hk hr _ _ _ (Nat.le_refl _) (by omega) hk (Nat.le_refl _)

theorem mapOut_len {cs : List Col} {ls : List Nat} (hl : cs.map Col.len = ls.map .ok) : mapOut Col.len cs = .ok ls := by
  induction cs generalizing ls with
  | nil => cases ls <;> simp_all [mapOut]
  | cons c cs ih =>
    cases ls with
    | nil => simp at hl
    | cons l ls => simp at hl; rw [mapOut, hl.1, obind_ok, ih hl.2]; rfl

theorem concatCols_ok {cs : List Col} {ls : List Nat} {t : SqlType} (hne : cs ≠ []) (ht : ∀ c ∈ cs, c.sqlType = t)
    (hl : cs.map Col.len = ls.map .ok) : concatCols cs = .ok ⟨cs, buildIndex ls⟩ := by
  cases cs with
  | nil => exact absurd rfl hne
  | cons c cs =>
    rw [concatCols, if_pos]
    · rw [mapOut_len hl]; rfl
    · rw [List.all_eq_true]
      intro d hd
      rw [ht c (by simp), ht d (by simp [hd])]; simp

theorem concat_len {cs : List Col} {ls : List Nat} : (ConcatCol.mk cs (buildIndex ls)).len = .ok ls.sum := by
  have h := buildIndexFrom_idx 0 ls ls.length (Nat.le_refl _)
  have hl := buildIndexFrom_length 0 ls
  simp only [ConcatCol.len, buildIndex, List.getLast?_eq_getElem?, hl, Nat.add_sub_cancel, h]
  simp

theorem concat_at {cs : List Col} {ls : List Nat} (hl : cs.map Col.len = ls.map .ok) (k r : Nat) (hk : k < ls.length)
    (hk' : k < cs.length) (hr : r < ls[k]) :
    (ConcatCol.mk cs (buildIndex ls)).at ((ls.take k).sum + r) = cs[k].at r := by
  simp only [ConcatCol.at]
  rw [findChunk_ok ls k r hk hr, obind_ok, idx_ok hk', obind_ok, buildIndex_idx ls k (by omega), obind_ok,
    if_neg (by omega), Nat.add_sub_cancel_left]

end CH
