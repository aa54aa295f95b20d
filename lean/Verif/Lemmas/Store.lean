import Verif.Spec.Store
import Verif.Lemmas.Insert
import Verif.Lemmas.Chunk
import Verif.Props.Cast
import Verif.Model.Client

/-! The only chunk of a block that is not larger than a chunk. -/

namespace CH

open Spec

theorem mapOut_through {f : α → Out β} {g : γ → Out β} {k : α → γ} : ∀ {xs : List α}, (∀ x ∈ xs, g (k x) = f x) →
    mapOut g (xs.map k) = mapOut f xs
  | [], _ => rfl
  | x :: xs, h => by
    rw [List.map_cons, mapOut, mapOut, h x (by simp), mapOut_through fun y hy => h y (by simp [hy])]

theorem slice_write {c : NCol} {n : Nat} (h : c.data.len = .ok n) : (c.slice 0 n).write = c.write := by
  show (do let l ← Out.ok (n - 0); let d ← (Col.chunk c.data 0 n).save 0 l
           pure (putString c.name ++ putString (String.ofList c.data.sqlType.name) ++ d) : Out Bytes) = _
  rw [NCol.write, h]
  simp only [obind_ok, Nat.sub_zero]
  rw [Col.save, Nat.zero_add, Nat.zero_add, Nat.min_self]

theorem cut_write {b : Block} {n : Nat} (h : Rect b n) (hne : b.columns ≠ []) :
    (cut b 0 n).write = Block.write ⟨BlockInfo.default, b.columns⟩ := by
  have hr := rect_rowCount (b := ⟨BlockInfo.default, b.columns⟩) h hne
  rw [Block.write, Block.write, cut_rows hne, hr]
  simp only [obind_ok, Nat.sub_zero, cut, List.length_map]
  rw [mapOut_through (f := NCol.write) (g := NCol.write) fun c hc => slice_write (h c hc)]

theorem one_chunk {b : Block} {n : Nat} (h : Rect b n) (hne : b.columns ≠ []) (h0 : 0 < n) (hn : n ≤ 1048576) :
    insertChunks b = .ok [cut b 0 n] := by
  have hr := rect_rowCount h hne
  have h1 : (ChunkIter.mk 0 1048576 b).next = .ok (some (cut b 0 n, ⟨n, 1048576, b⟩)) := by
    rw [ChunkIter.next]; simp only [hr, obind_ok]
    rw [if_neg (by omega), if_neg (by omega), Nat.sub_zero, Nat.min_eq_right hn, Nat.zero_add, appendAll_ok (k := n)]
    · simp [cut, Block.new]
    · intro c hc
      simp only [List.mem_map] at hc
      obtain ⟨d, _, rfl⟩ := hc
      simp [NCol.slice, Col.len]
    · simp [Block.new]
  have h2 : (ChunkIter.mk n 1048576 b).next = .ok none := by
    rw [ChunkIter.next]; simp only [hr, obind_ok]
    rw [if_neg (by omega), if_pos (by omega)]; rfl
  rw [insertChunks, hr]
  simp only [obind_ok]
  obtain ⟨k, rfl⟩ : ∃ k, n = k + 1 := ⟨n - 1, by omega⟩
  rw [Block.chunks, insertBlockSize, chunkList, h1]
  simp only [obind_ok]
  rw [chunkList, h2]
  rfl

theorem rows_zip {n : Nat} {fs : List Field} (h : ∀ f ∈ fs, f.cells.length = n) {j : Nat} (hj : j < n) (i : Nat) :
    (fs.filterMap fun f => f.cells[j]?)[i]? = fs[i]?.bind fun f => f.cells[j]? := by
  induction fs generalizing i with
  | nil => rfl
  | cons f fs ih =>
    have e := List.getElem?_eq_getElem (l := f.cells) (i := j) (by rw [h f (by simp)]; exact hj)
    rw [List.filterMap_cons, e]
    cases i with
    | zero => simp [e]
    | succ i => simpa using ih (fun g hg => h g (by simp [hg])) i

/-- Row `j` of the fields is row `j` of the block's columns. -/
theorem fields_row {n : Nat} {cs : List NCol} {fs : List Field} (hl : fs.length = cs.length) (h : ∀ f ∈ fs, f.cells.length = n)
    (hh : ∀ (i : Nat) c f, cs[i]? = some c → fs[i]? = some f → HoldsField c f) {j : Nat} (hj : j < n) :
    (fs.filterMap fun f => f.cells[j]?).map Out.ok = cs.map fun c => c.data.at j := by
  induction fs generalizing cs with
  | nil => cases cs with | nil => rfl | cons c cs => cases hl
  | cons f fs ih =>
    cases cs with
    | nil => cases hl
    | cons c cs =>
      have e := List.getElem?_eq_getElem (l := f.cells) (i := j) (by rw [h f (by simp)]; exact hj)
      rw [List.filterMap_cons, e]
      have h0 := (hh 0 c f rfl rfl).2.2 j _ e
      rw [Nat.zero_add] at h0
      simp only [List.map_cons]
      rw [h0, ih (by simpa using hl) (fun g hg => h g (by simp [hg])) fun i c f h1 h2 => hh (i + 1) c f h1 h2]

theorem fields_header {cs : List NCol} {fs : List Field} (hl : fs.length = cs.length)
    (hh : ∀ (i : Nat) c f, cs[i]? = some c → fs[i]? = some f → HoldsField c f) :
    fs.map (fun f => (f.name, f.type)) = cs.map fun c => (c.name, c.data.sqlType) := by
  induction fs generalizing cs with
  | nil => cases cs with | nil => rfl | cons c cs => cases hl
  | cons f fs ih =>
    cases cs with
    | nil => cases hl
    | cons c cs =>
      obtain ⟨a, b, -⟩ := hh 0 c f rfl rfl
      simp only [List.map_cons]
      rw [a, b, ih (by simpa using hl) fun i c f h1 h2 => hh (i + 1) c f h1 h2]

end CH
