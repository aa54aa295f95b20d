import Verif.Lemmas.Fetch
import Verif.Props.Client

/-! Property theorems about the results of queries: C65 (`fetch_all`) and C66 (`stream`). -/

namespace CH.Props
open Spec

theorem uniform_counts : ∀ bs : List Block, (∀ b ∈ bs, ∃ m, Rect b m) →
    ∃ ms : List Nat, ∃ h : bs.length = ms.length, ∀ k (hk : k < bs.length), Rect bs[k] ms[k]
  | [], _ => ⟨[], rfl, by simp⟩
  | b :: bs, hr => by
    obtain ⟨m, hm⟩ := hr b (by simp)
    obtain ⟨ms, h1, h2⟩ := uniform_counts bs fun c hc => hr c (by simp [hc])
    refine ⟨m :: ms, by simp [h1], fun k hk => ?_⟩
    cases k with
    | zero => exact hm
    | succ k => exact h2 k (by simpa using hk)

theorem rect_rowCount {b : Block} {m : Nat} (h : Rect b m) (hne : b.columns ≠ []) : b.rowCount = .ok m := by
  rw [Block.rowCount]
  cases hb : b.columns with
  | nil => exact absurd hb hne
  | cons c cs => exact h c (by simp [hb])

theorem zip_rows : ∀ (bs : List Block) (ms : List Nat) (h : bs.length = ms.length), (∀ k (hk : k < bs.length), Rect bs[k] ms[k]) →
    (∀ b ∈ bs, b.columns ≠ []) → (List.zipWith (fun b m => (List.range m).map (rowOf b)) bs ms).flatten = answerRows bs
  | [], ms, _, _, _ => by simp [answerRows]
  | b :: bs, [], h, _, _ => by simp at h
  | b :: bs, m :: ms, h, hr, hne => by
    have h0 : b.rowCount = .ok m := rect_rowCount (hr 0 (by simp)) (hne b (by simp))
    have h1 := zip_rows bs ms (by simpa using h) (fun k hk => hr (k + 1) (by simpa using hk)) fun c hc => hne c (by simp [hc])
    rw [List.zipWith_cons_cons, List.flatten_cons, h1, answerRows, answerRows, List.flatMap_cons, rowsOf, h0]

theorem resultBlocks_columns {skip : Bool} {l : List Inc} : ∀ b ∈ resultBlocks skip l, b.columns ≠ [] := by
  intro b hb
  simpa using (List.mem_filter.1 hb).2

theorem concat_rows {bs : List Block} (hu : Uniform bs) (hne : bs ≠ []) (hc : ∀ b ∈ bs, b.columns ≠ []) :
    ∃ cb, concatBlocks bs = .ok cb ∧ cblockRows cb = answerRows bs ∧
      ∀ b0, bs.head? = some b0 → cb.columns.map Prod.fst = b0.columns.map NCol.name := by
  obtain ⟨ms, hl, hr⟩ := uniform_counts bs hu.1
  cases bs with
  | nil => exact absurd rfl hne
  | cons b0 bs =>
    obtain ⟨cb, h1, _, h3, h4, _⟩ := C19_concat (b0 :: bs) ms b0 rfl hl hr hu.2
    obtain ⟨cb', h1', h5⟩ := C19_concat_rows (b0 :: bs) ms b0 rfl hl hr hu.2
    rw [h1] at h1'
    cases h1'
    refine ⟨cb, h1, ?_, fun b hb => by simp only [List.head?_cons, Option.some.injEq] at hb; rw [← hb]; exact h3⟩
    have hrc : cb.rowCount = .ok ms.sum := by
      rw [CBlock.rowCount]
      cases hcc : cb.columns with
      | nil =>
        rw [hcc] at h3
        exact absurd (List.map_eq_nil_iff.1 h3.symm) (hc b0 (by simp))
      | cons c cs => exact h4 c (by simp [hcc])
    rw [cblockRows, hrc]
    simp only
    rw [h5, zip_rows _ _ hl hr hc]

/-- Blocks without columns have no rows. -/
theorem rows_filter (bs : List Block) : answerRows (bs.filter fun b => decide (b.columns ≠ [])) = answerRows bs := by
  induction bs with
  | nil => rfl
  | cons b bs ih =>
    rw [List.filter_cons]
    split
    · simp only [answerRows, List.flatMap_cons] at ih ⊢
      rw [ih]
    · rename_i hb
      simp only [decide_eq_true_eq, ne_eq, Decidable.not_not] at hb
      have : rowsOf b = [] := by rw [rowsOf, Block.rowCount, hb]; rfl
      simp only [answerRows, List.flatMap_cons, this, List.nil_append] at ih ⊢
      exact ih

theorem rows_results (l : List Inc) : answerRows (resultBlocks false l) = answerRows (blocksOf l) := by
  rw [resultBlocks, rows_filter]
  rfl

theorem rows_results_skip (l : List Inc) : answerRows (resultBlocks true l) = answerRows ((blocksOf l).drop 1) := by
  rw [resultBlocks, rows_filter]
  rfl

/-! ### C65 -/

/-- C65. When the server's answer is complete and has blocks with columns, `fetch_all` gives one block with all rows of all of them, in
order, under the column names of the first; the handle has its connection back and can be used again. -/
theorem C65_fetch_all {h h1 : Handle} {q : Query} {w w1 : World} {c : Conn} {body rest : List Inc}
    (ho : h.openStream q false w = (.ok (BStream.new ⟨some c, false, false⟩ false), h1, w1))
    (hc : c.incoming = body ++ .packet .eof :: rest) (hb : ∀ x ∈ body, Middle x) (hu : Uniform (resultBlocks false body))
    (hne : resultBlocks false body ≠ []) :
    ∃ cb, h.fetchAll q w = (.ok cb, ⟨some { c with incoming := rest }, h1.context, .attached⟩, w1) ∧
      cblockRows cb = answerRows (blocksOf body) ∧
      ∀ b0, (resultBlocks false body).head? = some b0 → cb.columns.map Prod.fst = b0.columns.map NCol.name := by
  obtain ⟨hd, _⟩ := open_detaches ho
  obtain ⟨s', hr⟩ := C45_complete_answer c h1 false body rest 0 hc hb hd
  have hg := gather_of_run (resultBlocks false body) _ _ _ _ [] .ended rfl resultBlocks_columns hr
  obtain ⟨cb, h2, h3, h4⟩ := concat_rows hu hne resultBlocks_columns
  have hst := gather_ok_state _ _ _ _ _ _ _ (Nat.lt_succ_self _) hg
  refine ⟨cb, ?_, ?_, h4⟩
  · rw [Handle.fetchAll, ho]
    simp only [hg, stopped, List.nil_append, BStream.drop, hst, h2]
  · rw [h3, rows_results]

/-- `[1]`, then `[2, 3]`, under the name `a`: a header block, two blocks of data and the empty block at the end. -/
def exAnswer : List Inc :=
  [.packet (.block ⟨BlockInfo.default, [⟨"a", .num .u8 []⟩]⟩), .packet (.block ⟨BlockInfo.default, [⟨"a", .num .u8 [1]⟩]⟩),
   .packet (.progress ⟨1, 2, 3, 0, 0⟩), .packet (.block ⟨BlockInfo.default, [⟨"a", .num .u8 [2, 3]⟩]⟩), .packet (.block Block.new)]

theorem exAnswer_middle : ∀ x ∈ exAnswer, Middle x := by
  intro x hx
  simp only [exAnswer, List.mem_cons, List.not_mem_nil, or_false] at hx
  rcases hx with rfl | rfl | rfl | rfl | rfl <;> constructor

theorem exAnswer_uniform (skip : Bool) : Uniform (resultBlocks skip exAnswer) := by
  have h : ∀ b ∈ resultBlocks skip exAnswer, b = ⟨BlockInfo.default, [⟨"a", .num .u8 []⟩]⟩ ∨
      b = ⟨BlockInfo.default, [⟨"a", .num .u8 [1]⟩]⟩ ∨ b = ⟨BlockInfo.default, [⟨"a", .num .u8 [2, 3]⟩]⟩ := by
    intro b hb
    have hb' : b ∈ (blocksOf exAnswer).filter fun b => decide (b.columns ≠ []) :=
      List.mem_filter.2 ⟨List.mem_of_mem_drop (List.mem_filter.1 hb).1, (List.mem_filter.1 hb).2⟩
    simpa [exAnswer, blocksOf, Block.new] using hb'
  refine ⟨fun b hb => ?_, fun b hb c hc => ?_⟩
  · rcases h b hb with rfl | rfl | rfl
    · exact ⟨0, fun c hc => by simp at hc; rw [hc]; rfl⟩
    · exact ⟨1, fun c hc => by simp at hc; rw [hc]; rfl⟩
    · exact ⟨2, fun c hc => by simp at hc; rw [hc]; rfl⟩
  · rcases h b hb with rfl | rfl | rfl <;> rcases h c hc with rfl | rfl | rfl <;> rfl

/-- A connection on which the answer to the next query is `exAnswer` and the end. -/
def exConn : Conn := sampleConn (exAnswer ++ [.packet .eof])

/-- A handle from a pool with that connection, without the check before queries. -/
def exHandle : Handle := ⟨some exConn, { sampleCtx with options := { Options.default with pingBeforeQuery := false } }, .attached⟩

example : ∃ c h1 w1, exHandle.openStream sampleQuery false [] = (.ok (BStream.new ⟨some c, false, false⟩ false), h1, w1) ∧
    c.incoming = exAnswer ++ .packet .eof :: [] ∧ resultBlocks false exAnswer ≠ [] :=
  ⟨_, _, _, rfl, rfl, by simp [resultBlocks, exAnswer, blocksOf]⟩

theorem drop_detached {h : Handle} (s : BStream) (hb : h.binding = .detached) : ∃ h', s.drop h = some h' := by
  rw [BStream.drop, hb]
  cases s.state with
  | reading => simp only [Binding.attach]; cases s.inner.conn <;> exact ⟨_, rfl⟩
  | finished => exact ⟨_, rfl⟩
  | error => exact ⟨_, rfl⟩

/-- C65. If the answer ends in a server exception or the connection is lost, `fetch_all` reports that, and gives no data. -/
theorem C65_failure {h h1 : Handle} {q : Query} {w w1 : World} {c : Conn} {body rest : List Inc} (x : Inc) (e : OpErr)
    (ho : h.openStream q false w = (.ok (BStream.new ⟨some c, false, false⟩ false), h1, w1))
    (hc : c.incoming = body ++ x :: rest) (hb : ∀ x ∈ body, Middle x)
    (hx : (∃ ex, x = .packet (.exception ex) ∧ e = .server ex) ∨ (x = .closed ∧ e = .eof)) :
    (h.fetchAll q w).1 = .err e := by
  obtain ⟨hd, _⟩ := open_detaches ho
  have key : ∃ s', run ((resultBlocks false body).length + 1) (BStream.new ⟨some c, false, false⟩ false) h1 =
      ((resultBlocks false body).map .block ++ [.err e], s', h1) := by
    rcases hx with ⟨ex, rfl, rfl⟩ | ⟨rfl, rfl⟩
    · exact C45_exception c h1 false body rest ex 0 hc hb
    · exact C45_lost c h1 false body rest 0 hc hb
  obtain ⟨s', hr⟩ := key
  have hg := gather_of_run (resultBlocks false body) _ _ _ _ [] (.err e) rfl resultBlocks_columns hr
  obtain ⟨h', hdr⟩ := drop_detached s' hd
  rw [Handle.fetchAll, ho]
  simp only [hg, hdr, stopped]

/-- C65. When `fetch_all` succeeds, whatever the server did, its answer was complete; and if its blocks had the same columns, the block
has exactly the rows of the answer. -/
theorem C65_only_complete {h h' : Handle} {q : Query} {w w' : World} {cb : CBlock} (hf : h.fetchAll q w = (.ok cb, h', w')) :
    ∃ c h1, h.openStream q false w = (.ok (BStream.new ⟨some c, false, false⟩ false), h1, w') ∧
      ∃ body rest, c.incoming = body ++ .packet .eof :: rest ∧ (∀ x ∈ body, Middle x) ∧
        (Uniform (resultBlocks false body) → cblockRows cb = answerRows (blocksOf body)) := by
  rw [Handle.fetchAll] at hf
  split at hf
  · rename_i s h1 w1 ho
    obtain ⟨hd, _, c, rfl⟩ := open_detaches ho
    cases hg : (BStream.new ⟨some c, false, false⟩ false).gather h1 [] with
    | mk r sh =>
      obtain ⟨s', h2⟩ := sh
      rw [hg] at hf
      simp only at hf
      split at hf
      · simp at hf
      · split at hf
        · rename_i bs
          split at hf
          · rename_i b hcb
            simp only [Prod.mk.injEq, OpRes.ok.injEq] at hf
            obtain ⟨rfl, _, rfl⟩ := hf
            obtain ⟨bs', hr, hbs⟩ := gather_ok _ _ _ _ _ _ _ (Nat.lt_succ_self _) hg
            obtain ⟨body, rest, h3, h4, h5⟩ := C45_ends_only_at_eof c h1 false bs' (by rw [hr])
            refine ⟨c, h1, ho, body, rest, h3, h4, fun hu => ?_⟩
            have hbb : bs = resultBlocks false body := by
              rw [hbs, h5, List.nil_append, List.filter_eq_self]
              intro b hb
              have := resultBlocks_columns b hb
              rw [isEmpty_iff]
              simp [this]
            rw [hbb] at hcb
            by_cases hne : resultBlocks false body = []
            · rw [hne] at hcb
              cases hcb
            · obtain ⟨cb, h6, h7, _⟩ := concat_rows hu hne resultBlocks_columns
              rw [h6] at hcb
              cases hcb
              rw [h7, rows_results]
          · simp at hf
          · simp at hf
        · simp at hf
        · simp at hf
        · simp at hf
  · simp at hf
  · simp at hf
  · simp at hf

example : ∃ cb h' w', exHandle.fetchAll sampleQuery [] = (.ok cb, h', w') := by
  obtain ⟨cb, h, _⟩ := C65_fetch_all (h := exHandle) (q := sampleQuery) (w := []) (body := exAnswer) (rest := []) rfl rfl exAnswer_middle
    (exAnswer_uniform false) (by simp [resultBlocks, exAnswer, blocksOf])
  exact ⟨cb, _, _, h⟩

/-- `fetch_all` of a statement whose answer has no columns (`CREATE TABLE ..`) panics, though the statement has succeeded. -/
theorem C65_no_columns_violated {h h1 : Handle} {q : Query} {w w1 : World} {c : Conn} {body rest : List Inc}
    (ho : h.openStream q false w = (.ok (BStream.new ⟨some c, false, false⟩ false), h1, w1))
    (hc : c.incoming = body ++ .packet .eof :: rest) (hb : ∀ x ∈ body, Middle x) (hne : resultBlocks false body = []) :
    (h.fetchAll q w).1 = .panic := by
  obtain ⟨hd, _⟩ := open_detaches ho
  obtain ⟨s', hr⟩ := C45_complete_answer c h1 false body rest 0 hc hb hd
  have hg := gather_of_run (resultBlocks false body) _ _ _ _ [] .ended rfl resultBlocks_columns hr
  have hst := gather_ok_state _ _ _ _ _ _ _ (Nat.lt_succ_self _) hg
  rw [Handle.fetchAll, ho]
  simp only [hg, stopped, List.nil_append, BStream.drop, hst, hne, concatBlocks]

example : ∃ c h1 w1, (Handle.mk (some (sampleConn [.packet .eof])) exHandle.context .attached).openStream sampleQuery false [] =
      (.ok (BStream.new ⟨some c, false, false⟩ false), h1, w1) ∧ c.incoming = [] ++ .packet .eof :: [] ∧ resultBlocks false [] = [] :=
  ⟨_, _, _, rfl, rfl, rfl⟩

/-! ### C66 -/

theorem open_rows {h h1 : Handle} {q : Query} {w w1 : World} {s : RStream} (ho : h.openRows q w = (.ok s, h1, w1)) :
    h1.binding = .detached ∧ ∃ c, s = ⟨none, BStream.new ⟨some c, false, false⟩ true⟩ := by
  rw [Handle.openRows] at ho
  split at ho
  · rename_i s' h' w' ho'
    obtain ⟨hd, _, c, rfl⟩ := open_detaches ho'
    simp only [Prod.mk.injEq, OpRes.ok.injEq] at ho
    obtain ⟨rfl, rfl, rfl⟩ := ho
    exact ⟨hd, c, rfl⟩
  · simp at ho
  · simp at ho
  · simp at ho

theorem skipped_counts {l : List Inc} (hu : ∀ b ∈ blocksOf l, ∃ m, Rect b m) (skip : Bool) :
    ∀ b ∈ resultBlocks skip l, ∃ m, b.rowCount = .ok m := by
  intro b hb
  obtain ⟨m, hm⟩ := hu b (List.mem_of_mem_drop (List.mem_filter.1 hb).1)
  exact ⟨m, rect_rowCount hm (resultBlocks_columns b hb)⟩

/-- The rows the stream gives, then what the stream of blocks says. -/
theorem rows_then {c : Conn} {h1 h2 : Handle} {body : List Inc} {n : Nat} {tail : List BItem} {s' : BStream}
    (hu : ∀ b ∈ blocksOf body, ∃ m, Rect b m) (ht : ∀ x ∈ tail, isBlockItem x = false)
    (hr : run ((resultBlocks true body).length + (n + 1)) (BStream.new ⟨some c, false, false⟩ true) h1 =
      ((resultBlocks true body).map .block ++ tail, s', h2)) :
    ∃ items s'', runRows ((answerRows ((blocksOf body).drop 1)).length + (n + 1)) ⟨none, BStream.new ⟨some c, false, false⟩ true⟩ h1 =
        (items ++ tail.map toRow, s'', h2) ∧
      items.length = (answerRows ((blocksOf body).drop 1)).length ∧ rowsGot items = answerRows ((blocksOf body).drop 1) := by
  obtain ⟨cur', h3⟩ := runRows_of_run (resultBlocks true body) n _ h1 none tail s' h2 rfl (by simp) (skipped_counts hu true) ht hr
  have hl : (answerRows ((blocksOf body).drop 1)).length = (allRows (resultBlocks true body)).length := by
    rw [← rows_results_skip, ← allRows_cells, List.length_map]
  rw [hl]
  refine ⟨_, _, h3, by simp, ?_⟩
  rw [rowsGot_items, allRows_cells, rows_results_skip]

/-- C66. When the server's answer is complete, the stream gives the rows of its blocks but the first, which is the header, in order,
then the end; and the handle has its connection back. -/
theorem C66_rows {h h1 : Handle} {q : Query} {w w1 : World} {s : RStream} {c : Conn} {body rest : List Inc} (n : Nat)
    (ho : h.openRows q w = (.ok s, h1, w1)) (hs : s.blocks.inner.conn = some c)
    (hc : c.incoming = body ++ .packet .eof :: rest) (hb : ∀ x ∈ body, Middle x)
    (hu : ∀ b ∈ blocksOf body, ∃ m, Rect b m) :
    ∃ items s', runRows ((answerRows ((blocksOf body).drop 1)).length + (n + 1)) s h1 =
        (items ++ List.replicate (n + 1) .ended, s', ⟨some { c with incoming := rest }, h1.context, .attached⟩) ∧
      items.length = (answerRows ((blocksOf body).drop 1)).length ∧ rowsGot items = answerRows ((blocksOf body).drop 1) := by
  obtain ⟨hd, c', rfl⟩ := open_rows ho
  simp only [BStream.new, Option.some.injEq] at hs
  subst hs
  obtain ⟨s', hr⟩ := C45_complete_answer c' h1 true body rest n hc hb hd
  obtain ⟨items, s'', h3⟩ := rows_then hu (fun x hx => by rw [(List.mem_replicate.1 hx).2]; rfl) hr
  rw [List.map_replicate] at h3
  exact ⟨items, s'', h3⟩

example : ∃ s h1 w1 c, exHandle.openRows sampleQuery [] = (.ok s, h1, w1) ∧ s.blocks.inner.conn = some c ∧
    c.incoming = exAnswer ++ .packet .eof :: [] ∧ (answerRows ((blocksOf exAnswer).drop 1)).length = 3 :=
  ⟨_, _, _, _, rfl, rfl, rfl, rfl⟩

example : ∀ b ∈ blocksOf exAnswer, ∃ m, Rect b m := by
  intro b hb
  by_cases hc : b.columns = []
  · exact ⟨0, by rw [Rect, hc]; simp⟩
  · exact (exAnswer_uniform false).1 b (List.mem_filter.2 ⟨hb, by simpa using hc⟩)

/-- C66. If the answer ends in a server exception or the connection is lost, the stream gives the rows before that and then the error. -/
theorem C66_failure {h h1 : Handle} {q : Query} {w w1 : World} {s : RStream} {c : Conn} {body rest : List Inc} (x : Inc) (e : OpErr)
    (ho : h.openRows q w = (.ok s, h1, w1)) (hs : s.blocks.inner.conn = some c)
    (hc : c.incoming = body ++ x :: rest) (hb : ∀ x ∈ body, Middle x) (hu : ∀ b ∈ blocksOf body, ∃ m, Rect b m)
    (hx : (∃ ex, x = .packet (.exception ex) ∧ e = .server ex) ∨ (x = .closed ∧ e = .eof)) :
    ∃ items s', runRows ((answerRows ((blocksOf body).drop 1)).length + 1) s h1 = (items ++ [.err e], s', h1) ∧
      items.length = (answerRows ((blocksOf body).drop 1)).length ∧ rowsGot items = answerRows ((blocksOf body).drop 1) := by
  obtain ⟨hd, c', rfl⟩ := open_rows ho
  simp only [BStream.new, Option.some.injEq] at hs
  subst hs
  have key : ∃ s', run ((resultBlocks true body).length + (0 + 1)) (BStream.new ⟨some c', false, false⟩ true) h1 =
      ((resultBlocks true body).map .block ++ [.err e], s', h1) := by
    rcases hx with ⟨ex, rfl, rfl⟩ | ⟨rfl, rfl⟩
    · exact C45_exception c' h1 true body rest ex 0 hc hb
    · exact C45_lost c' h1 true body rest 0 hc hb
  obtain ⟨s', hr⟩ := key
  exact rows_then hu (by simp [isBlockItem]) hr

/-- C66. Whatever the server sends and however often the stream is polled, the rows given so far are the first of the answer's rows:
none is invented, repeated, reordered or left out. -/
theorem C66_in_order {h h1 : Handle} {q : Query} {w w1 : World} {s : RStream} {c : Conn} (n : Nat)
    (ho : h.openRows q w = (.ok s, h1, w1)) (hs : s.blocks.inner.conn = some c) :
    rowsGot (runRows n s h1).1 <+: answerRows ((blocksOf c.incoming).drop 1) := by
  obtain ⟨hd, c', rfl⟩ := open_rows ho
  simp only [BStream.new, Option.some.injEq] at hs
  subst hs
  obtain ⟨m, hm⟩ := runRows_prefix n _ (BStream.new ⟨some c', false, false⟩ true) h1 none (Nat.lt_succ_self _)
  have h2 := C45_in_order c' h1 true m
  rw [← rows_results_skip]
  simp only [leftRows, List.map_nil, List.nil_append] at hm
  refine hm.trans ?_
  obtain ⟨t, ht⟩ := h2
  rw [← ht]
  simp only [answerRows, List.flatMap_append]
  exact List.prefix_append _ _

/-- C65, C66. If the header has no rows, `fetch_all` and the stream give the same rows. -/
theorem C66_same_as_fetch_all {h h1 h2 h' : Handle} {q : Query} {w w1 w2 w' : World} {s : RStream} {c : Conn} {body rest : List Inc}
    {cb : CBlock} (ho : h.openRows q w = (.ok s, h1, w1)) (hs : s.blocks.inner.conn = some c)
    (ho2 : h.openStream q false w = (.ok (BStream.new ⟨some c, false, false⟩ false), h2, w2))
    (hc : c.incoming = body ++ .packet .eof :: rest) (hb : ∀ x ∈ body, Middle x) (hu : Uniform (resultBlocks false body))
    (hh : ∀ b, (blocksOf body).head? = some b → rowsOf b = [])
    (hf : h.fetchAll q w = (.ok cb, h', w')) :
    ∃ n, rowsGot (runRows n s h1).1 = cblockRows cb := by
  have hu' : ∀ b ∈ blocksOf body, ∃ m, Rect b m := by
    intro b hb
    by_cases hc : b.columns = []
    · exact ⟨0, by rw [Rect, hc]; simp⟩
    · exact hu.1 b (List.mem_filter.2 ⟨hb, by simpa using hc⟩)
  obtain ⟨items, s', h3, h4, h5⟩ := C66_rows 0 ho hs hc hb hu'
  refine ⟨(answerRows ((blocksOf body).drop 1)).length + (0 + 1), ?_⟩
  rw [h3]
  have h6 : rowsGot (items ++ List.replicate (0 + 1) .ended) = rowsGot items := by
    simp [rowsGot]
  simp only
  rw [h6, h5]
  by_cases hne : resultBlocks false body = []
  · have := C65_no_columns_violated ho2 hc hb hne
    rw [hf] at this
    cases this
  · obtain ⟨cb', h7, h8, _⟩ := C65_fetch_all ho2 hc hb hu hne
    rw [hf] at h7
    simp only [Prod.mk.injEq, OpRes.ok.injEq] at h7
    rw [h7.1, h8]
    cases hbl : blocksOf body with
    | nil => rfl
    | cons b bs =>
      have := hh b (by rw [hbl]; rfl)
      simp only [answerRows, List.drop_succ_cons, List.drop_zero, List.flatMap_cons, this, List.nil_append]

example : ∀ b, (blocksOf exAnswer).head? = some b → rowsOf b = [] := by
  intro b hb
  simp only [exAnswer, blocksOf, List.filterMap_cons, List.head?_cons, Option.some.injEq] at hb
  rw [← hb]
  rfl

/-- An answer with a row in its first block. -/
def exHeadless : List Inc := [.packet (.block ⟨BlockInfo.default, [⟨"a", .num .u8 [1]⟩]⟩)]

/-- A server that sends rows in the first block: the streams drop them. -/
theorem C66_first_block_violated : (answerRows (blocksOf exHeadless)).length = 1 ∧ ∃ s h1 w1 items s' h2,
    (Handle.mk (some (sampleConn (exHeadless ++ [.packet .eof]))) exHandle.context .attached).openRows sampleQuery [] = (.ok s, h1, w1) ∧
      runRows 1 s h1 = (items ++ [.ended], s', h2) ∧ rowsGot items = [] := by
  refine ⟨rfl, ?_⟩
  obtain ⟨items, s', h1, h2, h3⟩ := C66_rows (h := ⟨some (sampleConn (exHeadless ++ [.packet .eof])), exHandle.context, .attached⟩)
    (q := sampleQuery) (w := []) (body := exHeadless) (rest := []) 0 rfl rfl rfl
    (by intro x hx; simp only [exHeadless, List.mem_singleton] at hx; subst hx; constructor)
    (by
      intro b hb
      simp only [exHeadless, blocksOf, List.filterMap_cons, List.filterMap_nil, List.mem_singleton] at hb
      subst hb
      exact ⟨1, fun c hc => by simp at hc; rw [hc]; rfl⟩)
  exact ⟨_, _, _, items, s', _, rfl, h1, h3⟩

end CH.Props
