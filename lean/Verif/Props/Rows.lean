import Verif.Lemmas.Rows
import Verif.Lemmas.Block
import Verif.Lemmas.Values
import Verif.Props.Block

/-! C32 (appending rows) and C33 (looking up cells). -/

namespace CH.Props
open CH.Spec

/-! ### C33 -/

/-- **C33**: a name finds the first column of that name, or is out of range; it never panics. -/
theorem C33_name (b : Block) (name : String) :
    (∀ i, (ColumnIdx.name name).getIndex b.columns = .ok i ↔ FirstNamed b name i) ∧
    ((ColumnIdx.name name).getIndex b.columns = .err outOfRange ↔ ∀ c ∈ b.columns, c.name ≠ name) ∧
    (ColumnIdx.name name).getIndex b.columns ≠ .panic := by
  have h := findName_spec name b.columns 0
  refine ⟨fun i => ⟨fun hi => ?_, findName_first⟩, ⟨fun he => ?_, fun hn => findName_none hn 0⟩, fun hp => ?_⟩
  · simp only [ColumnIdx.getIndex] at hi
    rcases h with ⟨k, c, h1, h2, h3, h4⟩ | ⟨h1, _⟩
    · rw [h1] at hi; cases hi
      rw [Nat.zero_add]
      exact ⟨⟨c, h2, h3⟩, h4⟩
    · rw [h1] at hi; cases hi
  · simp only [ColumnIdx.getIndex] at he
    rcases h with ⟨k, c, h1, _⟩ | ⟨_, h2⟩
    · rw [h1] at he; cases he
    · exact h2
  · simp only [ColumnIdx.getIndex] at hp
    rcases h with ⟨k, c, h1, _⟩ | ⟨h1, _⟩ <;> (rw [h1] at hp; cases hp)

example : FirstNamed ⟨BlockInfo.default, [⟨"a", .num .u8 []⟩, ⟨"b", .str []⟩, ⟨"b", .num .u8 []⟩]⟩ "b" 1 := by
  refine ⟨⟨_, rfl, rfl⟩, fun j c hj hc => ?_⟩
  obtain rfl : j = 0 := by omega
  cases hc; decide

/-- **C33**: reading a cell or a column by name reads the first column of that name. -/
theorem C33_by_name (b : Block) (name : String) (i : Nat) (h : FirstNamed b name i) :
    ∃ c, b.columns[i]? = some c ∧ b.getColumn (.name name) = .ok c ∧ b.rowName (.name name) = .ok name ∧
      ∀ row T, b.get row (.name name) T = (c.data.at row >>= fun v => fromSql T v) := by
  have hi := findName_first h
  obtain ⟨⟨c, hc, hn⟩, _⟩ := h
  have hx : idx b.columns i = .ok c := by unfold idx; rw [hc]
  refine ⟨c, hc, ?_, ?_, fun row T => ?_⟩
  · simp only [Block.getColumn, ColumnIdx.getIndex, hi, obind_ok, hx]
  · simp only [Block.rowName, Block.getColumn, ColumnIdx.getIndex, hi, obind_ok, hx]
    exact congrArg Out.ok hn
  · simp only [Block.get, ColumnIdx.getIndex, hi, obind_ok, hx]

/-- **C33**: an unknown name is an error, whatever the row and the Rust type. -/
theorem C33_unknown_name (b : Block) (name : String) (h : ∀ c ∈ b.columns, c.name ≠ name) (row : Nat) (T : Target) :
    b.get row (.name name) T = .err outOfRange ∧ b.getColumn (.name name) = .err outOfRange := by
  simp only [Block.get, Block.getColumn, ColumnIdx.getIndex, findName_none h, obind_err, and_self]

example : ∀ c ∈ [(⟨"a", .num .u8 [1]⟩ : NCol)], c.name ≠ "A" := by decide

/-- **C33**: reading by position reads that column. -/
theorem C33_by_position (b : Block) (i : Nat) (c : NCol) (hc : b.columns[i]? = some c) (row : Nat) (T : Target) :
    b.get row (.pos i) T = (c.data.at row >>= fun v => fromSql T v) ∧ b.getColumn (.pos i) = .ok c := by
  have hx : idx b.columns i = .ok c := by unfold idx; rw [hc]
  simp only [Block.get, Block.getColumn, ColumnIdx.getIndex, obind_ok, hx, and_self]

example : Block.get ⟨BlockInfo.default, [⟨"a", .num .u8 [4, 5]⟩]⟩ 1 (.pos 0) (.num .u8) = .ok (.num 5) := rfl

/-- **C33** fails: a column position outside the block panics, for every block. -/
theorem C33_position_violated (b : Block) (i : Nat) (h : b.columns.length ≤ i) (row : Nat) (T : Target) :
    b.get row (.pos i) T = .panic ∧ b.getColumn (.pos i) = .panic := by
  have hx : idx b.columns i = .panic := by unfold idx; rw [List.getElem?_eq_none h]
  simp only [Block.get, Block.getColumn, ColumnIdx.getIndex, obind_ok, hx, obind_panic, and_self]

example : (Block.new).get 0 (.pos 0) .text = .panic := (C33_position_violated Block.new 0 (Nat.le_refl 0) 0 .text).1

theorem idx_outside {l : List α} {i : Nat} (h : l.length ≤ i) : idx l i = .panic := by
  unfold idx; rw [List.getElem?_eq_none h]

theorem slice_outside {l : List α} {s e : Nat} (h : l.length < e) : slice l s e = .panic := by
  unfold slice; rw [if_neg (by omega)]

/-- Reading a row that is not there panics, whatever the column is made of. -/
theorem at_outside {c : Col} {n i : Nat} (hs : Sound c n) (hi : n ≤ i) : c.at i = .panic := by
  induction c generalizing n with
  | num t xs => simp only [Col.at, idx_outside (show xs.length ≤ i by rw [hs.1]; exact hi), obind_panic]
  | str xs => simp only [Col.at, idx_outside (show xs.length ≤ i by rw [show xs.length = n from hs]; exact hi), obind_panic]
  | fixed k buf =>
    have : n * k ≤ i * k := Nat.mul_le_mul_right k hi
    have h1 := hs.1; have h2 := hs.2
    simp only [Col.at, slice_outside (show buf.length < i * k + k by omega), obind_panic]
  | date z xs => simp only [Col.at, idx_outside (show xs.length ≤ i by rw [hs.1]; exact hi), obind_panic]
  | datetime z xs => simp only [Col.at, idx_outside (show xs.length ≤ i by rw [hs.1]; exact hi), obind_panic]
  | dt64 p z xs => simp only [Col.at, idx_outside (show xs.length ≤ i by rw [show xs.length = n from hs]; exact hi), obind_panic]
  | chrono z xs => simp only [Col.at, idx_outside (show xs.length ≤ i by rw [show xs.length = n from hs]; exact hi), obind_panic]
  | ip k buf =>
    have h2 : buf.length = n * k.size := hs
    have : n * k.size ≤ i * k.size := Nat.mul_le_mul_right _ hi
    have h3 : 0 < k.size := by cases k <;> decide
    have : (i + 1) * k.size = i * k.size + k.size := Nat.succ_mul _ _
    simp only [Col.at, slice_outside (show buf.length < (i + 1) * k.size by omega), obind_panic]
  | nullable nulls c ih => simp only [Col.at, idx_outside (show nulls.length ≤ i by rw [hs.1]; exact hi), obind_panic]
  | array offs c ih =>
    simp only [Col.at, idx_outside (show offs.length ≤ i by rw [hs.1]; exact hi), obind_panic]
    split
    · cases h : idx offs (i - 1) with
      | ok a => rfl
      | err e => unfold idx at h; split at h <;> cases h
      | panic => rfl
    · rfl
  | map offs k v _ _ =>
    simp only [Col.at, idx_outside (show offs.length ≤ i by rw [hs.1]; exact hi), obind_panic]
    split
    · cases h : idx offs (i - 1) with
      | ok a => rfl
      | err e => unfold idx at h; split at h <;> cases h
      | panic => rfl
    · rfl
  | decimal p s nb xs => simp only [Col.at, idx_outside (show xs.length ≤ i by rw [hs.2.1]; exact hi), obind_panic]
  | enum w items xs => simp only [Col.at, idx_outside (show xs.length ≤ i by rw [hs.1]; exact hi), obind_panic]
  | simpleAgg f c ih => simp only [Col.at]; exact ih hs hi
  | lowCard ity index d vm ih => simp only [Col.at, idx_outside (show index.length ≤ i by rw [hs.1]; exact hi), obind_panic]
  | _ => exact absurd hs (by simp [Sound])

/-- **C33** fails: a row outside the block panics, for every column (built by pushing or received) and every Rust type. -/
theorem C33_row_violated (b : Block) (i : Nat) (c : NCol) (hc : b.columns[i]? = some c) (n : Nat) (hs : Sound c.data n) (row : Nat)
    (hr : n ≤ row) (T : Target) : b.get row (.pos i) T = .panic := by
  rw [(C33_by_position b i c hc row T).1, at_outside hs hr]; rfl

example : Sound (.nullable [0, 1] (.str [[97], []])) 2 := ⟨rfl, by decide, rfl⟩

/-- **C33**: iterating over the rows of a rectangular block visits every row once, in order. -/
theorem C33_rows (b : Block) (n : Nat) (hn : b.rowCount = .ok n) (row : Nat) :
    (row < n → b.rowsNext row = .ok (some (row, row + 1))) ∧ (n ≤ row → b.rowsNext row = .ok none) := by
  simp only [Block.rowsNext, hn, obind_ok]
  exact ⟨fun h => by rw [if_neg (by omega)]; rfl, fun h => by rw [if_pos h]; rfl⟩

example : Block.rowCount ⟨BlockInfo.default, [⟨"a", .num .u8 [4, 5]⟩]⟩ = .ok 2 := rfl

/-! ### C32 -/

/-- **C32**, one row: appending a row that supplies every column of a rectangular block once with a value of the column's type adds
exactly that row: earlier cells stay, the new row reads as supplied, every column is one row longer. The rest of C32 fails, see
below. -/
theorem C32_row_partial (b : Block) (n : Nat) (hn : (names b).Nodup)
    (hs : ∀ c ∈ b.columns, Sound c.data n ∧ PlainType c.data.sqlType) (r : List (String × Value)) (hr : Supplies r (names b))
    (hf : ∀ c ∈ b.columns, ∀ v, (c.name, v) ∈ r → Fits c.data.sqlType v) :
    ∃ b', b.applyRow (rowMacro r) = .done b' ∧ b.applyVec r = .done b' ∧ header b' = header b ∧ Rect b' (n + 1) ∧
      (∀ c ∈ b'.columns, Sound c.data (n + 1)) ∧
      (∀ k v, (k, v) ∈ r → CellIs b' k n v) ∧ ∀ k i v, i < n → CellIs b k i v → CellIs b' k i v := by
  obtain ⟨b', h1, _, h3, h4⟩ := apply_known (n := n) r b hn hr.1 (fun c hc _ => hs c hc) (fun k v hkv => by
    have := (hr.2 k).mp (List.mem_map.mpr ⟨(k, v), hkv, rfl⟩)
    obtain ⟨c, hc, rfl⟩ := List.mem_map.mp this
    exact ⟨c, hc, rfl, hf c hc v hkv⟩)
  have hlen : b'.columns.length = b.columns.length := by
    have := congrArg List.length h3; simpa [names] using this
  have hall : ∀ (j : Nat) (c : NCol), b.columns[j]? = some c → ∃ c' v, b'.columns[j]? = some c' ∧ c'.name = c.name ∧
      c'.data.sqlType = c.data.sqlType ∧ (c.name, v) ∈ r ∧ Pushed c.data c'.data v n ∧ c'.data.at n = .ok v := by
    intro j c hc
    obtain ⟨c', g1, g2, g3, _, g5⟩ := h4 j c hc
    have := (hr.2 c.name).mpr (List.mem_map.mpr ⟨c, List.mem_of_getElem? hc, rfl⟩)
    obtain ⟨⟨k, v⟩, hkv, rfl⟩ := List.mem_map.mp this
    obtain ⟨g6, g7⟩ := g5 v hkv
    exact ⟨c', v, g1, g2, g3, hkv, g6, g7⟩
  have hback : ∀ c' ∈ b'.columns, ∃ (j : Nat) (c : NCol), b.columns[j]? = some c ∧ b'.columns[j]? = some c' := by
    intro c' hc'
    obtain ⟨j, hj⟩ := List.getElem?_of_mem hc'
    have hj' := (List.getElem?_eq_some_iff.mp hj).1
    exact ⟨j, _, List.getElem?_eq_getElem (by omega), hj⟩
  have hsound : ∀ c' ∈ b'.columns, Sound c'.data (n + 1) := by
    intro c' hc'
    obtain ⟨j, c, hc, hj⟩ := hback c' hc'
    obtain ⟨c2, v, g1, _, _, _, g6, _⟩ := hall j c hc
    rw [hj] at g1; cases g1
    exact g6.sound
  refine ⟨b', by rw [applyRow_macro]; exact h1, h1, ?_, fun c hc => (hsound c hc).len, hsound, ?_, ?_⟩
  · apply List.ext_getElem?
    intro j
    simp only [header, List.getElem?_map]
    cases hc : b.columns[j]? with
    | none =>
      rw [List.getElem?_eq_none (by rw [hlen]; exact List.getElem?_eq_none_iff.mp hc)]
    | some c =>
      obtain ⟨c', v, g1, g2, g3, _⟩ := hall j c hc
      rw [g1]; simp [g2, g3]
  · intro k v hkv
    have := (hr.2 k).mp (List.mem_map.mpr ⟨(k, v), hkv, rfl⟩)
    obtain ⟨c, hc, rfl⟩ := List.mem_map.mp this
    obtain ⟨j, hj⟩ := List.getElem?_of_mem hc
    obtain ⟨c', g1, g2, g3, _, g5⟩ := h4 j c hj
    exact ⟨c', List.mem_of_getElem? g1, g2, (g5 v hkv).2⟩
  · rintro k i v hi ⟨c, hc, hk, hv⟩
    obtain ⟨j, hj⟩ := List.getElem?_of_mem hc
    obtain ⟨c', w, g1, g2, g3, _, g6, _⟩ := hall j c hj
    exact ⟨c', List.mem_of_getElem? g1, g2.trans hk, by rw [g6.old i hi]; exact hv⟩

example : Supplies [("b", .str [98]), ("a", .num .u8 3)] (names ⟨BlockInfo.default, [⟨"a", .num .u8 [7]⟩, ⟨"b", .str [[97]]⟩]⟩) := by
  refine ⟨by decide, fun n => ?_⟩
  simp [names, or_comm]

/-- **C32**, any number of rows: rows appended to a new block, all with the names of the first one and with values of the types the
first one had, give a rectangular block whose cells are the values supplied. (`row!` and `Vec<(String, Value)>` do the same.) -/
theorem C32_rows_partial (r0 : List (String × Value)) (rs : List (List (String × Value))) (hk : (r0.map Prod.fst).Nodup)
    (h0 : ∀ k v, (k, v) ∈ r0 → Starts v) (hs : ∀ r ∈ rs, Supplies r (r0.map Prod.fst))
    (hf : ∀ r ∈ rs, ∀ k v v0, (k, v) ∈ r → (k, v0) ∈ r0 → Fits (columnType v0) v) :
    ∃ b, Block.new.pushRows (r0 :: rs) = .done b ∧ names b = r0.map Prod.fst ∧ Rect b (rs.length + 1) ∧
      ∀ i r, (r0 :: rs)[i]? = some r → ∀ k v, (k, v) ∈ r → CellIs b k i v := by
  obtain ⟨new, g1, g2, g3⟩ := apply_first r0 Block.new hk (by simp [names, Block.new]) (by simp [names, Block.new]) h0 (by simp [Block.new])
  simp only [Block.new, List.nil_append] at g1
  -- every row so far is in the block `b` of `n` rows
  suffices key : ∀ (rs done : List (List (String × Value))) (b : Block), names b = r0.map Prod.fst →
      (∀ c ∈ b.columns, Sound c.data done.length ∧ ∃ v0, (c.name, v0) ∈ r0 ∧ c.data.sqlType = columnType v0) →
      (∀ (i : Nat) r, done[i]? = some r → ∀ k v, (k, v) ∈ r → CellIs b k i v) →
      (∀ r ∈ rs, Supplies r (r0.map Prod.fst)) → (∀ r ∈ rs, ∀ k v v0, (k, v) ∈ r → (k, v0) ∈ r0 → Fits (columnType v0) v) →
      ∃ b', b.pushRows rs = .done b' ∧ names b' = r0.map Prod.fst ∧ Rect b' (done.length + rs.length) ∧
        ∀ (i : Nat) r, (done ++ rs)[i]? = some r → ∀ k v, (k, v) ∈ r → CellIs b' k i v by
    have hnlen : new.length = r0.length := by simpa using congrArg List.length g2
    obtain ⟨b', e1, e2, e3, e4⟩ := key rs [r0] { Block.new with columns := new } g2 (by
      intro c hc
      obtain ⟨j, hj⟩ := List.getElem?_of_mem hc
      have hj' : j < new.length := (List.getElem?_eq_some_iff.mp hj).1
      have hr : r0[j]? = some r0[j] := List.getElem?_eq_getElem (by omega)
      obtain ⟨c', q1, q2, q3, q4, q5⟩ := g3 j (r0[j]).1 (r0[j]).2 hr
      rw [show ({ Block.new with columns := new } : Block).columns = new from rfl, q1] at hj
      cases hj
      exact ⟨q4, (r0[j]).2, by rw [q2]; exact List.getElem_mem _, q3⟩) (by
      intro i r hi k v hkv
      cases i with
      | succ i => simp at hi
      | zero =>
        cases hi
        obtain ⟨j, hj⟩ := List.getElem?_of_mem hkv
        obtain ⟨c, q1, q2, q3, q4, q5⟩ := g3 j k v hj
        exact ⟨c, List.mem_of_getElem? q1, q2, q5⟩) hs hf
    refine ⟨b', ?_, e2, by rw [Nat.add_comm]; exact e3, e4⟩
    rw [Block.pushRows, applyRow_macro]
    have : Block.new.applyVec r0 = .done { Block.new with columns := new } := g1
    rw [this]; exact e1
  intro rs
  induction rs with
  | nil =>
    intro done b hn hsnd hcell _ _
    exact ⟨b, rfl, hn, fun c hc => by simpa using (hsnd c hc).1.len, by simpa using hcell⟩
  | cons r rs ih =>
    intro done b hn hsnd hcell hsup hfit
    have hfst : ∀ c ∈ b.columns, Sound c.data done.length ∧ PlainType c.data.sqlType := by
      intro c hc
      obtain ⟨q1, v0, q2, q3⟩ := hsnd c hc
      exact ⟨q1, by rw [q3]; exact (h0 _ _ q2).1⟩
    obtain ⟨b', e1, e2, e3, e4, e5, e6, e7⟩ := C32_row_partial b done.length (by rw [hn]; exact hk) hfst r
      (by rw [hn]; exact hsup r (by simp)) (fun c hc v hv => by
        obtain ⟨q1, v0, q2, q3⟩ := hsnd c hc
        rw [q3]; exact hfit r (by simp) c.name v v0 hv q2)
    have hn' : names b' = names b := by
      have := congrArg (List.map Prod.fst) e3
      simpa only [header, names, List.map_map, Function.comp_def] using this
    obtain ⟨b2, f1, f2, f3, f4⟩ := ih (done ++ [r]) b' (by rw [hn', hn]) (by
        intro c hc
        refine ⟨by simpa using e5 c hc, ?_⟩
        have hm : (c.name, c.data.sqlType) ∈ header b' := List.mem_map.mpr ⟨c, hc, rfl⟩
        rw [e3] at hm
        obtain ⟨c0, hc0, he⟩ := List.mem_map.mp hm
        obtain ⟨_, v0, q2, q3⟩ := hsnd c0 hc0
        simp only [Prod.mk.injEq] at he
        exact ⟨v0, by rw [← he.1]; exact q2, by rw [← he.2]; exact q3⟩)
      (by
        intro i r' hi k v hkv
        rw [List.getElem?_append] at hi
        split at hi
        · rename_i hlt
          exact e7 k i v hlt (hcell i r' hi k v hkv)
        · rename_i hge
          rw [List.getElem?_singleton] at hi
          split at hi
          · cases hi
            have : i = done.length := by omega
            subst this
            exact e6 k v hkv
          · cases hi)
      (fun r' h => hsup r' (by simp [h])) (fun r' h => hfit r' (by simp [h]))
    refine ⟨b2, by rw [Block.pushRows, e1]; exact f1, f2, ?_, by simpa using f4⟩
    have : (done ++ [r]).length + rs.length = done.length + (r :: rs).length := by simp; omega
    rw [← this]; exact f3

example : Starts (.num .u8 7) ∧ Starts (.datetime 5 defaultTz) ∧ Starts (.array .string [.str [1]]) := by
  refine ⟨⟨trivial, rfl, by decide⟩, ⟨trivial, show 5 < 256 ^ 4 by decide⟩, ⟨trivial, rfl, ?_⟩⟩
  intro v hv; simp at hv; subst hv; trivial

/-- Number of rows of each column after appending rows to a new block; `none` if that failed. -/
def shape : Applied → Option (List (Out Nat))
  | .done b => some (b.columns.map fun c => c.data.len)
  | .failed _ b => some (b.columns.map fun c => c.data.len)
  | .panic => none

/-- The row was rejected with an error. -/
def rejected : Applied → Bool
  | .failed _ _ => true
  | _ => false

/-- **C32** fails: a row that leaves out a column is accepted and leaves the columns with different numbers of rows. -/
theorem C32_missing_violated :
    shape (Block.new.pushRows [[("a", .num .u8 1), ("b", .num .u8 2)], [("a", .num .u8 3)]]) = some [.ok 2, .ok 1] ∧
    rejected (Block.new.pushRows [[("a", .num .u8 1), ("b", .num .u8 2)], [("a", .num .u8 3)]]) = false := ⟨rfl, rfl⟩

/-- **C32** fails: a new name in the second row is accepted when it comes first, and its column stays short by one row. -/
theorem C32_extra_violated :
    shape (Block.new.pushRows [[("a", .num .u8 1)], [("b", .num .u8 2), ("a", .num .u8 3)]]) = some [.ok 2, .ok 1] ∧
    rejected (Block.new.pushRows [[("a", .num .u8 1)], [("b", .num .u8 2), ("a", .num .u8 3)]]) = false := ⟨rfl, rfl⟩

/-- **C32** fails: when the new name comes last the row is rejected, but the values before it stay in the block. -/
theorem C32_rejected_violated :
    rejected (Block.new.pushRows [[("a", .num .u8 1), ("b", .num .u8 2)], [("a", .num .u8 3), ("c", .num .u8 4)]]) = true ∧
    shape (Block.new.pushRows [[("a", .num .u8 1), ("b", .num .u8 2)], [("a", .num .u8 3), ("c", .num .u8 4)]]) =
      some [.ok 2, .ok 1] := ⟨rfl, rfl⟩

/-- **C32** fails: a name given twice in a row is stored twice. -/
theorem C32_duplicate_violated :
    shape (Block.new.pushRows [[("a", .num .u8 1), ("b", .num .u8 2), ("a", .num .u8 3)]]) = some [.ok 2, .ok 1] ∧
    rejected (Block.new.pushRows [[("a", .num .u8 1), ("b", .num .u8 2), ("a", .num .u8 3)]]) = false := ⟨rfl, rfl⟩

/-- **C32** fails: a value of another type than the column's panics. -/
theorem C32_type_violated : (match Block.new.pushRows [[("a", .num .u8 1)], [("a", .str [97])]] with | .panic => true | _ => false) = true :=
  rfl

/-- **C32**, whole columns: a column is accepted exactly when it has as many rows as the block (any number if the block is empty);
otherwise `append_column` panics. -/
theorem C32_append_column (b : Block) (c : NCol) (m n : Nat) (hb : b.rowCount = .ok m) (hc : c.data.len = .ok n) :
    (b.columns = [] ∨ m = n → b.append c = .ok { b with columns := b.columns ++ [c] }) ∧
    (b.columns ≠ [] → m ≠ n → b.append c = .panic) := by
  simp only [Block.append, hc, hb, obind_ok]
  refine ⟨fun h => ?_, fun h1 h2 => ?_⟩
  · rcases h with h | h
    · rw [if_pos (by simp [h])]; rfl
    · subst h; split
      · rfl
      · rw [if_neg (by simp)]; rfl
  · rw [if_neg (by simpa using h1), if_pos h2]

example : (Block.append ⟨BlockInfo.default, [⟨"a", .num .u8 [1]⟩]⟩ ⟨"b", .num .u8 [1, 2]⟩) = .panic :=
  (C32_append_column _ _ 1 2 rfl rfl).2 (by simp) (by decide)

theorem append_rect {b b' : Block} {c : NCol} (h : b.append c = .ok b') (hr : ∃ m, Rect b m) : ∃ m, Rect b' m := by
  obtain ⟨m, hr⟩ := hr
  unfold Block.append at h
  obtain ⟨l, hl, h⟩ := out_bind_ok.mp h
  by_cases he : b.columns.isEmpty = true
  · rw [if_pos he] at h; cases h
    refine ⟨l, fun d hd => ?_⟩
    simp only [List.isEmpty_iff.mp he, List.nil_append, List.mem_singleton] at hd
    subst hd; exact hl
  · rw [if_neg he] at h
    obtain ⟨m', hm, h⟩ := out_bind_ok.mp h
    by_cases hne : m' ≠ l
    · rw [if_pos hne] at h; cases h
    · rw [if_neg hne] at h; cases h
      have hml : m' = l := Classical.byContradiction hne
      have : m' = m := by
        unfold Block.rowCount at hm
        cases hcs : b.columns with
        | nil => simp [hcs] at he
        | cons d ds =>
          rw [hcs] at hm
          have := hr d (by simp [hcs])
          simp only at hm
          rw [this] at hm; cases hm; rfl
      refine ⟨m, fun d hd => ?_⟩
      simp only [List.mem_append, List.mem_singleton] at hd
      rcases hd with hd | rfl
      · exact hr d hd
      · rw [hl, ← hml, this]

/-- **C32**: every block received from a server is rectangular. -/
theorem C32_received (known : Tz → Bool) (tz : Tz) (bs rest : Bytes) (b : Block) (h : rawLoad known tz bs = .ok b rest) :
    ∃ m, Rect b m := by
  have loop : ∀ (n nr : Nat) (b0 b : Block) (bs rest : Bytes), (∃ m, Rect b0 m) → readColumns known tz nr n b0 bs = .ok b rest →
      ∃ m, Rect b m := by
    intro n
    induction n with
    | zero => intro nr b0 b bs rest hr h; cases h; exact hr
    | succ n ih =>
      intro nr b0 b bs rest hr h
      have e : readColumns known tz nr (n + 1) b0 bs = Reader.bind (readColumn known tz nr) (fun c => Reader.bind (Reader.lift (b0.append c))
        (fun b => readColumns known tz nr n b)) bs := rfl
      rw [e] at h
      unfold Reader.bind at h
      split at h <;> try cases h
      rename_i c r1 _
      simp only at h
      split at h <;> try cases h
      rename_i b1 r2 hl
      refine ih nr b1 b r2 rest ?_ h
      cases ha : b0.append c with
      | ok b1' => rw [ha] at hl; cases hl; exact append_rect ha hr
      | err e => rw [ha] at hl; cases hl
      | panic => rw [ha] at hl; cases hl
  have e : rawLoad known tz bs = Reader.bind readBlockInfo (fun info => Reader.bind readUvarint (fun nc => Reader.bind readUvarint
    (fun nr => readColumns known tz nr nc { Block.new with info := info }))) bs := rfl
  rw [e] at h
  unfold Reader.bind at h
  split at h <;> try cases h
  simp only at h
  split at h <;> try cases h
  split at h <;> try cases h
  exact loop _ _ _ _ _ _ ⟨0, by simp [Rect, Block.new]⟩ h

/-- Such blocks exist: two columns, three rows. -/
example (known : Tz → Bool) : ∃ bytes b, rawLoad known "UTC".toList bytes = .ok b [] ∧ Rect b 3 := by
  obtain ⟨bytes, _, h⟩ := C10_block_roundtrip_partial known "UTC".toList 3 sampleBlock (sampleBlock_ok known)
  obtain ⟨b, h1, _, _, _, h5, _⟩ := h []
  exact ⟨bytes ++ [], b, h1, h5⟩

end CH.Props
