import Verif.Spec.Rows
import Verif.Lemmas.Fits

/-! Lemmas on rows of blocks. -/

namespace CH
open CH.Spec

theorem findName_spec (name : String) : ∀ (cols : List NCol) (k : Nat),
    (∃ i c, findName name k cols = .ok (k + i) ∧ cols[i]? = some c ∧ c.name = name ∧
      ∀ j d, j < i → cols[j]? = some d → d.name ≠ name) ∨
    (findName name k cols = .err outOfRange ∧ ∀ c ∈ cols, c.name ≠ name) := by
  intro cols
  induction cols with
  | nil => intro k; exact .inr ⟨rfl, by simp⟩
  | cons c cs ih =>
    intro k
    by_cases h : c.name = name
    · exact .inl ⟨0, c, by simp [findName, h], rfl, h, fun j d hj => absurd hj (by omega)⟩
    · rcases ih (k + 1) with ⟨i, d, h1, h2, h3, h4⟩ | ⟨h1, h2⟩
      · refine .inl ⟨i + 1, d, ?_, h2, h3, ?_⟩
        · rw [findName, if_neg h, h1]; congr 1; omega
        · intro j e hj he
          cases j with
          | zero => cases he; exact h
          | succ j => exact h4 j e (by omega) he
      · refine .inr ⟨by rw [findName, if_neg h, h1], ?_⟩
        simp only [List.mem_cons, forall_eq_or_imp]
        exact ⟨h, h2⟩

theorem findName_first {b : Block} {name : String} {i : Nat} (h : FirstNamed b name i) : findName name 0 b.columns = .ok i := by
  obtain ⟨⟨c, hc, hn⟩, hf⟩ := h
  rcases findName_spec name b.columns 0 with ⟨k, d, h1, h2, h3, h4⟩ | ⟨_, h2⟩
  · rcases Nat.lt_trichotomy k i with hlt | rfl | hgt
    · exact absurd h3 (hf k d hlt h2)
    · rw [h1, Nat.zero_add]
    · exact absurd hn (h4 i c hgt hc)
  · exact absurd hn (h2 c (List.mem_of_getElem? hc))

theorem findName_none {cols : List NCol} {name : String} (h : ∀ c ∈ cols, c.name ≠ name) (k : Nat) :
    findName name k cols = .err outOfRange := by
  rcases findName_spec name cols k with ⟨i, d, _, h2, h3, _⟩ | ⟨h1, _⟩
  · exact absurd h3 (h d (List.mem_of_getElem? h2))
  · exact h1

/-- In a block without repeated names a column is found at its own position. -/
theorem findName_nodup {b : Block} (hn : (names b).Nodup) {j : Nat} {c : NCol} (hc : b.columns[j]? = some c) :
    findName c.name 0 b.columns = .ok j := by
  refine findName_first ⟨⟨c, hc, rfl⟩, fun k d hk hd he => ?_⟩
  have hj := (List.getElem?_eq_some_iff.mp hc).1
  have := (List.pairwise_iff_getElem.mp hn) k j (by simp [names]; omega) (by simp [names]; exact hj) hk
  simp only [names, List.getElem_map] at this
  rw [List.getElem?_eq_some_iff] at hc hd
  obtain ⟨_, rfl⟩ := hc
  obtain ⟨_, rfl⟩ := hd
  exact this he

theorem applyRow_macro : ∀ (r : List (String × Value)) (b : Block), b.applyRow (rowMacro r) = b.applyVec r
  | [], b => rfl
  | [(k, v)], b => by
    simp only [rowMacro, RCons.put, Block.applyRow, Block.applyVec]
  | (k, v) :: p :: rest, b => by
    have ih := applyRow_macro (p :: rest)
    rw [rowMacro, RCons.put, Block.applyRow, Block.applyVec]
    · cases b.putParam k v with
      | done b' => exact ih b'
      | failed e b' => rfl
      | panic => rfl
    · simp

/-- Appending a row whose names are all there. -/
theorem apply_known {n : Nat} : ∀ (r : List (String × Value)) (b : Block), (names b).Nodup → (r.map Prod.fst).Nodup →
    (∀ c ∈ b.columns, c.name ∈ r.map Prod.fst → Sound c.data n ∧ PlainType c.data.sqlType) →
    (∀ k v, (k, v) ∈ r → ∃ c ∈ b.columns, c.name = k ∧ Fits c.data.sqlType v) →
    ∃ b', b.applyVec r = .done b' ∧ b'.info = b.info ∧ names b' = names b ∧
      ∀ (j : Nat) (c : NCol), b.columns[j]? = some c → ∃ c', b'.columns[j]? = some c' ∧ c'.name = c.name ∧
        c'.data.sqlType = c.data.sqlType ∧ (c.name ∉ r.map Prod.fst → c' = c) ∧
        ∀ v, (c.name, v) ∈ r → Pushed c.data c'.data v n ∧ c'.data.at n = .ok v := by
  intro r
  induction r with
  | nil =>
    intro b _ _ _ _
    exact ⟨b, rfl, rfl, rfl, fun j c hc => ⟨c, hc, rfl, rfl, fun _ => rfl, by simp⟩⟩
  | cons p r ih =>
    obtain ⟨k, v⟩ := p
    intro b hn hk hs hf
    obtain ⟨c, hc, hck, hfit⟩ := hf k v (by simp)
    obtain ⟨i, hi⟩ := List.getElem?_of_mem hc
    obtain ⟨hsound, hplain⟩ := hs c hc (by simp [hck])
    obtain ⟨d, hd⟩ := push_ok hplain rfl hsound (.inl hfit)
    have hd : c.data.push v = .ok d := hd
    have hp := push_spec hsound (fits_genuine hfit) hd
    have hnew : d.at n = .ok v := by rw [hp.new, readBack_fits rfl hsound hfit]
    have hput : b.putParam k v = .done { b with columns := b.columns.set i ⟨c.name, d⟩ } := by
      have := findName_nodup hn hi
      rw [hck] at this
      simp only [Block.putParam, this, Block.pushAt, hi, hd]
    have hil := (List.getElem?_eq_some_iff.mp hi).1
    have hnames : names { b with columns := b.columns.set i ⟨c.name, d⟩ } = names b := by
      apply List.ext_getElem?
      intro j
      simp only [names, List.getElem?_map, List.getElem?_set]
      split
      · subst_vars
        rw [hi]; rfl
      · rfl
    simp only [List.map_cons, List.nodup_cons] at hk
    have hmem : ∀ e ∈ b.columns.set i ⟨c.name, d⟩, e.name ∈ r.map Prod.fst → e ∈ b.columns := by
      intro e he hen
      obtain ⟨j, hj⟩ := List.getElem?_of_mem he
      rw [List.getElem?_set] at hj
      split at hj
      · cases hj
        rw [hck] at hen
        exact absurd hen hk.1
      · exact List.mem_of_getElem? hj
    obtain ⟨b', h1, h2, h3, h4⟩ := ih { b with columns := b.columns.set i ⟨c.name, d⟩ } (by rw [hnames]; exact hn) hk.2
      (fun e he hen => hs e (hmem e he hen) (by simp; exact .inr (by simpa using hen)))
      (fun k' v' hkv => by
        obtain ⟨e, he, hek, hef⟩ := hf k' v' (by simp [hkv])
        obtain ⟨j, hj⟩ := List.getElem?_of_mem he
        have hne : k' ≠ k := by
          intro e; subst e
          exact hk.1 (List.mem_map.mpr ⟨(k', v'), hkv, rfl⟩)
        have hji : i ≠ j := by
          intro e2; subst e2
          rw [hi] at hj; cases hj
          exact hne (hek.symm.trans hck)
        exact ⟨e, List.mem_of_getElem? (i := j) (by rw [List.getElem?_set, if_neg hji]; exact hj), hek, hef⟩)
    refine ⟨b', by rw [Block.applyVec, hput]; exact h1, h2, by rw [h3, hnames], fun j e he => ?_⟩
    by_cases hji : i = j
    · subst hji
      rw [hi] at he; cases he
      obtain ⟨c', g1, g2, g3, g4, g5⟩ := h4 i ⟨c.name, d⟩ (by simp [List.getElem?_set, hil])
      have : c' = ⟨c.name, d⟩ := g4 (by simp only; rw [hck]; exact hk.1)
      subst this
      refine ⟨_, g1, rfl, hp.type, fun hx => absurd (by simp [hck]) hx, fun v' hv' => ?_⟩
      simp only [List.mem_cons, Prod.mk.injEq] at hv'
      rcases hv' with ⟨_, rfl⟩ | hv'
      · exact ⟨hp, hnew⟩
      · rw [hck] at hv'
        exact absurd (List.mem_map.mpr ⟨_, hv', rfl⟩) hk.1
    · obtain ⟨c', g1, g2, g3, g4, g5⟩ := h4 j e (by rw [List.getElem?_set, if_neg hji]; exact he)
      have hne : e.name ≠ k := by
        intro hx
        have h1 := findName_nodup hn he
        have h2 := findName_nodup hn hi
        rw [hx] at h1; rw [hck, h1] at h2
        cases h2; exact hji rfl
      refine ⟨c', g1, g2, g3, fun hx => g4 (fun hy => hx (by simp; exact .inr (by simpa using hy))), fun v' hv' => ?_⟩
      simp only [List.mem_cons, Prod.mk.injEq] at hv'
      rcases hv' with ⟨h, _⟩ | hv'
      · exact absurd h hne
      · exact g5 v' hv'

/-- The column made for a value. -/
theorem emptyCol_starts {v : Value} (h : Starts v) (tz : Tz) :
    ∃ c, emptyCol tz v.sqlType = .ok c ∧ c.sqlType = columnType v ∧ Sound c 0 := by
  have : (∀ s z, v ≠ .datetime s z) → columnType v = v.sqlType := by
    intro h; cases v <;> first | rfl | (exact absurd rfl (h _ _))
  cases v with
  | datetime s z => exact ⟨.chrono tz [], rfl, rfl, by simp [Sound]⟩
  | _ =>
    rw [this (by simp)]
    exact emptyCol_plain tz (by rw [← this (by simp)]; exact h.1)

/-- The first row makes the columns. -/
theorem apply_first : ∀ (r : List (String × Value)) (b : Block), (r.map Prod.fst).Nodup → (names b).Nodup →
    (∀ n ∈ names b, n ∉ r.map Prod.fst) → (∀ k v, (k, v) ∈ r → Starts v) → (∀ c ∈ b.columns, c.data.len = .ok 1) →
    ∃ new, b.applyVec r = .done { b with columns := b.columns ++ new } ∧ new.map (fun c => c.name) = r.map Prod.fst ∧
      ∀ (j : Nat) (k : String) (v : Value), r[j]? = some (k, v) → ∃ c, new[j]? = some c ∧ c.name = k ∧ c.data.sqlType = columnType v ∧ Sound c.data 1 ∧
        c.data.at 0 = .ok v := by
  intro r
  induction r with
  | nil =>
    intro b _ _ _ _ _
    exact ⟨[], by simp [Block.applyVec], rfl, by simp⟩
  | cons p r ih =>
    obtain ⟨k, v⟩ := p
    intro b hk hn hd hs hl
    have hst := hs k v (by simp)
    obtain ⟨c0, h0, ht, hs0⟩ := emptyCol_starts hst v.timezone
    obtain ⟨c1, h1⟩ := push_ok hst.1 ht hs0 (.inl hst.2)
    have h1 : c0.push v = .ok c1 := by rw [Col.push, ht]; exact h1
    have hp := push_spec hs0 (fits_genuine hst.2) h1
    have hrow : ∃ m, b.rowCount = .ok m ∧ m ≤ 1 := by
      unfold Block.rowCount
      cases hcs : b.columns with
      | nil => exact ⟨0, rfl, by omega⟩
      | cons c cs => exact ⟨1, hl c (by simp [hcs]), by omega⟩
    obtain ⟨m, hm, hm1⟩ := hrow
    have hfresh : ∀ c ∈ b.columns, c.name ≠ k := by
      intro c hc e
      exact hd c.name (List.mem_map.mpr ⟨c, hc, rfl⟩) (by simp [e])
    have hfind : findName k 0 (b.columns ++ [⟨k, c0⟩]) = .ok b.columns.length := by
      refine findName_first (b := { b with columns := b.columns ++ [⟨k, c0⟩] }) ⟨⟨⟨k, c0⟩, by simp, rfl⟩, fun j c hj hc => ?_⟩
      simp only [List.getElem?_append_left hj] at hc
      exact hfresh c (List.mem_of_getElem? hc)
    have hput : b.putParam k v = .done { b with columns := b.columns ++ [⟨k, c1⟩] } := by
      simp only [Block.putParam, findName_none hfresh, hm, if_pos hm1, h0, hfind, Block.pushAt]
      simp [h1]
    simp only [List.map_cons, List.nodup_cons] at hk
    have hn' : names { b with columns := b.columns ++ [⟨k, c1⟩] } = names b ++ [k] := by simp [names]
    obtain ⟨new, g1, g2, g3⟩ := ih { b with columns := b.columns ++ [⟨k, c1⟩] } hk.2
      (by
        rw [hn', List.nodup_append]
        refine ⟨hn, by simp, fun a ha b' hb' e => ?_⟩
        simp at hb'; subst hb'; subst e
        exact hd _ ha (by simp))
      (by
        rw [hn']
        intro x hx
        simp only [List.mem_append, List.mem_singleton] at hx
        rcases hx with hx | rfl
        · intro hy; exact hd x hx (by simp; exact .inr (by simpa using hy))
        · exact hk.1)
      (fun k' v' h => hs k' v' (by simp [h]))
      (by
        intro c hc
        simp only [List.mem_append, List.mem_singleton] at hc
        rcases hc with hc | rfl
        · exact hl c hc
        · exact hp.sound.len)
    refine ⟨⟨k, c1⟩ :: new, by rw [Block.applyVec, hput]; simp only [g1]; simp, by simp [g2], ?_⟩
    intro j k' v' hj
    cases j with
    | zero =>
      cases hj
      exact ⟨⟨k, c1⟩, rfl, rfl, hp.type.trans ht, hp.sound, by rw [hp.new, readBack_fits ht hs0 hst.2]⟩
    | succ j => exact g3 j k' v' hj

end CH
