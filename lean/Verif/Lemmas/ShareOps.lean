import Verif.Lemmas.Share

namespace CH

theorem holds_lt {m : Mem} {h x : Nat} (hh : m.holds h x) : h < m.holders.length := by
  rcases Nat.lt_or_ge h m.holders.length with hl | hl
  · exact hl
  · rw [Mem.holds, List.getElem?_eq_none hl] at hh; cases hh

theorem live_lt {m : Mem} {x : Nat} (hl : m.live x) : x < m.nodes.length := by
  obtain ⟨n, hn⟩ := hl
  rcases Nat.lt_or_ge x m.nodes.length with h | h
  · exact h
  · rw [List.getElem?_eq_none h] at hn; cases hn

/-! ### Adding an allocation -/

/-- A new allocation that refers to allocations in use. -/
theorem snoc_valid {m : Mem} (hv : m.Valid) {n : Node} (hn : ∀ x, x ∈ n.children → m.live x) (hp : n.plain = true) :
    Mem.Valid { m with nodes := m.nodes ++ [some n] } := by
  have live : ∀ x, m.live x → Mem.live { m with nodes := m.nodes ++ [some n] } x := fun x hl => by
    have := live_lt hl
    obtain ⟨q, hq⟩ := hl
    exact ⟨q, by show (m.nodes ++ [some n])[x]? = _; rw [List.getElem?_append_left this]; exact hq⟩
  refine ⟨fun y x hx => ?_, fun h x hx => live x (hv.held h x hx), fun y q hq => ?_⟩
  · rcases Nat.lt_trichotomy y m.nodes.length with hy | hy | hy
    · have e : Mem.kidsAt { m with nodes := m.nodes ++ [some n] } y = m.kidsAt y := by
        unfold Mem.kidsAt
        simp only [List.getElem?_append_left hy]
      rw [e] at hx
      exact ⟨(hv.kid y x hx).1, live x (hv.kid y x hx).2⟩
    · subst hy
      rw [kidsAt_of (n := n) (by simp)] at hx
      exact ⟨live_lt (hn x hx), live x (hn x hx)⟩
    · unfold Mem.kidsAt at hx
      simp only at hx
      rw [List.getElem?_eq_none (by simp; omega)] at hx
      cases hx
  · rcases Nat.lt_trichotomy y m.nodes.length with hy | hy | hy
    · simp only at hq
      rw [List.getElem?_append_left hy] at hq
      exact hv.plain y q hq
    · subst hy
      simp at hq
      subst hq; exact hp
    · simp only at hq
      rw [List.getElem?_eq_none (by simp; omega)] at hq
      cases hq

theorem snoc_view {m : Mem} (hv : m.Valid) (l : List (Option Node)) {hs : List (Option Nat)} {x : Nat} (hx : x < m.nodes.length) :
    Mem.view { nodes := m.nodes ++ l, holders := hs } x = m.view x := by
  refine view_congr x fun y hy => ?_
  have := reaches_le hv hy
  show (m.nodes ++ l)[y]? = _
  rw [List.getElem?_append_left (by omega)]

theorem view_holders (m : Mem) (hs : List (Option Nat)) (x : Nat) : Mem.view { m with holders := hs } x = m.view x :=
  view_congr x fun _ _ => rfl

/-- Changing what is held. -/
theorem holders_valid {m : Mem} (hv : m.Valid) {hs : List (Option Nat)} (h : ∀ k x : Nat, hs[k]? = some (some x) → m.live x) :
    Mem.Valid { m with holders := hs } := ⟨hv.kid, fun k x hx => h k x hx, hv.plain⟩

/-! ### `Column::push` -/

theorem others_apart {m : Mem} {a b h' x : Nat} (hh : m.holds h' b) (base : ¬ m.Reaches b a) (hc : m.Chain a x) : ¬ m.Reaches b x :=
  chain_apart base (fun _ _ hk hs => holder_kid hs hh hk) hc

/-- What `Column::push` does when it succeeds. -/
theorem pushColumn_ok {m m' : Mem} (hv : m.Valid) {h : Nat} {v : Value} (he : m.pushColumn h v = .ok m') :
    ∃ id c c', m.holds h id ∧ m.view id = some c ∧ (if m.sole id then c else c.forget).push v = .ok c' ∧ m'.Valid ∧
      m'.column h = some c' ∧ (∀ k, k ≠ h → m'.column k = m.column k) ∧ m'.holders.length = m.holders.length := by
  unfold Mem.pushColumn at he
  split at he
  · rename_i id hh
    have hh' : m.holds h id := hh
    obtain ⟨c, hc⟩ := view_live hv id (hv.held h id hh)
    by_cases hs : m.sole id
    · rw [if_pos hs] at he
      obtain ⟨c', hp, w⟩ := pushNode_ok id m v m' c hv hc he
      refine ⟨id, c, c', hh, hc, by rw [if_pos hs]; exact hp, w.shape.valid hv, ?_, fun k hk => ?_, by rw [w.shape.1]⟩
      · rw [column_eq (show m'.holds h id by rw [Mem.holds, w.shape.1]; exact hh), w.view]
      · refine column_congr k (by rw [w.shape.1]) fun b hb => view_congr b fun x hx => w.frame x fun hch => ?_
        refine others_apart hb (fun hr => ?_) hch hx
        cases hr with
        | refl => exact hk (holder_holder hs hb hh')
        | step _ hx => exact holder_kid hs hh' hx
    · rw [if_neg hs] at he
      obtain ⟨n, hn⟩ := hv.held h id hh
      rw [hn] at he
      simp only at he
      have hid : id < m.nodes.length := live_lt ⟨n, hn⟩
      have hv₀ : Mem.Valid { m with nodes := m.nodes ++ [some n.cloneInstance] } :=
        snoc_valid hv (fun x hx => (hv.kid id x (by rw [kidsAt_of hn]; rw [clone_children] at hx; exact hx)).2)
          (by have := hv.plain id n hn; cases n <;> simp_all [Node.cloneInstance, Node.plain])
      have hv₁ : Mem.Valid { nodes := m.nodes ++ [some n.cloneInstance], holders := m.holders.set h (some m.nodes.length) } := by
        refine holders_valid hv₀ fun k x hx => ?_
        by_cases hk : k = h
        · subst hk
          rw [List.getElem?_set_self (holds_lt hh)] at hx
          simp at hx; subst hx
          exact ⟨n.cloneInstance, by simp⟩
        · rw [List.getElem?_set_ne (Ne.symm hk)] at hx
          exact hv₀.held k x hx
      have hc₁ : Mem.view { nodes := m.nodes ++ [some n.cloneInstance], holders := m.holders.set h (some m.nodes.length) }
          m.nodes.length = some c.forget := by
        rw [view_eq (n := n.cloneInstance) (by simp)]
        refine clone_toCol ?_ (hv.plain id n hn)
        rw [← hc, view_eq hn]
        refine toCol_congr fun j hj => ?_
        have := (hv.kid id j (by rw [kidsAt_of hn]; exact hj)).1
        rw [if_pos this, if_pos (by omega)]
        exact snoc_view hv _ (by omega)
      obtain ⟨c', hp, w⟩ := pushNode_ok m.nodes.length _ v m' c.forget hv₁ hc₁ he
      refine ⟨id, c, c', hh, hc, by rw [if_neg hs]; exact hp, w.shape.valid hv₁, ?_, fun k hk => ?_, by rw [w.shape.1]; simp⟩
      · rw [column_eq (show m'.holds h m.nodes.length by
          rw [Mem.holds, w.shape.1]; exact List.getElem?_set_self (holds_lt hh)), w.view]
      · have hk' : m'.holders[k]? = m.holders[k]? := by rw [w.shape.1]; exact List.getElem?_set_ne (Ne.symm hk)
        refine column_congr k hk' fun b hb => ?_
        have hb' : b < m.nodes.length := live_lt (hv.held k b hb)
        rw [← snoc_view hv [some n.cloneInstance] (hs := m.holders.set h (some m.nodes.length)) hb']
        refine view_congr b fun x hx => w.frame x fun hch => ?_
        refine others_apart (h' := k) (b := b) (by
          show (m.holders.set h (some m.nodes.length))[k]? = _
          rw [List.getElem?_set_ne (Ne.symm hk)]; exact hb) (fun hr => ?_) hch hx
        have := reaches_le hv₁ hr
        omega
  · cases he

/-! ### Cloning and dropping -/

theorem clone_eq {m : Mem} {h id : Nat} (hh : m.holds h id) : m.cloneColumn h = { m with holders := m.holders ++ [some id] } := by
  unfold Mem.cloneColumn; rw [show m.holders[h]? = some (some id) from hh]

theorem clone_ne {m : Mem} {h : Nat} (hh : ∀ id, ¬ m.holds h id) : m.cloneColumn h = m := by
  unfold Mem.cloneColumn
  split
  · rename_i id e; exact absurd e (hh id)
  · rfl

theorem clone_valid {m : Mem} (hv : m.Valid) (h : Nat) : (m.cloneColumn h).Valid := by
  unfold Mem.cloneColumn
  split
  · rename_i id e
    refine holders_valid hv fun k x hx => ?_
    rcases Nat.lt_or_ge k m.holders.length with hl | hl
    · rw [List.getElem?_append_left hl] at hx; exact hv.held k x hx
    · rw [List.getElem?_append_right hl] at hx
      have : k - m.holders.length = 0 := by
        rcases Nat.eq_zero_or_pos (k - m.holders.length) with h0 | h0
        · exact h0
        · rw [List.getElem?_eq_none (by simp; omega)] at hx; cases hx
      rw [this] at hx
      simp at hx; subst hx
      exact hv.held h id e
  · exact hv

theorem ref_of_holder {m : Mem} {h x : Nat} (hh : m.holds h x) : x ∈ m.refs := by
  obtain ⟨l, hl, hx⟩ := slot_holder hh
  exact List.mem_flatten.2 ⟨l, List.mem_of_getElem? hl, hx⟩

theorem ref_of_kid {m : Mem} {y x : Nat} (hy : x ∈ m.kidsAt y) : x ∈ m.refs := by
  obtain ⟨l, hl, hx⟩ := slot_kid hy
  exact List.mem_flatten.2 ⟨l, List.mem_of_getElem? hl, hx⟩

theorem free_kidsAt {m : Mem} {n y x : Nat} (h : x ∈ Mem.kidsAt { m with nodes := m.nodes.set n none } y) : x ∈ m.kidsAt y := by
  unfold Mem.kidsAt at h ⊢
  simp only at h
  by_cases hy : y = n
  · subst hy
    rw [List.getElem?_set] at h
    split at h
    · rename_i e
      split at e
      · split at e
        · simp at e; subst e; simp [kids] at h
        · cases e
      · exact absurd rfl ‹_›
    · cases h
  · rw [List.getElem?_set_ne (Ne.symm hy)] at h
    exact h

theorem free_valid {m : Mem} (hv : m.Valid) {n : Nat} (hn : n ∉ m.refs) : Mem.Valid { m with nodes := m.nodes.set n none } := by
  have live : ∀ x, x ∈ m.refs → m.live x → Mem.live { m with nodes := m.nodes.set n none } x := fun x hx ⟨q, hq⟩ =>
    ⟨q, by show (m.nodes.set n none)[x]? = _; rw [List.getElem?_set_ne (fun e => hn (by rw [e]; exact hx))]; exact hq⟩
  refine ⟨fun y x hx => ?_, fun h x hx => live x (ref_of_holder hx) (hv.held h x hx), fun y q hq => ?_⟩
  · have := free_kidsAt hx
    exact ⟨(hv.kid y x this).1, live x (ref_of_kid this) (hv.kid y x this).2⟩
  · simp only at hq
    by_cases hy : y = n
    · subst hy
      rw [List.getElem?_set] at hq
      simp at hq
    · rw [List.getElem?_set_ne (Ne.symm hy)] at hq
      exact hv.plain y q hq

theorem free_count (m : Mem) (n x : Nat) : (Mem.refs { m with nodes := m.nodes.set n none }).count x ≤ m.refs.count x := by
  have key : ∀ (l : List (Option Node)) (n : Nat), (((l.set n none).map kids).flatten).count x ≤ ((l.map kids).flatten).count x := by
    intro l
    induction l with
    | nil => intro n; exact Nat.le_refl _
    | cons a l ih =>
      intro n
      cases n with
      | zero =>
        rw [List.set_cons_zero, List.map_cons, List.map_cons, List.flatten_cons, List.flatten_cons, List.count_append, List.count_append]
        have : (kids none).count x = 0 := rfl
        omega
      | succ n =>
        rw [List.set_cons_succ, List.map_cons, List.map_cons, List.flatten_cons, List.flatten_cons, List.count_append, List.count_append]
        have := ih n
        omega
  unfold Mem.refs
  rw [List.flatten_append, List.flatten_append, List.count_append, List.count_append]
  have := key m.nodes n
  simp only
  omega

/-- What freeing unreferenced allocations does: nothing that is held changes. -/
structure Freed (m m' : Mem) : Prop where
  valid : m'.Valid
  holders : m'.holders = m.holders
  nodes : ∀ h id, m.holds h id → ∀ x, m.Reaches id x → m'.nodes[x]? = m.nodes[x]?
  count : ∀ x, m'.refs.count x ≤ m.refs.count x

theorem free_reaches {m m' : Mem} {a x : Nat} (h : ∀ y, m.Reaches a y → m'.nodes[y]? = m.nodes[y]?) (hr : m.Reaches a x) : m'.Reaches a x := by
  induction hr with
  | refl => exact .refl
  | @step p x hp hx ih =>
    refine .step ih ?_
    unfold Mem.kidsAt at hx ⊢
    rw [h p hp]; exact hx

theorem sweep_freed : ∀ (n : Nat) (m : Mem), m.Valid → Freed m (Mem.sweep n m)
  | 0, m, hv => ⟨hv, rfl, fun _ _ _ _ _ => rfl, fun _ => Nat.le_refl _⟩
  | n + 1, m, hv => by
    rw [Mem.sweep]
    by_cases hn : n ∈ m.refs
    · rw [if_pos hn]; exact sweep_freed n m hv
    · rw [if_neg hn]
      have hf := sweep_freed n _ (free_valid hv hn)
      have step : ∀ h id, m.holds h id → ∀ x, m.Reaches id x → (m.nodes.set n none)[x]? = m.nodes[x]? := fun h id hh x hx => by
        have hx' : x ∈ m.refs := by
          cases hx with
          | refl => exact ref_of_holder hh
          | step _ hk => exact ref_of_kid hk
        exact List.getElem?_set_ne (fun e => hn (by rw [e]; exact hx'))
      refine ⟨hf.valid, hf.holders, fun h id hh x hx => ?_, fun x => Nat.le_trans (hf.count x) (free_count m n x)⟩
      rw [hf.nodes h id hh x (free_reaches (step h id hh) hx)]
      exact step h id hh x hx

theorem drop_holds {m : Mem} {h k x : Nat} (hx : Mem.holds { m with holders := m.holders.set h none } k x) : k ≠ h ∧ m.holds k x := by
  unfold Mem.holds at hx
  simp only at hx
  by_cases hk : k = h
  · subst hk
    rw [List.getElem?_set] at hx
    simp at hx
  · rw [List.getElem?_set_ne (Ne.symm hk)] at hx
    exact ⟨hk, hx⟩

theorem unhold_valid {m : Mem} (hv : m.Valid) (h : Nat) : Mem.Valid { m with holders := m.holders.set h none } :=
  holders_valid hv fun _ _ hx => hv.held _ _ (drop_holds hx).2

theorem drop_freed {m : Mem} (hv : m.Valid) (h : Nat) : Freed { m with holders := m.holders.set h none } (m.dropColumn h) :=
  sweep_freed _ _ (unhold_valid hv h)

theorem drop_column {m : Mem} (hv : m.Valid) {h k : Nat} (hk : k ≠ h) : (m.dropColumn h).column k = m.column k := by
  have hf := drop_freed hv h
  have hh : (m.dropColumn h).holders[k]? = m.holders[k]? := by
    rw [hf.holders]; exact List.getElem?_set_ne (Ne.symm hk)
  refine column_congr k hh fun id hid => ?_
  rw [← view_holders m (m.holders.set h none) id]
  refine view_congr id fun x hx => hf.nodes k id ?_ x hx
  show (m.holders.set h none)[k]? = _
  rw [List.getElem?_set_ne (Ne.symm hk)]; exact hid

/-! ### New columns -/

theorem snoc_count (m : Mem) (n : Node) (x : Nat) :
    (Mem.refs { m with nodes := m.nodes ++ [some n] }).count x = m.refs.count x + n.children.count x := by
  unfold Mem.refs
  simp [List.count_append, kids, Nat.add_assoc]

/-- What allocating a column does: the new allocations come last, refer to each other only, once each, except the last one. -/
structure Alloc (m m' : Mem) (c : Col) : Prop where
  holders : m'.holders = m.holders
  valid : m'.Valid
  prefix_ : ∃ l, m'.nodes = m.nodes ++ l
  longer : m.nodes.length < m'.nodes.length
  view : m'.view (m'.nodes.length - 1) = some c
  live : ∀ y, m.nodes.length ≤ y → y < m'.nodes.length → m'.live y
  own : ∀ y x, m.nodes.length ≤ y → x ∈ m'.kidsAt y → m.nodes.length ≤ x
  count : ∀ x, m'.refs.count x = m.refs.count x + if m.nodes.length ≤ x ∧ x < m'.nodes.length - 1 then 1 else 0

theorem snoc_kidsAt_lt {m : Mem} {n : Node} {y : Nat} (hy : y < m.nodes.length) :
    Mem.kidsAt { m with nodes := m.nodes ++ [some n] } y = m.kidsAt y := by
  unfold Mem.kidsAt
  simp only [List.getElem?_append_left hy]

theorem Alloc.leaf {m : Mem} (hv : m.Valid) {c : Col} (hc : c.flat = true) :
    Alloc m { m with nodes := m.nodes ++ [some (.leaf c)] } c where
  holders := rfl
  valid := snoc_valid hv (fun x hx => by cases hx) hc
  prefix_ := ⟨_, rfl⟩
  longer := by simp
  view := by
    rw [view_eq (n := .leaf c) (by simp)]; rfl
  live := fun y h₁ h₂ => by
    have : y = m.nodes.length := by simp at h₂; omega
    subst this
    exact ⟨.leaf c, by simp⟩
  own := fun y x h hx => by
    by_cases hy : y = m.nodes.length
    · subst hy; rw [kidsAt_of (n := .leaf c) (by simp)] at hx; cases hx
    · unfold Mem.kidsAt at hx
      simp only at hx
      rw [List.getElem?_eq_none (by simp; omega)] at hx
      cases hx
  count := fun x => by
    rw [snoc_count, if_neg (by simp)]; rfl

/-- One inner column. -/
theorem Alloc.one {m m₁ : Mem} {c c' : Col} {n : Node} (h : Alloc m m₁ c) (hc : n.children = [m₁.nodes.length - 1])
    (hp : n.plain = true) (ht : ∀ f : Nat → Option Col, f (m₁.nodes.length - 1) = some c → n.toCol f = some c') :
    Alloc m { m₁ with nodes := m₁.nodes ++ [some n] } c' where
  holders := h.holders
  valid := snoc_valid h.valid (fun x hx => by
    rw [hc] at hx; simp at hx; subst hx
    have := h.longer
    exact h.live _ (by omega) (by omega)) hp
  prefix_ := by obtain ⟨l, hl⟩ := h.prefix_; exact ⟨l ++ [some n], by simp [hl]⟩
  longer := by have := h.longer; simp; omega
  view := by
    rw [view_eq (n := n) (by simp)]
    have hl := h.longer
    refine ht _ ?_
    simp only [List.length_append, List.length_cons, List.length_nil]
    rw [if_pos (by omega)]
    rw [← h.view]
    exact snoc_view h.valid _ (by omega)
  live := fun y h₁ h₂ => by
    simp at h₂
    by_cases hy : y = m₁.nodes.length
    · subst hy; exact ⟨n, by simp⟩
    · obtain ⟨q, hq⟩ := h.live y h₁ (by omega)
      exact ⟨q, by show (m₁.nodes ++ [some n])[y]? = _; rw [List.getElem?_append_left (by omega)]; exact hq⟩
  own := fun y x hy hx => by
    have hl := h.longer
    rcases Nat.lt_trichotomy y m₁.nodes.length with h₁ | h₁ | h₁
    · rw [snoc_kidsAt_lt h₁] at hx; exact h.own y x hy hx
    · subst h₁
      rw [kidsAt_of (n := n) (by simp), hc] at hx
      simp at hx; omega
    · unfold Mem.kidsAt at hx
      simp only at hx
      rw [List.getElem?_eq_none (by simp; omega)] at hx
      cases hx
  count := fun x => by
    have hl := h.longer
    rw [snoc_count, h.count, hc]
    simp only [List.length_append, List.length_cons, List.length_nil, List.count_cons, List.count_nil, beq_iff_eq]
    by_cases h₁ : m.nodes.length ≤ x ∧ x < m₁.nodes.length - 1
    · rw [if_pos h₁, if_neg (by omega), if_pos (by omega)]
    · by_cases h₂ : m₁.nodes.length - 1 = x
      · rw [if_neg h₁, if_pos h₂, if_pos (by omega)]
      · rw [if_neg h₁, if_neg h₂, if_neg (by omega)]

/-- Two inner columns. -/
theorem Alloc.two {m m₁ m₂ : Mem} {a b c' : Col} {n : Node} (h : Alloc m m₁ a) (h' : Alloc m₁ m₂ b)
    (hc : n.children = [m₁.nodes.length - 1, m₂.nodes.length - 1]) (hp : n.plain = true)
    (ht : ∀ f : Nat → Option Col, f (m₁.nodes.length - 1) = some a → f (m₂.nodes.length - 1) = some b → n.toCol f = some c') :
    Alloc m { m₂ with nodes := m₂.nodes ++ [some n] } c' := by
  have hl := h.longer
  have hl' := h'.longer
  obtain ⟨l, hpre⟩ := h.prefix_
  obtain ⟨l', hpre'⟩ := h'.prefix_
  have lift : ∀ y, m₁.live y → m₂.live y := fun y hy => by
    have := live_lt hy
    obtain ⟨q, hq⟩ := hy
    exact ⟨q, by rw [hpre', List.getElem?_append_left this]; exact hq⟩
  have kids₂ : ∀ y, y < m₁.nodes.length → m₂.kidsAt y = m₁.kidsAt y := fun y hy => by
    unfold Mem.kidsAt; rw [hpre', List.getElem?_append_left hy]
  refine ⟨h'.holders.trans h.holders, ?_, ⟨l ++ l' ++ [some n], by simp [hpre', hpre]⟩, by simp; omega, ?_, ?_, ?_, ?_⟩
  · refine snoc_valid h'.valid (fun x hx => ?_) hp
    rw [hc] at hx; simp at hx
    rcases hx with rfl | rfl
    · exact lift _ (h.live _ (by omega) (by omega))
    · exact h'.live _ (by omega) (by omega)
  · rw [view_eq (n := n) (by simp)]
    simp only [List.length_append, List.length_cons, List.length_nil]
    refine ht _ ?_ ?_
    · rw [if_pos (by omega), ← h.view]
      show Mem.view { m₂ with nodes := m₂.nodes ++ [some n] } _ = _
      rw [snoc_view h'.valid _ (by omega)]
      refine view_congr _ fun x hx => ?_
      have := reaches_le h.valid hx
      rw [hpre', List.getElem?_append_left (by omega)]
    · rw [if_pos (by omega), ← h'.view]
      exact snoc_view h'.valid _ (by omega)
  · intro y h₁ h₂
    simp at h₂
    by_cases hy : y = m₂.nodes.length
    · subst hy; exact ⟨n, by simp⟩
    · have hlive : m₂.live y := by
        by_cases hy' : y < m₁.nodes.length
        · exact lift y (h.live y h₁ hy')
        · exact h'.live y (by omega) (by omega)
      obtain ⟨q, hq⟩ := hlive
      exact ⟨q, by show (m₂.nodes ++ [some n])[y]? = _; rw [List.getElem?_append_left (by omega)]; exact hq⟩
  · intro y x hy hx
    rcases Nat.lt_trichotomy y m₂.nodes.length with h₁ | h₁ | h₁
    · rw [snoc_kidsAt_lt h₁] at hx
      by_cases hy' : y < m₁.nodes.length
      · rw [kids₂ y hy'] at hx; exact h.own y x hy hx
      · have := h'.own y x (by omega) hx; omega
    · subst h₁
      rw [kidsAt_of (n := n) (by simp), hc] at hx
      simp at hx; omega
    · unfold Mem.kidsAt at hx
      simp only at hx
      rw [List.getElem?_eq_none (by simp; omega)] at hx
      cases hx
  · intro x
    rw [snoc_count, h'.count, h.count, hc]
    simp only [List.length_append, List.length_cons, List.length_nil, List.count_cons, List.count_nil, beq_iff_eq]
    by_cases h₁ : m.nodes.length ≤ x ∧ x < m₁.nodes.length - 1
    · rw [if_pos h₁, if_neg (by omega), if_neg (by omega), if_neg (by omega), if_pos (by omega)]
    · by_cases h₂ : m₁.nodes.length - 1 = x
      · rw [if_neg h₁, if_neg (by omega), if_pos h₂, if_neg (by omega), if_pos (by omega)]
      · by_cases h₃ : m₁.nodes.length ≤ x ∧ x < m₂.nodes.length - 1
        · rw [if_neg h₁, if_pos h₃, if_neg h₂, if_neg (by omega), if_pos (by omega)]
        · by_cases h₄ : m₂.nodes.length - 1 = x
          · rw [if_neg h₁, if_neg h₃, if_neg h₂, if_pos h₄, if_pos (by omega)]
          · rw [if_neg h₁, if_neg h₃, if_neg h₂, if_neg h₄, if_neg (by omega)]

theorem alloc_spec : ∀ (c : Col) (m : Mem), m.Valid → Alloc m (m.alloc c) c := by
  intro c
  induction c with
  | nullable nulls c ih =>
    intro m hv
    exact (ih m hv).one rfl rfl fun f hf => by simp [Node.toCol, hf]
  | array offs c ih =>
    intro m hv
    exact (ih m hv).one rfl rfl fun f hf => by simp [Node.toCol, hf]
  | map offs a b iha ihb =>
    intro m hv
    exact (iha m hv).two (ihb _ (iha m hv).valid) rfl rfl fun f hf hg => by simp [Node.toCol, hf, hg]
  | simpleAgg g c ih =>
    intro m hv
    exact (ih m hv).one rfl rfl fun f hf => by simp [Node.toCol, hf]
  | lowCard ity index d vmap ih =>
    intro m hv
    exact (ih m hv).one rfl rfl fun f hf => by simp [Node.toCol, hf]
  | _ => intro m hv; exact Alloc.leaf hv rfl

theorem hold_count (m : Mem) (i x : Nat) :
    (Mem.refs { m with holders := m.holders ++ [some i] }).count x = m.refs.count x + if i = x then 1 else 0 := by
  unfold Mem.refs
  simp only [List.map_append, List.map_cons, List.map_nil, List.flatten_append, List.count_append, List.flatten_cons, List.flatten_nil,
    Option.toList, List.count_cons, List.count_nil, beq_iff_eq, List.append_nil]
  omega

theorem new_valid {m : Mem} (hv : m.Valid) (c : Col) : (m.newColumn c).Valid := by
  have ha := alloc_spec c m hv
  refine holders_valid ha.valid fun k x hx => ?_
  rcases Nat.lt_or_ge k (m.alloc c).holders.length with hl | hl
  · rw [List.getElem?_append_left hl] at hx; exact ha.valid.held k x hx
  · rw [List.getElem?_append_right hl] at hx
    have h0 : k - (m.alloc c).holders.length = 0 := by
      rcases Nat.eq_zero_or_pos (k - (m.alloc c).holders.length) with h0 | h0
      · exact h0
      · rw [List.getElem?_eq_none (by simp; omega)] at hx; cases hx
    rw [h0] at hx
    simp at hx; subst hx
    have := ha.longer
    exact ha.live _ (by omega) (by omega)

theorem new_holds {m : Mem} (hv : m.Valid) (c : Col) : (m.newColumn c).holds m.holders.length ((m.alloc c).nodes.length - 1) := by
  have ha := alloc_spec c m hv
  show ((m.alloc c).holders ++ [some ((m.alloc c).nodes.length - 1)])[m.holders.length]? = _
  rw [ha.holders]; simp

theorem new_column {m : Mem} (hv : m.Valid) (c : Col) : (m.newColumn c).column m.holders.length = some c := by
  rw [column_eq (new_holds hv c), ← (alloc_spec c m hv).view]
  exact view_holders _ _ _

theorem refs_lt {m : Mem} (hv : m.Valid) {x : Nat} (hx : x ∈ m.refs) : x < m.nodes.length := by
  obtain ⟨l, hl, hx'⟩ := List.mem_flatten.1 hx
  rcases List.mem_append.1 hl with h | h
  · obtain ⟨o, ho, rfl⟩ := List.mem_map.1 h
    obtain ⟨k, hk, hk'⟩ := List.getElem_of_mem ho
    cases o with
    | none => cases hx'
    | some y =>
      simp at hx'; subst hx'
      exact live_lt (hv.held k _ (by unfold Mem.holds; rw [List.getElem?_eq_getElem hk, hk']))
  · obtain ⟨o, ho, rfl⟩ := List.mem_map.1 h
    obtain ⟨k, hk, hk'⟩ := List.getElem_of_mem ho
    exact live_lt (hv.kid k x (by unfold Mem.kidsAt; rw [List.getElem?_eq_getElem hk, hk']; exact hx')).2

/-- A new column and everything inside it is unshared. -/
theorem new_owned {m : Mem} (hv : m.Valid) (c : Col) :
    (m.newColumn c).sole ((m.alloc c).nodes.length - 1) ∧ (m.newColumn c).Owned ((m.alloc c).nodes.length - 1) := by
  have ha := alloc_spec c m hv
  have hl := ha.longer
  have old : ∀ x, m.nodes.length ≤ x → m.refs.count x = 0 := fun x hx =>
    List.count_eq_zero.2 fun hm => by have := refs_lt hv hm; omega
  have cnt : ∀ x, m.nodes.length ≤ x → x ≤ (m.alloc c).nodes.length - 1 → (m.newColumn c).sole x := fun x h₁ h₂ => by
    unfold Mem.sole
    rw [show m.newColumn c = { m.alloc c with holders := (m.alloc c).holders ++ [some ((m.alloc c).nodes.length - 1)] } from rfl,
      hold_count, ha.count, old x h₁]
    by_cases hx : (m.alloc c).nodes.length - 1 = x
    · rw [if_pos hx, if_neg (by omega)]
    · rw [if_neg hx, if_pos (by omega)]
  refine ⟨cnt _ (by omega) (by omega), fun x hx _ => ?_⟩
  have hge : m.nodes.length ≤ x := by
    induction hx with
    | refl => omega
    | @step p y hp hy ih =>
      by_cases hne : p = (m.alloc c).nodes.length - 1
      · exact ha.own p y (by omega) hy
      · exact ha.own p y (ih hne) hy
  exact cnt x hge (reaches_le (new_valid hv c) hx)

theorem reach_valid {m : Mem} (h : m.Reach) : m.Valid := by
  induction h with
  | empty => exact ⟨fun y x hx => by simp [Mem.kidsAt] at hx, fun h x hx => by simp [Mem.holds] at hx, fun y n hn => by simp at hn⟩
  | new c _ ih => exact new_valid ih c
  | clone h _ ih => exact clone_valid ih h
  | drop h _ ih => exact (drop_freed ih h).valid
  | push h v _ he ih => obtain ⟨_, _, _, _, _, _, hv, _⟩ := pushColumn_ok ih he; exact hv

end CH
