import Verif.Spec.Share
import Verif.Lemmas.ShareOps

/-!
C67: copies of a column do not influence one another.
-/

namespace CH.Props

open CH CH.Spec

/-! ### Auxiliary facts -/

theorem forget_sound {c : Col} {n : Nat} (h : Sound c n) : Sound c.forget n := by
  cases c <;> try exact h
  obtain ⟨h₁, h₂, h₃, m, h₄, h₅, h₆, _⟩ := h
  exact ⟨h₁, h₂, h₃, m, h₄, h₅, h₆, trivial⟩

theorem forget_at (c : Col) (i : Nat) : c.forget.at i = c.at i := by cases c <;> rfl

theorem forget_readBack (c : Col) (v : Value) : readBack c.forget v = readBack c v := by
  cases c <;> first | rfl | (cases v <;> rfl)

/-- The `h`-th column is the only one that refers to `id`, and nothing inside is shared. -/
structure Only (m : Mem) (h id : Nat) : Prop where
  valid : m.Valid
  holds : m.holds h id
  sole : m.sole id
  owned : m.Owned id

theorem only_push {m : Mem} {h id : Nat} (ho : Only m h id) {c : Col} (hc : m.view id = some c) (v : Value) :
    (∀ c', c.push v = .ok c' → ∃ m', m.pushColumn h v = .ok m' ∧ Only m' h id ∧ m'.view id = some c') ∧
    (∀ m', m.pushColumn h v = .ok m' → ∃ c', c.push v = .ok c') := by
  have e : m.pushColumn h v = m.pushNode id v := by
    unfold Mem.pushColumn
    rw [show m.holders[h]? = some (some id) from ho.holds]
    simp only
    rw [if_pos ho.sole]
  rw [e]
  refine ⟨fun c' hp => ?_, fun m' he => ?_⟩
  · obtain ⟨m', he⟩ := pushNode_total id m v c c' ho.valid hc ho.owned hp
    obtain ⟨c'', hp', w⟩ := pushNode_ok id m v m' c ho.valid hc he
    rw [hp] at hp'; cases hp'
    exact ⟨m', he, ⟨w.shape.valid ho.valid, by rw [Mem.holds, w.shape.1]; exact ho.holds, (w.shape.sole id).2 ho.sole, w.shape.owned ho.owned⟩,
      w.view⟩
  · obtain ⟨c', hp, _⟩ := pushNode_ok id m v m' c ho.valid hc he
    exact ⟨c', hp⟩

theorem only_appends {h id : Nat} : ∀ (vs : List Value) {m : Mem} {c : Col}, Only m h id → m.view id = some c →
    (∀ c', Takes c vs c' → ∃ m', Appends h m vs m' ∧ m'.column h = some c') ∧
    (∀ m', Appends h m vs m' → ∃ c', Takes c vs c' ∧ m'.column h = some c')
  | [], m, c, ho, hc => by
    have hcol : m.column h = some c := by rw [column_eq ho.holds, hc]
    refine ⟨fun c' ht => ?_, fun m' ha => ?_⟩
    · cases ht; exact ⟨m, .nil m, hcol⟩
    · cases ha; exact ⟨c, .nil c, hcol⟩
  | v :: vs, m, c, ho, hc => by
    obtain ⟨h₁, h₂⟩ := only_push ho hc v
    refine ⟨fun c' ht => ?_, fun m' ha => ?_⟩
    · cases ht with
      | cons hp ht =>
        obtain ⟨m₁, e, ho₁, hc₁⟩ := h₁ _ hp
        obtain ⟨m', ha, hm⟩ := (only_appends vs ho₁ hc₁).1 c' ht
        exact ⟨m', .cons e ha, hm⟩
    · cases ha with
      | cons e ha =>
        obtain ⟨c₁, hp⟩ := h₂ _ e
        obtain ⟨m₁, e', ho₁, hc₁⟩ := h₁ c₁ hp
        rw [e] at e'; cases e'
        obtain ⟨c', ht, hm⟩ := (only_appends vs ho₁ hc₁).2 m' ha
        exact ⟨c', .cons hp ht, hm⟩

theorem new_only {m : Mem} (hv : m.Valid) (c : Col) : Only (m.newColumn c) m.holders.length ((m.alloc c).nodes.length - 1) :=
  ⟨new_valid hv c, new_holds hv c, (new_owned hv c).1, (new_owned hv c).2⟩

theorem new_view {m : Mem} (hv : m.Valid) (c : Col) : (m.newColumn c).view ((m.alloc c).nodes.length - 1) = some c := by
  have := new_column hv c; rwa [column_eq (new_holds hv c)] at this

theorem unhold_count {x : Nat} : ∀ (hs : List (Option Nat)) (k : Nat), hs[k]? = some (some x) →
    ∀ y, (hs.map Option.toList).flatten.count y = ((hs.set k none).map Option.toList).flatten.count y + if x = y then 1 else 0
  | [], k, h, y => by simp at h
  | a :: hs, 0, h, y => by
    simp at h; subst h
    rw [List.set_cons_zero, List.map_cons, List.map_cons, List.flatten_cons, List.flatten_cons, List.count_append, List.count_append]
    simp only [Option.toList, List.count_cons, List.count_nil, beq_iff_eq]
    omega
  | a :: hs, k + 1, h, y => by
    rw [List.set_cons_succ, List.map_cons, List.map_cons, List.flatten_cons, List.flatten_cons, List.count_append, List.count_append,
      unhold_count hs k (by simpa using h) y]
    omega

theorem unhold_refs {m : Mem} {k x : Nat} (h : m.holds k x) (y : Nat) :
    m.refs.count y = (Mem.refs { m with holders := m.holders.set k none }).count y + if x = y then 1 else 0 := by
  unfold Mem.refs
  rw [List.flatten_append, List.flatten_append, List.count_append, List.count_append, unhold_count m.holders k h y]
  simp only
  omega

/-- Dropping the second of two references leaves the first one alone. -/
theorem only_drop {m : Mem} (hv : m.Valid) {h k id : Nat} (hk : k ≠ h) (hh : m.holds h id) (hh' : m.holds k id)
    (h2 : m.refs.count id = 2) (ho : m.Owned id) : Only (m.dropColumn k) h id := by
  have hf := drop_freed hv k
  have hheld : Mem.holds { m with holders := m.holders.set k none } h id := by
    show (m.holders.set k none)[h]? = _
    rw [List.getElem?_set_ne hk]; exact hh
  have hheld' : (m.dropColumn k).holds h id := by rw [Mem.holds, hf.holders]; exact hheld
  have pos : ∀ x, x ∈ (m.dropColumn k).refs → (m.dropColumn k).refs.count x ≥ 1 := fun x hx => List.count_pos_iff.2 hx
  refine ⟨hf.valid, hheld', ?_, fun x hx hne => ?_⟩
  · have := pos id (ref_of_holder hheld')
    have := hf.count id
    have := unhold_refs hh' id
    rw [if_pos rfl] at this
    unfold Mem.sole; omega
  · have hx' : m.Reaches id x := by
      refine free_reaches (m := m.dropColumn k) (fun y hy => ?_) hx
      induction hy with
      | refl => exact (hf.nodes h id hheld id .refl).symm
      | @step p y hp hy ih =>
        have hmr : ∀ z, (m.dropColumn k).Reaches id z → Mem.Reaches { m with holders := m.holders.set k none } id z := by
          intro z hz
          induction hz with
          | refl => exact .refl
          | @step p z hp hz ih =>
            refine .step ih ?_
            have := hf.nodes h id hheld p ih
            unfold Mem.kidsAt at hz ⊢
            rw [← this]; exact hz
        exact (hf.nodes h id hheld y (hmr y (.step hp hy))).symm
    have hx2 : x ∈ (m.dropColumn k).refs := by
      cases hx with
      | refl => exact absurd rfl hne
      | step _ hz => exact ref_of_kid hz
    have := pos x hx2
    have := hf.count x
    have := unhold_refs hh' x
    have hs : m.refs.count x = 1 := ho x hx' hne
    unfold Mem.sole; omega

theorem clone_only {m : Mem} {h id : Nat} (ho : Only m h id) :
    (m.cloneColumn h).Valid ∧ (m.cloneColumn h).holds h id ∧ (m.cloneColumn h).holds m.holders.length id ∧
      (m.cloneColumn h).refs.count id = 2 ∧ (m.cloneColumn h).Owned id := by
  have e := clone_eq ho.holds
  refine ⟨clone_valid ho.valid h, ?_, ?_, ?_, ?_⟩
  · rw [e]; show (m.holders ++ [some id])[h]? = _
    rw [List.getElem?_append_left (holds_lt ho.holds)]; exact ho.holds
  · rw [e]; show (m.holders ++ [some id])[m.holders.length]? = _
    simp
  · rw [e, hold_count, if_pos rfl, show m.refs.count id = 1 from ho.sole]
  · intro x hx hne
    rw [e] at hx ⊢
    unfold Mem.sole
    rw [hold_count, if_neg (Ne.symm hne)]
    refine ho.owned x ?_ hne
    clear hne
    induction hx with
    | refl => exact .refl
    | step _ hy ih => exact .step ih hy

theorem column_holds {m : Mem} {h : Nat} {c : Col} (hc : m.column h = some c) : ∃ id, m.holds h id ∧ m.view id = some c :=
  column_inv hc

theorem new_count (m : Mem) (hv : m.Valid) (c : Col) : (m.newColumn c).holders.length = m.holders.length + 1 := by
  show ((m.alloc c).holders ++ [some _]).length = _
  rw [(alloc_spec c m hv).holders]; simp

/-- After `clone_instance` on data that somebody else holds too, the columns inside are shared. -/
theorem cloned_shared {m : Mem} (hv : m.Valid) {h id i : Nat} {n : Node} (hn : m.nodes[id]? = some (some n)) (hi : i ∈ n.children) :
    ¬ Mem.sole { nodes := m.nodes ++ [some n.cloneInstance], holders := m.holders.set h (some m.nodes.length) } i := by
  intro hs
  have hid := live_lt ⟨n, hn⟩
  have h₁ : i ∈ Mem.kidsAt { nodes := m.nodes ++ [some n.cloneInstance], holders := m.holders.set h (some m.nodes.length) } id := by
    rw [kidsAt_of (n := n) (by simp only [List.getElem?_append_left hid]; exact hn)]; exact hi
  have h₂ : i ∈ Mem.kidsAt { nodes := m.nodes ++ [some n.cloneInstance], holders := m.holders.set h (some m.nodes.length) } m.nodes.length := by
    rw [kidsAt_of (n := n.cloneInstance) (by simp), clone_children]; exact hi
  have := kid_kid hs h₁ h₂
  omega

/-- `Column::push` on data that somebody else holds too. -/
theorem shared_push {m : Mem} {h k id : Nat} {n : Node} (hne : h ≠ k) (hh : m.holds h id) (hk : m.holds k id)
    (hn : m.nodes[id]? = some (some n)) (v : Value) :
    m.pushColumn h v = n.cloneInstance.pushWith
      { nodes := m.nodes ++ [some n.cloneInstance], holders := m.holders.set h (some m.nodes.length) } m.nodes.length
      (fun i m' v => if h : i < m.nodes.length then Mem.pushNode i m' v else .panic) v := by
  unfold Mem.pushColumn
  rw [show m.holders[h]? = some (some id) from hh]
  simp only
  rw [if_neg (fun hs => hne (holder_holder hs hh hk)), hn]
  simp only
  rw [Mem.pushNode]
  simp only [List.getElem?_concat_length]

theorem nested_shared {m : Mem} (hv : m.Valid) {h k id : Nat} {c : Col} (hne : h ≠ k) (hh : m.holds h id) (hk : m.holds k id)
    (hview : m.view id = some c) (hin : insides c ≠ []) (hlc : ¬ IsLowCard c) (v : Value) : m.pushColumn h v = .panic := by
  obtain ⟨n, hn⟩ := hv.held h id hh
  have hcl := fun i hi => cloned_shared hv (h := h) (i := i) hn hi
  rw [shared_push hne hh hk hn]
  generalize ({ nodes := m.nodes ++ [some n.cloneInstance], holders := m.holders.set h (some m.nodes.length) } : Mem) = M at hcl ⊢
  have hx := hview
  rw [view_eq hn] at hx
  cases n with
  | leaf q =>
    simp [Node.toCol] at hx; subst hx
    have := hv.plain id _ hn
    simp only [Node.plain] at this
    cases q <;> first | exact absurd rfl hin | cases this
  | nullable nulls i =>
    simp only [Node.cloneInstance, Node.pushWith]
    rw [if_neg (hcl i (by simp [Node.children]))]
  | array offs i =>
    simp only [Node.cloneInstance]
    cases v <;> simp only [Node.pushWith]
    rw [if_neg (hcl i (by simp [Node.children]))]
  | map offs i j =>
    simp only [Node.cloneInstance]
    cases v <;> simp only [Node.pushWith]
    rw [if_neg (fun hs => hcl i (by simp [Node.children]) hs.1)]
  | simpleAgg g i =>
    simp only [Node.cloneInstance, Node.pushWith]
    rw [if_neg (hcl i (by simp [Node.children]))]
  | lowCard ity index i vm =>
    simp only [Node.toCol] at hx
    obtain ⟨d, _, rfl⟩ := Option.map_eq_some_iff.1 hx
    exact absurd trivial hlc

theorem mapOut_zip {α β : Type} {f : α → Out β} : ∀ {xs : List α} {ys : List β}, mapOut f xs = .ok ys →
    (∀ y ∈ ys, ∃ x ∈ xs, f x = .ok y) ∧ (∀ x ∈ xs, ∃ y ∈ ys, f x = .ok y)
  | [], ys, h => by rw [mapOut] at h; cases h; exact ⟨fun y hy => absurd hy (by simp), fun x hx => absurd hx (by simp)⟩
  | a :: xs, ys, h => by
    rw [mapOut] at h
    obtain ⟨b, hb, h₁⟩ := obind_eq_ok h
    obtain ⟨bs, hbs, h₂⟩ := obind_eq_ok h₁
    cases h₂
    obtain ⟨i₁, i₂⟩ := mapOut_zip hbs
    refine ⟨fun y hy => ?_, fun x hx => ?_⟩
    · rcases List.mem_cons.1 hy with rfl | hy
      · exact ⟨a, by simp, hb⟩
      · obtain ⟨x, hx, e⟩ := i₁ y hy; exact ⟨x, by simp [hx], e⟩
    · rcases List.mem_cons.1 hx with rfl | hx
      · exact ⟨b, by simp, hb⟩
      · obtain ⟨y, hy, e⟩ := i₂ x hx; exact ⟨y, by simp [hy], e⟩

theorem vmapCollect_mem {ps : List (Value × Nat)} : ∀ {m vm : List (Value × Nat)}, vmapCollect m ps = .ok vm →
    ∀ q, q ∈ vm ↔ q ∈ m ∨ q ∈ ps := by
  induction ps with
  | nil => intro m vm h q; rw [vmapCollect] at h; cases h; simp
  | cons p ps ih =>
    obtain ⟨v, i⟩ := p
    intro m vm h q
    rw [vmapCollect] at h
    split at h
    · rw [ih h q]; simp only [List.mem_cons]
      constructor
      · rintro ((h | h) | h)
        · exact .inr (.inl h)
        · exact .inl h
        · exact .inr (.inr h)
      · rintro (h | h | h)
        · exact .inl (.inr h)
        · exact .inl (.inl h)
        · exact .inr h
    · cases h

/-- The lookup table has the values of the rows. -/
theorem table_mem {index : List Nat} {d : Col} {vm : List (Value × Nat)} (h : lcValueMap index d = .ok vm) (q : Value × Nat) :
    q ∈ vm ↔ q.2 ∈ index ∧ d.at q.2 = .ok q.1 := by
  unfold lcValueMap at h
  obtain ⟨ps, hps, h₁⟩ := obind_eq_ok h
  rw [vmapCollect_mem h₁ q]
  obtain ⟨i₁, i₂⟩ := mapOut_zip hps
  constructor
  · rintro (hq | hq)
    · cases hq
    · obtain ⟨j, hj, e⟩ := i₁ q hq
      obtain ⟨v, hv, e'⟩ := obind_eq_ok e
      cases e'
      exact ⟨hj, hv⟩
  · rintro ⟨hj, hv⟩
    obtain ⟨y, hy, e⟩ := i₂ _ hj
    rw [hv, obind_ok] at e
    cases e
    exact .inr hy

/-! ### C67 -/

/-- Appending to one column changes no other one, whatever copies were made before. -/
theorem C67_others {m m' : Mem} (hm : m.Reach) {h k : Nat} {v : Value} (he : m.pushColumn h v = .ok m') (hk : k ≠ h) :
    m'.column k = m.column k := by
  obtain ⟨_, _, _, _, _, _, _, _, ho, _⟩ := pushColumn_ok (reach_valid hm) he
  exact ho k hk

/-- Appending, when it succeeds, keeps the rows of the column and adds one row, whatever copies were made before. -/
theorem C67_rows {m m' : Mem} (hm : m.Reach) {h n : Nat} {v : Value} {c : Col} (hc : m.column h = some c) (hs : Sound c n)
    (hg : Genuine v) (he : m.pushColumn h v = .ok m') :
    ∃ c', m'.column h = some c' ∧ c'.len = .ok (n + 1) ∧ (∀ i, i < n → c'.at i = c.at i) ∧ c'.at n = readBack c v := by
  obtain ⟨id, c₀, c', hh, hv, hp, _, hcol, _⟩ := pushColumn_ok (reach_valid hm) he
  have : c₀ = c := by rw [column_eq hh, hv] at hc; simpa using hc
  subst this
  refine ⟨c', hcol, ?_⟩
  by_cases hsole : m.sole id
  · rw [if_pos hsole] at hp
    have w := push_spec hs hg hp
    exact ⟨w.sound.len, w.old, w.new⟩
  · rw [if_neg hsole] at hp
    have w := push_spec (forget_sound hs) hg hp
    exact ⟨w.sound.len, fun i hi => by rw [w.old i hi, forget_at], by rw [w.new, forget_readBack]⟩

/-- A column without a column inside takes a value whatever copies of it exist, exactly when it would without them, and
with the same result. -/
theorem C67_flat {m : Mem} (hm : m.Reach) {h : Nat} {v : Value} {c : Col} (hc : m.column h = some c) (hf : insides c = []) :
    (∀ c', c.push v = .ok c' → ∃ m', m.pushColumn h v = .ok m' ∧ m'.column h = some c') ∧
    (∀ m', m.pushColumn h v = .ok m' → ∃ c', c.push v = .ok c' ∧ m'.column h = some c') := by
  have hv := reach_valid hm
  have hfor : c.forget = c := by cases c <;> first | rfl | cases hf
  have hback : ∀ m', m.pushColumn h v = .ok m' → ∃ c', c.push v = .ok c' ∧ m'.column h = some c' := fun m' he => by
    obtain ⟨id, c₀, c', hh, hv', hp, _, hcol, _⟩ := pushColumn_ok hv he
    have : c₀ = c := by rw [column_eq hh, hv'] at hc; simpa using hc
    subst this
    rw [hfor] at hp
    exact ⟨c', by simpa using hp, hcol⟩
  refine ⟨fun c' hp => ?_, hback⟩
  obtain ⟨id, hh, hview⟩ := column_inv hc
  obtain ⟨n, hn⟩ := hv.held h id hh
  -- the allocation is a leaf
  have hleaf : n = .leaf c := by
    have hx := hview
    rw [view_eq hn] at hx
    cases n with
    | leaf q => simpa [Node.toCol] using hx
    | nullable nulls i =>
      simp only [Node.toCol] at hx
      obtain ⟨d, _, rfl⟩ := Option.map_eq_some_iff.1 hx; cases hf
    | array offs i =>
      simp only [Node.toCol] at hx
      obtain ⟨d, _, rfl⟩ := Option.map_eq_some_iff.1 hx; cases hf
    | map offs i j =>
      simp only [Node.toCol] at hx
      obtain ⟨d, _, hx⟩ := Option.bind_eq_some_iff.1 hx
      obtain ⟨d', _, rfl⟩ := Option.map_eq_some_iff.1 hx; cases hf
    | simpleAgg g i =>
      simp only [Node.toCol] at hx
      obtain ⟨d, _, rfl⟩ := Option.map_eq_some_iff.1 hx; cases hf
    | lowCard ity index i vm =>
      simp only [Node.toCol] at hx
      obtain ⟨d, _, rfl⟩ := Option.map_eq_some_iff.1 hx; cases hf
  subst hleaf
  have hok : ∃ m', m.pushColumn h v = .ok m' := by
    unfold Mem.pushColumn
    rw [show m.holders[h]? = some (some id) from hh]
    simp only
    by_cases hs : m.sole id
    · rw [if_pos hs, Mem.pushNode, hn]
      exact ⟨m.put id (.leaf c'), by simp only [Node.pushWith, hp]; rfl⟩
    · rw [if_neg hs, hn]
      simp only
      rw [Mem.pushNode]
      simp only [Node.cloneInstance, List.getElem?_concat_length, Node.pushWith, hp]
      exact ⟨_, rfl⟩
  obtain ⟨m', he⟩ := hok
  obtain ⟨c'', hp', hcol⟩ := hback m' he
  rw [hp] at hp'; cases hp'
  exact ⟨m', he, hcol⟩

/-- A new column takes any values exactly when the column alone would, and with the same result (the other columns that
exist do not matter). -/
theorem C67_new {m : Mem} (hm : m.Reach) (c : Col) (vs : List Value) :
    (∀ c', Takes c vs c' → ∃ m', Appends m.holders.length (m.newColumn c) vs m' ∧ m'.column m.holders.length = some c') ∧
    (∀ m', Appends m.holders.length (m.newColumn c) vs m' → ∃ c', Takes c vs c' ∧ m'.column m.holders.length = some c') :=
  only_appends vs (new_only (reach_valid hm) c) (new_view (reach_valid hm) c)

/-- Making a copy changes no column, and the copy has the same contents. -/
theorem C67_copy {m : Mem} (hm : m.Reach) {h : Nat} {c : Col} (hc : m.column h = some c) :
    (∀ k, k < m.holders.length → (m.cloneColumn h).column k = m.column k) ∧ (m.cloneColumn h).column m.holders.length = some c := by
  obtain ⟨id, hh, hv⟩ := column_inv hc
  rw [clone_eq hh]
  refine ⟨fun k hk => column_congr k ?_ fun x _ => view_holders _ _ _, ?_⟩
  · show (m.holders ++ [some id])[k]? = _
    rw [List.getElem?_append_left hk]
  · rw [column_eq (m := { m with holders := m.holders ++ [some id] }) (id := id) (by show (m.holders ++ [some id])[m.holders.length]? = _; simp),
      view_holders, hv]

/-- Dropping a column changes no other one. -/
theorem C67_drop {m : Mem} (hm : m.Reach) {h k : Nat} (hk : k ≠ h) : (m.dropColumn h).column k = m.column k :=
  drop_column (reach_valid hm) hk

/-- When a column has been copied and either of the two is dropped, the other one takes values as if there had been no copy. -/
theorem C67_copy_dropped {m : Mem} (hm : m.Reach) (c : Col) (vs : List Value) :
    (∀ c', Takes c vs c' → (∃ m', Appends m.holders.length (((m.newColumn c).cloneColumn m.holders.length).dropColumn (m.holders.length + 1)) vs m' ∧
        m'.column m.holders.length = some c') ∧
      (∃ m', Appends (m.holders.length + 1) (((m.newColumn c).cloneColumn m.holders.length).dropColumn m.holders.length) vs m' ∧
        m'.column (m.holders.length + 1) = some c')) := by
  have hv := reach_valid hm
  have ho := new_only hv c
  obtain ⟨h₁, h₂, h₃, h₄, h₅⟩ := clone_only ho
  rw [new_count m hv c] at h₃
  have hview : ((m.newColumn c).cloneColumn m.holders.length).view ((m.alloc c).nodes.length - 1) = some c := by
    rw [clone_eq ho.holds, view_holders]; exact new_view hv c
  have view₁ : (((m.newColumn c).cloneColumn m.holders.length).dropColumn (m.holders.length + 1)).view ((m.alloc c).nodes.length - 1) = some c := by
    have := drop_column h₁ (h := m.holders.length + 1) (k := m.holders.length) (by omega)
    rwa [column_eq h₂, hview, column_eq (only_drop h₁ (by omega) h₂ h₃ h₄ h₅).holds] at this
  have view₂ : (((m.newColumn c).cloneColumn m.holders.length).dropColumn m.holders.length).view ((m.alloc c).nodes.length - 1) = some c := by
    have := drop_column h₁ (h := m.holders.length) (k := m.holders.length + 1) (by omega)
    rwa [column_eq h₃, hview, column_eq (only_drop h₁ (by omega) h₃ h₂ h₄ h₅).holds] at this
  intro c' ht
  exact ⟨(only_appends vs (only_drop h₁ (by omega) h₂ h₃ h₄ h₅) view₁).1 c' ht,
    (only_appends vs (only_drop h₁ (by omega) h₃ h₂ h₄ h₅) view₂).1 c' ht⟩

/-- A low-cardinality column takes a value it already has, whatever copies of it exist. -/
theorem C67_low_cardinality_known {m : Mem} (hm : m.Reach) {h : Nat} {v : Value} {ity : IdxTy} {index : List Nat} {d c' : Col}
    (hc : m.column h = some (.lowCard ity index d none)) (hrow : ∃ i x, (Col.lowCard ity index d none).at i = .ok x ∧ Value.valKeyEq x v = true)
    (hp : (Col.lowCard ity index d none).push v = .ok c') : ∃ m', m.pushColumn h v = .ok m' ∧ m'.column h = some c' := by
  have hv := reach_valid hm
  obtain ⟨id, hh, hview⟩ := column_inv hc
  obtain ⟨n, hn⟩ := hv.held h id hh
  have hx := hview
  rw [view_eq hn] at hx
  have hok : ∃ m', m.pushColumn h v = .ok m' := by
    have hp' : pushT (.lowCard d.sqlType) (.lowCard ity index d none) v = .ok c' := hp
    rw [pushT_lowCard] at hp'
    obtain ⟨vm, hvm, h₁⟩ := obind_eq_ok hp'
    obtain ⟨o, ho, h₂⟩ := obind_eq_ok h₁
    have hsome : ∃ j, o = some j := by
      obtain ⟨r, x, hat, hkey⟩ := hrow
      unfold vmapGet at ho
      split at ho
      · cases ho
        rw [Col.at] at hat
        obtain ⟨j, hj, hat'⟩ := obind_eq_ok hat
        have hjm : j ∈ index := by
          unfold idx at hj
          cases hg : index[r]? with
          | none => rw [hg] at hj; cases hj
          | some j' => rw [hg] at hj; cases hj; exact List.mem_of_getElem? hg
        have hmem : (x, j) ∈ vm := (table_mem hvm (x, j)).2 ⟨hjm, hat'⟩
        have : ((vm.find? fun p => Value.valKeyEq p.1 v).map (·.2)).isSome = true := by
          rw [Option.isSome_map, List.find?_isSome]
          exact ⟨(x, j), hmem, hkey⟩
        exact Option.isSome_iff_exists.1 this
      · cases ho
    obtain ⟨j, rfl⟩ := hsome
    obtain ⟨⟨ity', index'⟩, hix, h₃⟩ := obind_eq_ok h₂
    have key : ∀ (m₁ : Mem) (id₁ i : Nat) (inner : Nat → Mem → Value → Out Mem), m₁.view i = some d →
        ∃ m', (Node.lowCard ity index i none).pushWith m₁ id₁ inner v = .ok m' := by
      intro m₁ id₁ i inner hd
      simp only [Node.pushWith, hd]
      rw [hvm, obind_ok, ho, obind_ok]
      exact ⟨m₁.put id₁ (.lowCard ity' index' i (some vm)), by simp only [hix]; rfl⟩
    unfold Mem.pushColumn
    rw [show m.holders[h]? = some (some id) from hh]
    simp only
    cases n with
    | leaf q =>
      simp [Node.toCol] at hx; subst hx
      have := hv.plain id _ hn
      cases this
    | nullable nulls i =>
      simp only [Node.toCol] at hx
      obtain ⟨_, _, e⟩ := Option.map_eq_some_iff.1 hx; cases e
    | array offs i =>
      simp only [Node.toCol] at hx
      obtain ⟨_, _, e⟩ := Option.map_eq_some_iff.1 hx; cases e
    | map offs i j =>
      simp only [Node.toCol] at hx
      obtain ⟨_, _, hx⟩ := Option.bind_eq_some_iff.1 hx
      obtain ⟨_, _, e⟩ := Option.map_eq_some_iff.1 hx; cases e
    | simpleAgg g i =>
      simp only [Node.toCol] at hx
      obtain ⟨_, _, e⟩ := Option.map_eq_some_iff.1 hx; cases e
    | lowCard ity₂ index₂ i vm₂ =>
      simp only [Node.toCol] at hx
      obtain ⟨d', hd', e⟩ := Option.map_eq_some_iff.1 hx
      cases e
      have hlt := (hv.kid id i (by rw [kidsAt_of hn]; simp [Node.children])).1
      rw [if_pos hlt] at hd'
      by_cases hs : m.sole id
      · rw [if_pos hs, Mem.pushNode, hn]
        exact key m id i _ hd'
      · rw [if_neg hs, hn]
        simp only
        rw [Mem.pushNode]
        simp only [List.getElem?_concat_length, Node.cloneInstance]
        refine key _ _ i _ ?_
        have := live_lt ⟨_, hn⟩
        rw [snoc_view hv _ (by omega)]
        exact hd'
  obtain ⟨m', he⟩ := hok
  obtain ⟨id', c₀, c'', hh', hv', hp', _, hcol, _⟩ := pushColumn_ok hv he
  have : c₀ = .lowCard ity index d none := by rw [column_eq hh', hv'] at hc; simpa using hc
  subst this
  refine ⟨m', he, ?_⟩
  have : (Col.lowCard ity index d none).push v = .ok c'' := by simpa [Col.forget] using hp'
  rw [hp] at this; cases this
  exact hcol

/-- The property fails for nullable columns, arrays, maps and aggregate-function columns: once such a column has been
copied, appending any value to the original or to the copy panics, also values the column alone would take. -/
theorem C67_copy_violated {m : Mem} (hm : m.Reach) {h : Nat} {c : Col} (hc : m.column h = some c) (hin : insides c ≠ [])
    (hlc : ¬ IsLowCard c) (v : Value) :
    (m.cloneColumn h).pushColumn h v = .panic ∧ (m.cloneColumn h).pushColumn m.holders.length v = .panic := by
  have hv := reach_valid hm
  obtain ⟨id, hh, hview⟩ := column_inv hc
  have hlt := holds_lt hh
  have e := clone_eq hh
  have h₁ : (m.cloneColumn h).holds h id := by
    rw [e]; show (m.holders ++ [some id])[h]? = _
    rw [List.getElem?_append_left hlt]; exact hh
  have h₂ : (m.cloneColumn h).holds m.holders.length id := by
    rw [e]; show (m.holders ++ [some id])[m.holders.length]? = _
    simp
  have h₃ : (m.cloneColumn h).view id = some c := by rw [e, view_holders, hview]
  have hv' := clone_valid hv h
  exact ⟨nested_shared hv' (by omega) h₁ h₂ h₃ hin hlc v, nested_shared hv' (by omega) h₂ h₁ h₃ hin hlc v⟩

/-- It fails for low-cardinality columns too: once copied, such a column takes no value it does not have yet. -/
theorem C67_low_cardinality_violated {m m' : Mem} (hm : m.Reach) {h k : Nat} {v : Value} {ity : IdxTy} {index : List Nat} {d : Col}
    {vm : Option (List (Value × Nat))} (hc : m.column h = some (.lowCard ity index d vm))
    (hnew : ∀ i x, (Col.lowCard ity index d vm).at i = .ok x → Value.valKeyEq x v = false) (hk : k = h ∨ k = m.holders.length) :
    (m.cloneColumn h).pushColumn k v ≠ .ok m' := by
  have hv := reach_valid hm
  obtain ⟨id, hh, hview⟩ := column_inv hc
  have hlt := holds_lt hh
  have e := clone_eq hh
  have h₁ : (m.cloneColumn h).holds h id := by
    rw [e]; show (m.holders ++ [some id])[h]? = _
    rw [List.getElem?_append_left hlt]; exact hh
  have h₂ : (m.cloneColumn h).holds m.holders.length id := by
    rw [e]; show (m.holders ++ [some id])[m.holders.length]? = _
    simp
  have hv' := clone_valid hv h
  have hview' : (m.cloneColumn h).view id = some (.lowCard ity index d vm) := by rw [e, view_holders, hview]
  obtain ⟨n, hn⟩ := hv'.held h id h₁
  have hx := hview'
  rw [view_eq hn] at hx
  have key : ∀ j, j ∈ index → ∀ x, d.at j = .ok x → Value.valKeyEq x v = false := fun j hj x hat => by
    obtain ⟨r, hr, hr'⟩ := List.getElem_of_mem hj
    refine hnew r x ?_
    rw [Col.at]
    simp only [idx, List.getElem?_eq_getElem hr, hr']
    exact hat
  have main : ∀ p q, p ≠ q → (m.cloneColumn h).holds p id → (m.cloneColumn h).holds q id → (m.cloneColumn h).pushColumn p v ≠ .ok m' := by
    intro p q hpq hp hq he
    rw [shared_push hpq hp hq hn] at he
    have hcl := fun i hi => cloned_shared hv' (h := p) (i := i) hn hi
    have hvw : ∀ x, x < (m.cloneColumn h).nodes.length → Mem.view ⟨(m.cloneColumn h).nodes ++ [some n.cloneInstance],
        (m.cloneColumn h).holders.set p (some (m.cloneColumn h).nodes.length)⟩ x = (m.cloneColumn h).view x :=
      fun x hx => snoc_view hv' _ hx
    generalize (⟨(m.cloneColumn h).nodes ++ [some n.cloneInstance],
      (m.cloneColumn h).holders.set p (some (m.cloneColumn h).nodes.length)⟩ : Mem) = M at hcl hvw he
    cases n with
    | leaf q =>
      simp [Node.toCol] at hx; subst hx
      have := hv'.plain id _ hn
      cases this
    | nullable nulls i =>
      simp only [Node.toCol] at hx
      obtain ⟨_, _, e⟩ := Option.map_eq_some_iff.1 hx; cases e
    | array offs i =>
      simp only [Node.toCol] at hx
      obtain ⟨_, _, e⟩ := Option.map_eq_some_iff.1 hx; cases e
    | map offs i j =>
      simp only [Node.toCol] at hx
      obtain ⟨_, _, hx⟩ := Option.bind_eq_some_iff.1 hx
      obtain ⟨_, _, e⟩ := Option.map_eq_some_iff.1 hx; cases e
    | simpleAgg g i =>
      simp only [Node.toCol] at hx
      obtain ⟨_, _, e⟩ := Option.map_eq_some_iff.1 hx; cases e
    | lowCard ity₂ index₂ i vm₂ =>
      simp only [Node.toCol] at hx
      obtain ⟨d', hd', e⟩ := Option.map_eq_some_iff.1 hx
      cases e
      have hlt := (hv'.kid id i (by rw [kidsAt_of hn]; simp [Node.children])).1
      rw [if_pos hlt] at hd'
      have := live_lt ⟨_, hn⟩
      simp only [Node.cloneInstance, Node.pushWith] at he
      rw [hvw i (by omega), hd'] at he
      simp only at he
      obtain ⟨tb, htb, h₁⟩ := obind_eq_ok he
      obtain ⟨o, ho, h₂⟩ := obind_eq_ok h₁
      have hnone : o = none := by
        unfold vmapGet at ho
        split at ho
        · cases ho
          rw [Option.map_eq_none_iff, List.find?_eq_none]
          intro p hp
          obtain ⟨p₁, p₂⟩ := (table_mem htb p).1 hp
          rw [key p.2 p₁ p.1 p₂]; simp
        · cases ho
      subst hnone
      obtain ⟨j, hj, h₃⟩ := obind_eq_ok h₂
      rw [if_neg (hcl i (by simp [Node.children]))] at h₃
      cases h₃
  rcases hk with rfl | rfl
  · exact main k m.holders.length (by omega) h₁ h₂
  · exact main m.holders.length h (by omega) h₂ h₁

/-! ### Concrete cases -/

/-- A memory with one new column. -/
abbrev exMem (c : Col) : Mem := (⟨[], []⟩ : Mem).newColumn c

theorem exMem_reach (c : Col) : (exMem c).Reach := .new c .empty

theorem exMem_column (c : Col) : (exMem c).column 0 = some c := new_column (reach_valid .empty) c

theorem exMem_length (c : Col) : (exMem c).holders.length = 1 := new_count ⟨[], []⟩ (reach_valid .empty) c

/-- A copied column of numbers: a value appended to the copy does not show in the original (`C67_flat`, `C67_others`, `C67_copy`). -/
example : ∃ m', ((exMem (.num .u8 [1, 2])).cloneColumn 0).pushColumn 1 (.num .u8 3) = .ok m' ∧
    m'.column 1 = some (.num .u8 [1, 2, 3]) ∧ m'.column 0 = some (.num .u8 [1, 2]) := by
  have hr : ((exMem (.num .u8 [1, 2])).cloneColumn 0).Reach := .clone 0 (exMem_reach _)
  obtain ⟨h₁, h₂⟩ := C67_copy (exMem_reach (.num .u8 [1, 2])) (exMem_column _)
  rw [exMem_length] at h₁ h₂
  obtain ⟨m', e, hc⟩ := (C67_flat hr (v := .num .u8 3) h₂ rfl).1 (.num .u8 [1, 2, 3]) rfl
  exact ⟨m', e, hc, by rw [C67_others hr e (by decide), h₁ 0 (by decide), exMem_column]⟩

/-- A copied column of numbers gets its new row (`C67_rows`). -/
example : ∃ m' c', ((exMem (.num .u8 [1, 2])).cloneColumn 0).pushColumn 1 (.num .u8 3) = .ok m' ∧ m'.column 1 = some c' ∧
    c'.len = .ok 3 ∧ c'.at 0 = .ok (.num .u8 1) ∧ c'.at 2 = .ok (.num .u8 3) := by
  have hr : ((exMem (.num .u8 [1, 2])).cloneColumn 0).Reach := .clone 0 (exMem_reach _)
  obtain ⟨h₁, h₂⟩ := C67_copy (exMem_reach (.num .u8 [1, 2])) (exMem_column _)
  rw [exMem_length] at h₂
  obtain ⟨m', e, _⟩ := (C67_flat hr (v := .num .u8 3) h₂ rfl).1 (.num .u8 [1, 2, 3]) rfl
  obtain ⟨c', hc, hl, ho, hn⟩ := C67_rows hr h₂ (n := 2) ⟨rfl, by decide⟩ (by simp [Genuine, NumTy.width]) e
  exact ⟨m', c', e, hc, hl, by rw [ho 0 (by decide)]; rfl, by rw [hn]; rfl⟩

/-- A new array column takes two rows (`C67_new`); so it does after a copy of it was dropped (`C67_copy_dropped`). -/
example : Takes (.array [1] (.num .u8 [5])) [.array (.num .u8) [.num .u8 7], .array (.num .u8) []] (.array [1, 2, 2] (.num .u8 [5, 7])) :=
  .cons rfl (.cons rfl (.nil _))

example : ∃ m', Appends 0 (exMem (.array [1] (.num .u8 [5]))) [.array (.num .u8) [.num .u8 7], .array (.num .u8) []] m' ∧
    m'.column 0 = some (.array [1, 2, 2] (.num .u8 [5, 7])) :=
  (C67_new .empty (.array [1] (.num .u8 [5])) _).1 _ (.cons rfl (.cons rfl (.nil _)))

example : ∃ m', Appends 1 (((exMem (.array [1] (.num .u8 [5]))).cloneColumn 0).dropColumn 0) [.array (.num .u8) [.num .u8 7]] m' ∧
    m'.column 1 = some (.array [1, 2] (.num .u8 [5, 7])) :=
  ((C67_copy_dropped .empty (.array [1] (.num .u8 [5])) _) _ (.cons rfl (.nil _))).2

/-- Dropping the first of two columns (`C67_drop`). -/
example : (((exMem (.num .u8 [1, 2])).newColumn (.str [[97]])).dropColumn 0).column 1 = some (.str [[97]]) := by
  have hr : ((exMem (.num .u8 [1, 2])).newColumn (.str [[97]])).Reach := .new _ (exMem_reach _)
  rw [C67_drop hr (by decide)]
  have := new_column (reach_valid (exMem_reach (.num .u8 [1, 2]))) (.str [[97]])
  rwa [exMem_length] at this

/-- A copied array column: the value the column alone takes makes both the original and the copy panic (`C67_copy_violated`). -/
example : (Col.array [1] (.num .u8 [5])).push (.array (.num .u8) [.num .u8 7]) = .ok (.array [1, 2] (.num .u8 [5, 7])) ∧
    ((exMem (.array [1] (.num .u8 [5]))).cloneColumn 0).pushColumn 0 (.array (.num .u8) [.num .u8 7]) = .panic ∧
    ((exMem (.array [1] (.num .u8 [5]))).cloneColumn 0).pushColumn 1 (.array (.num .u8) [.num .u8 7]) = .panic := by
  have h := C67_copy_violated (exMem_reach (.array [1] (.num .u8 [5]))) (exMem_column _) (by simp [insides]) id
    (.array (.num .u8) [.num .u8 7])
  rw [exMem_length] at h
  exact ⟨rfl, h⟩

/-- A copied low-cardinality column of strings takes a string it has (`C67_low_cardinality_known`) and no other one
(`C67_low_cardinality_violated`), although the column alone takes both. -/
example : (∃ c', (Col.lowCard .u8 [1] (.str [[], [97]]) none).push (.str [98]) = .ok c') ∧
    (∃ m', ((exMem (.lowCard .u8 [1] (.str [[], [97]]) none)).cloneColumn 0).pushColumn 1 (.str [97]) = .ok m' ∧
      m'.column 1 = some (.lowCard .u8 [1, 1] (.str [[], [97]]) (some [(.str [97], 1)]))) ∧
    ∀ m', ((exMem (.lowCard .u8 [1] (.str [[], [97]]) none)).cloneColumn 0).pushColumn 1 (.str [98]) ≠ .ok m' := by
  refine ⟨⟨_, rfl⟩, ?_, fun m' => ?_⟩
  · have hr : ((exMem (.lowCard .u8 [1] (.str [[], [97]]) none)).cloneColumn 0).Reach := .clone 0 (exMem_reach _)
    obtain ⟨h₁, h₂⟩ := C67_copy (exMem_reach (.lowCard .u8 [1] (.str [[], [97]]) none)) (exMem_column _)
    rw [exMem_length] at h₂
    exact C67_low_cardinality_known hr h₂ ⟨0, .str [97], rfl, rfl⟩ rfl
  · refine C67_low_cardinality_violated (exMem_reach (.lowCard .u8 [1] (.str [[], [97]]) none)) (exMem_column _) (fun i x hx => ?_)
      (.inr (exMem_length _).symm)
    match i, hx with
    | 0, hx => cases hx; rfl
    | i + 1, hx => cases hx

end CH.Props
