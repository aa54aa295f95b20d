import Verif.Model.Share
import Verif.Lemmas.Push

namespace CH

/-! ### Pushing keeps the type of a column, and pushing to composite columns in terms of their inner columns -/

theorem pushAll_type {ty : SqlType} (ih : ∀ c v c', c.sqlType = ty → pushT ty c v = .ok c' → c'.sqlType = ty) :
    ∀ (vs : List Value) (c c' : Col), c.sqlType = ty → pushAllWith (pushT ty) c vs = .ok c' → c'.sqlType = ty
  | [], c, c', ht, h => by rw [pushAllWith] at h; cases h; exact ht
  | v :: vs, c, c', ht, h => by
    rw [pushAllWith] at h
    obtain ⟨c₁, h₁, h₂⟩ := obind_eq_ok h
    exact pushAll_type ih vs c₁ c' (ih c v c₁ ht h₁) h₂

theorem pushT_lowCard (ty : SqlType) (ity : IdxTy) (index : List Nat) (d : Col) (vmap : Option (List (Value × Nat))) (v : Value) :
    pushT (.lowCard ty) (.lowCard ity index d vmap) v = (do
      let vm ← lcTable vmap index d
      let o ← vmapGet vm v
      match o with
      | some j => do
        let (ity, index) ← lcIndexPush ity index j
        pure (.lowCard ity index d (some vm))
      | none => do
        let j ← d.len
        let d ← pushT ty d v
        let (ity, index) ← lcIndexPush ity index j
        pure (.lowCard ity index d (some ((v, j) :: vm)))) := by
  cases vmap <;> rfl

theorem pushT_type : ∀ (k : Nat) (t : SqlType), sizeOf t < k → ∀ (c : Col) (v : Value) (c' : Col), c.sqlType = t →
    pushT t c v = .ok c' → c'.sqlType = t := by
  intro k
  induction k with
  | zero => intro t h; omega
  | succ k ih =>
    intro t hk c v c' ht h
    cases c with
    | num ty xs => simp only [pushT] at h; obtain ⟨_, _, h'⟩ := obind_eq_ok h; cases h'; exact ht
    | str xs => simp only [pushT] at h; obtain ⟨_, _, h'⟩ := obind_eq_ok h; cases h'; exact ht
    | fixed n buf => simp only [pushT] at h; obtain ⟨_, _, h'⟩ := obind_eq_ok h; cases h'; exact ht
    | date z xs => cases v <;> simp only [pushT] at h <;> first | (cases h; exact ht) | contradiction
    | datetime z xs => simp only [pushT] at h; obtain ⟨_, _, h'⟩ := obind_eq_ok h; cases h'; exact ht
    | dt64 p z xs =>
      simp only [pushT] at h
      obtain ⟨_, _, h'⟩ := obind_eq_ok h
      obtain ⟨_, _, h''⟩ := obind_eq_ok h'
      cases h''; exact ht
    | chrono z xs => simp only [pushT] at h; obtain ⟨_, _, h'⟩ := obind_eq_ok h; cases h'; exact ht
    | ip q buf =>
      cases v <;> simp only [pushT] at h <;> try contradiction
      split at h
      · cases h; exact ht
      · contradiction
    | nullable nulls c =>
      obtain rfl : t = .nullable c.sqlType := ht.symm
      have e : sizeOf c.sqlType < k := by simp at hk; omega
      cases v <;> simp only [pushT] at h <;> (
        obtain ⟨c₁, h₁, h'⟩ := obind_eq_ok h
        cases h'
        exact congrArg SqlType.nullable (ih _ e _ _ _ rfl h₁))
    | array offs c =>
      obtain rfl : t = .array c.sqlType := ht.symm
      have e : sizeOf c.sqlType < k := by simp at hk; omega
      cases v <;> simp only [pushT] at h <;> try contradiction
      obtain ⟨c₁, h₁, h'⟩ := obind_eq_ok h
      cases h'
      exact congrArg SqlType.array (pushAll_type (ih _ e) _ _ _ rfl h₁)
    | map offs a b =>
      obtain rfl : t = .map a.sqlType b.sqlType := ht.symm
      have e : sizeOf a.sqlType < k := by simp at hk; omega
      have e' : sizeOf b.sqlType < k := by simp at hk; omega
      cases v <;> simp only [pushT] at h <;> try contradiction
      obtain ⟨c₁, h₁, h'⟩ := obind_eq_ok h
      obtain ⟨c₂, h₂, h''⟩ := obind_eq_ok h'
      cases h''
      simp only [Col.sqlType]
      rw [pushAll_type (ih _ e) _ _ _ rfl h₁, pushAll_type (ih _ e') _ _ _ rfl h₂]
    | decimal p s nb xs => cases v <;> simp only [pushT] at h <;> first | (cases h; exact ht) | contradiction
    | enum w items xs =>
      cases v <;> simp only [pushT] at h <;> try contradiction
      split at h
      · cases h; exact ht
      · contradiction
    | simpleAgg f c =>
      obtain rfl : t = .simpleAgg f c.sqlType := ht.symm
      have e : sizeOf c.sqlType < k := by simp at hk; omega
      simp only [pushT] at h
      obtain ⟨c₁, h₁, h'⟩ := obind_eq_ok h
      cases h'
      exact congrArg (SqlType.simpleAgg f) (ih _ e _ _ _ rfl h₁)
    | lowCard ity index d vmap =>
      obtain rfl : t = .lowCard d.sqlType := ht.symm
      have e : sizeOf d.sqlType < k := by simp at hk; omega
      rw [pushT_lowCard] at h
      obtain ⟨vm, _, h'⟩ := obind_eq_ok h
      obtain ⟨o, _, h''⟩ := obind_eq_ok h'
      cases o with
      | some j =>
        obtain ⟨_, _, h₃⟩ := obind_eq_ok h''
        cases h₃; rfl
      | none =>
        obtain ⟨_, _, h₃⟩ := obind_eq_ok h''
        obtain ⟨_, h₄, h₅⟩ := obind_eq_ok h₃
        obtain ⟨_, _, h₆⟩ := obind_eq_ok h₅
        cases h₆
        exact congrArg SqlType.lowCard (ih _ e _ _ _ rfl h₄)
    | _ => simp only [pushT] at h; contradiction

theorem push_type {c c' : Col} {v : Value} (h : c.push v = .ok c') : c'.sqlType = c.sqlType :=
  pushT_type _ _ (Nat.lt_succ_self _) c v c' rfl h

/-- Appending several values one after the other. -/
def Col.pushList : Col → List Value → Out Col
  | c, [] => .ok c
  | c, v :: vs => do
    let c ← c.push v
    Col.pushList c vs

theorem pushAll_eq : ∀ (vs : List Value) (c : Col), pushAllWith (pushT c.sqlType) c vs = c.pushList vs
  | [], _ => rfl
  | v :: vs, c => by
    rw [pushAllWith, Col.pushList, Col.push]
    cases h : pushT c.sqlType c v with
    | ok c₁ => rw [obind_ok, obind_ok, ← pushAll_eq vs c₁, push_type (c := c) h]
    | err e => rfl
    | panic => rfl

theorem push_nullable_null (nulls : Bytes) (c : Col) (t : SqlType) :
    (Col.nullable nulls c).push (.null t) = (do let c ← c.push (Value.default t); pure (.nullable (nulls ++ [1]) c)) := rfl

theorem push_nullable_some (nulls : Bytes) (c : Col) (x : Value) :
    (Col.nullable nulls c).push (.some x) = (do let c ← c.push x; pure (.nullable (nulls ++ [0]) c)) := rfl

theorem push_array (offs : List Nat) (c : Col) (t : SqlType) (vs : List Value) :
    (Col.array offs c).push (.array t vs) =
      (do let c ← c.pushList vs; pure (.array (offs ++ [lastOff offs + vs.length]) c)) := by
  rw [← pushAll_eq]; rfl

theorem push_map (offs : List Nat) (a b : Col) (kt vt : SqlType) (ks vs : List Value) :
    (Col.map offs a b).push (.map kt vt ks vs) =
      (do let a ← a.pushList ks; let b ← b.pushList vs; pure (.map (offs ++ [lastOff offs + ks.length]) a b)) := by
  rw [← pushAll_eq]
  simp only [← pushAll_eq]; rfl

theorem push_simpleAgg (f : AggFunc) (c : Col) (v : Value) :
    (Col.simpleAgg f c).push v = (do let c ← c.push v; pure (.simpleAgg f c)) := rfl

/-- A column without an inner `Arc`. -/
def Col.flat : Col → Bool
  | .nullable .. => false
  | .array .. => false
  | .map .. => false
  | .simpleAgg .. => false
  | .lowCard .. => false
  | _ => true

theorem push_flat {c c' : Col} {v : Value} (h : c.push v = .ok c') : c'.flat = c.flat := by
  rw [Col.push] at h
  generalize ht : c.sqlType = t at h
  cases c with
  | num ty xs => simp only [pushT] at h; obtain ⟨_, _, h'⟩ := obind_eq_ok h; cases h'; rfl
  | str xs => simp only [pushT] at h; obtain ⟨_, _, h'⟩ := obind_eq_ok h; cases h'; rfl
  | fixed n buf => simp only [pushT] at h; obtain ⟨_, _, h'⟩ := obind_eq_ok h; cases h'; rfl
  | date z xs => cases v <;> simp only [pushT] at h <;> first | (cases h; rfl) | contradiction
  | datetime z xs => simp only [pushT] at h; obtain ⟨_, _, h'⟩ := obind_eq_ok h; cases h'; rfl
  | dt64 p z xs =>
    simp only [pushT] at h
    obtain ⟨_, _, h'⟩ := obind_eq_ok h
    obtain ⟨_, _, h''⟩ := obind_eq_ok h'
    cases h''; rfl
  | chrono z xs => simp only [pushT] at h; obtain ⟨_, _, h'⟩ := obind_eq_ok h; cases h'; rfl
  | ip q buf =>
    cases v <;> simp only [pushT] at h <;> try contradiction
    split at h
    · cases h; rfl
    · contradiction
  | nullable nulls c =>
    obtain rfl : t = .nullable c.sqlType := ht.symm
    cases v <;> simp only [pushT] at h <;> (obtain ⟨c₁, h₁, h'⟩ := obind_eq_ok h; cases h'; rfl)
  | array offs c =>
    obtain rfl : t = .array c.sqlType := ht.symm
    cases v <;> simp only [pushT] at h <;> try contradiction
    obtain ⟨c₁, h₁, h'⟩ := obind_eq_ok h
    cases h'; rfl
  | map offs a b =>
    obtain rfl : t = .map a.sqlType b.sqlType := ht.symm
    cases v <;> simp only [pushT] at h <;> try contradiction
    obtain ⟨c₁, h₁, h'⟩ := obind_eq_ok h
    obtain ⟨c₂, h₂, h''⟩ := obind_eq_ok h'
    cases h''; rfl
  | decimal p s nb xs => cases v <;> simp only [pushT] at h <;> first | (cases h; rfl) | contradiction
  | enum w items xs =>
    cases v <;> simp only [pushT] at h <;> try contradiction
    split at h
    · cases h; rfl
    · contradiction
  | simpleAgg f c =>
    obtain rfl : t = .simpleAgg f c.sqlType := ht.symm
    simp only [pushT] at h
    obtain ⟨c₁, h₁, h'⟩ := obind_eq_ok h
    cases h'; rfl
  | lowCard ity index d vmap =>
    obtain rfl : t = .lowCard d.sqlType := ht.symm
    rw [pushT_lowCard] at h
    obtain ⟨vm, _, h'⟩ := obind_eq_ok h
    obtain ⟨o, _, h''⟩ := obind_eq_ok h'
    cases o with
    | some j =>
      obtain ⟨_, _, h₃⟩ := obind_eq_ok h''
      cases h₃; rfl
    | none =>
      obtain ⟨_, _, h₃⟩ := obind_eq_ok h''
      obtain ⟨_, h₄, h₅⟩ := obind_eq_ok h₃
      obtain ⟨_, _, h₆⟩ := obind_eq_ok h₅
      cases h₆; rfl
  | _ => simp only [pushT] at h; contradiction

/-- A leaf that is one: it has no inner `Arc`. -/
def Node.plain : Node → Bool
  | .leaf c => c.flat
  | _ => true

/-- What pushing does not change in an allocation. -/
def Node.sig (n : Node) : List Nat × Bool := (n.children, n.plain)

/-! ### References -/

theorem two_lists {x : Nat} : ∀ {L : List (List Nat)} {a b : Nat} {l l' : List Nat}, L[a]? = some l → x ∈ l → L[b]? = some l' →
    x ∈ l' → a ≠ b → 2 ≤ L.flatten.count x
  | [], a, b, l, l', ha, _, _, _, _ => by simp at ha
  | c :: L, a, b, l, l', ha, hx, hb, hx', hne => by
    have one : ∀ {n : Nat} {q : List Nat}, L[n]? = some q → x ∈ q → 1 ≤ L.flatten.count x := fun hn hq =>
      List.count_pos_iff.2 (List.mem_flatten.2 ⟨_, List.mem_of_getElem? hn, hq⟩)
    rw [List.flatten_cons, List.count_append]
    cases a with
    | zero =>
      cases b with
      | zero => exact absurd rfl hne
      | succ b =>
        simp at ha hb
        subst ha
        have := one hb hx'
        have := List.count_pos_iff.2 hx
        omega
    | succ a =>
      cases b with
      | zero =>
        simp at ha hb
        subst hb
        have := one ha hx
        have := List.count_pos_iff.2 hx'
        omega
      | succ b =>
        simp at ha hb
        have := two_lists ha hx hb hx' (by omega)
        omega

/-- The references held by the allocation `y`. -/
def Mem.kidsAt (m : Mem) (y : Nat) : List Nat :=
  match m.nodes[y]? with
  | some n => kids n
  | none => []

/-- The `h`-th column held refers to `x`. -/
def Mem.holds (m : Mem) (h x : Nat) : Prop := m.holders[h]? = some (some x)

/-- The allocation `x` is not freed. -/
def Mem.live (m : Mem) (x : Nat) : Prop := ∃ n, m.nodes[x]? = some (some n)

theorem slot_holder {m : Mem} {h x : Nat} (hh : m.holds h x) :
    ∃ l, (m.holders.map Option.toList ++ m.nodes.map kids)[h]? = some l ∧ x ∈ l := by
  have : h < m.holders.length := by
    rcases Nat.lt_or_ge h m.holders.length with hl | hl
    · exact hl
    · rw [Mem.holds, List.getElem?_eq_none hl] at hh; cases hh
  refine ⟨[x], ?_, by simp⟩
  rw [List.getElem?_append_left (by simpa using this), List.getElem?_map, hh]; rfl

theorem slot_kid {m : Mem} {y x : Nat} (hy : x ∈ m.kidsAt y) :
    ∃ l, (m.holders.map Option.toList ++ m.nodes.map kids)[m.holders.length + y]? = some l ∧ x ∈ l := by
  unfold Mem.kidsAt at hy
  split at hy
  · rename_i n hn
    refine ⟨kids n, ?_, hy⟩
    rw [List.getElem?_append_right (by simp)]
    simp [hn]
  · simp at hy

theorem kid_kid {m : Mem} {x y p : Nat} (hs : m.sole x) (h : x ∈ m.kidsAt y) (h' : x ∈ m.kidsAt p) : y = p := by
  obtain ⟨l, hl, hx⟩ := slot_kid h
  obtain ⟨l', hl', hx'⟩ := slot_kid h'
  rcases Nat.decEq y p with hne | he
  · have := two_lists hl hx hl' hx' (by omega)
    have : m.refs.count x = 1 := hs
    unfold Mem.refs at this
    omega
  · exact he

theorem holder_kid {m : Mem} {x y h : Nat} (hs : m.sole x) (hh : m.holds h x) (h' : x ∈ m.kidsAt y) : False := by
  obtain ⟨l, hl, hx⟩ := slot_holder hh
  obtain ⟨l', hl', hx'⟩ := slot_kid h'
  have hlt : h < m.holders.length := by
    rcases Nat.lt_or_ge h m.holders.length with hl | hl
    · exact hl
    · rw [Mem.holds, List.getElem?_eq_none hl] at hh; cases hh
  have := two_lists hl hx hl' hx' (by omega)
  have : m.refs.count x = 1 := hs
  unfold Mem.refs at this
  omega

theorem holder_holder {m : Mem} {x h h' : Nat} (hs : m.sole x) (hh : m.holds h x) (hh' : m.holds h' x) : h = h' := by
  obtain ⟨l, hl, hx⟩ := slot_holder hh
  obtain ⟨l', hl', hx'⟩ := slot_holder hh'
  rcases Nat.decEq h h' with hne | he
  · have := two_lists hl hx hl' hx' hne
    have : m.refs.count x = 1 := hs
    unfold Mem.refs at this
    omega
  · exact he

/-- `x` is reached from `a` along references. -/
inductive Mem.Reaches (m : Mem) (a : Nat) : Nat → Prop where
  | refl : m.Reaches a a
  | step {p x : Nat} : m.Reaches a p → x ∈ m.kidsAt p → m.Reaches a x

/-- `x` is reached from `a` along references to unshared allocations. -/
inductive Mem.Chain (m : Mem) (a : Nat) : Nat → Prop where
  | refl : m.Chain a a
  | step {p x : Nat} : m.Chain a p → x ∈ m.kidsAt p → m.sole x → m.Chain a x

theorem reaches_cons {m : Mem} {a i x : Nat} (h : i ∈ m.kidsAt a) (hr : m.Reaches i x) : m.Reaches a x := by
  induction hr with
  | refl => exact .step .refl h
  | step _ hx ih => exact .step ih hx

theorem chain_cons {m : Mem} {a i x : Nat} (h : i ∈ m.kidsAt a) (hs : m.sole i) (hr : m.Chain i x) : m.Chain a x := by
  induction hr with
  | refl => exact .step .refl h hs
  | step _ hx hs ih => exact .step ih hx hs

/-- References go to older allocations that are not freed. -/
structure Mem.Valid (m : Mem) : Prop where
  kid : ∀ y x, x ∈ m.kidsAt y → x < y ∧ m.live x
  held : ∀ h x, m.holds h x → m.live x
  plain : ∀ (y : Nat) (n : Node), m.nodes[y]? = some (some n) → n.plain = true

theorem reaches_le {m : Mem} (hv : m.Valid) {a x : Nat} (h : m.Reaches a x) : x ≤ a := by
  induction h with
  | refl => exact Nat.le_refl _
  | step _ hx ih => have := (hv.kid _ _ hx).1; omega

theorem chain_le {m : Mem} (hv : m.Valid) {a x : Nat} (h : m.Chain a x) : x ≤ a := by
  induction h with
  | refl => exact Nat.le_refl _
  | step _ hx _ ih => have := (hv.kid _ _ hx).1; omega

theorem chain_apart {m : Mem} {a b x : Nat} (base : ¬ m.Reaches b a) (hb : ∀ p, m.Chain a p → b ∈ m.kidsAt p → ¬ m.sole b)
    (h : m.Chain a x) : ¬ m.Reaches b x := by
  induction h with
  | refl => exact base
  | @step p x hp hx hs ih =>
    intro hr
    cases hr with
    | refl => exact hb p hp hx hs
    | step hq hx' => rw [kid_kid hs hx' hx] at hq; exact ih hq

/-- Two memories with the same references and the same allocations in use. -/
structure Mem.Shape (m m' : Mem) : Prop where
  holders : m'.holders = m.holders
  nodes : m'.nodes.map (Option.map Node.sig) = m.nodes.map (Option.map Node.sig)

theorem Mem.Shape.trans {m m' m'' : Mem} (h : m.Shape m') (h' : m'.Shape m'') : m.Shape m'' :=
  ⟨h'.1.trans h.1, h'.2.trans h.2⟩

theorem map_kids (l : List (Option Node)) : l.map kids =
    (l.map (Option.map Node.sig)).map (fun o => match o with | some l => l.1 | none => []) := by
  rw [List.map_map]
  refine List.map_congr_left fun o _ => ?_
  cases o <;> rfl

theorem Mem.Shape.refs {m m' : Mem} (h : m.Shape m') : m'.refs = m.refs := by
  unfold Mem.refs; rw [h.1, map_kids, h.2, ← map_kids]

theorem Mem.Shape.sole {m m' : Mem} (h : m.Shape m') (x : Nat) : m'.sole x ↔ m.sole x := by
  unfold Mem.sole; rw [h.refs]

theorem kidsAt_map (m : Mem) (y : Nat) : m.kidsAt y =
    match (m.nodes.map (Option.map Node.sig))[y]? with
    | some (some l) => l.1
    | _ => [] := by
  unfold Mem.kidsAt kids
  rw [List.getElem?_map]
  cases m.nodes[y]? with
  | none => rfl
  | some n => cases n <;> rfl

theorem Mem.Shape.kidsAt {m m' : Mem} (h : m.Shape m') (y : Nat) : m'.kidsAt y = m.kidsAt y := by
  rw [kidsAt_map, kidsAt_map, h.2]

theorem live_map (m : Mem) (x : Nat) : m.live x ↔ ∃ l, (m.nodes.map (Option.map Node.sig))[x]? = some (some l) := by
  unfold Mem.live
  rw [List.getElem?_map]
  cases m.nodes[x]? with
  | none => simp
  | some n => cases n <;> simp

theorem Mem.Shape.live {m m' : Mem} (h : m.Shape m') (x : Nat) : m'.live x ↔ m.live x := by
  rw [live_map, live_map, h.2]

theorem plain_map {m m' : Mem} (h : m.Shape m') {y : Nat} {n : Node} (hn : m'.nodes[y]? = some (some n)) :
    ∃ n', m.nodes[y]? = some (some n') ∧ n'.plain = n.plain := by
  have e : (m'.nodes.map (Option.map Node.sig))[y]? = (m.nodes.map (Option.map Node.sig))[y]? := by rw [h.2]
  rw [List.getElem?_map, List.getElem?_map, hn] at e
  cases hm : m.nodes[y]? with
  | none => rw [hm] at e; cases e
  | some o =>
    cases o with
    | none => rw [hm] at e; cases e
    | some n' =>
      rw [hm] at e
      simp only [Option.map_some, Option.some.injEq] at e
      exact ⟨n', rfl, (congrArg Prod.snd e).symm⟩

theorem Mem.Shape.valid {m m' : Mem} (h : m.Shape m') (hv : m.Valid) : m'.Valid :=
  ⟨fun y x hx => by rw [h.kidsAt] at hx; rw [h.live]; exact hv.kid y x hx,
   fun k x hx => by rw [Mem.holds, h.1] at hx; rw [h.live]; exact hv.held k x hx,
   fun y n hn => by obtain ⟨n', hn', e⟩ := plain_map h hn; rw [← e]; exact hv.plain y n' hn'⟩

theorem Mem.Shape.chain {m m' : Mem} (h : m.Shape m') {a x : Nat} (hc : m'.Chain a x) : m.Chain a x := by
  induction hc with
  | refl => exact .refl
  | step _ hx hs ih => exact .step ih (by rwa [h.kidsAt] at hx) ((h.sole _).1 hs)

/-! ### Reading -/

theorem view_eq {m : Mem} {i : Nat} {n : Node} (h : m.nodes[i]? = some (some n)) :
    m.view i = n.toCol fun j => if j < i then m.view j else none := by
  rw [Mem.view, h]
  simp only [dite_eq_ite]

theorem toCol_congr {n : Node} {f g : Nat → Option Col} (h : ∀ j, j ∈ n.children → f j = g j) : n.toCol f = n.toCol g := by
  cases n <;> simp only [Node.toCol] <;> simp only [Node.children] at h
  · rw [h _ (by simp)]
  · rw [h _ (by simp)]
  · rw [h _ (by simp), h _ (by simp)]
  · rw [h _ (by simp)]
  · rw [h _ (by simp)]

theorem kidsAt_of {m : Mem} {i : Nat} {n : Node} (h : m.nodes[i]? = some (some n)) : m.kidsAt i = n.children := by
  unfold Mem.kidsAt; rw [h]; rfl

theorem view_congr {m m' : Mem} : ∀ (i : Nat), (∀ x, m.Reaches i x → m'.nodes[x]? = m.nodes[x]?) → m'.view i = m.view i := by
  intro i
  induction i using Nat.strongRecOn with
  | _ i ih =>
    intro h
    have h₀ := h i .refl
    cases hn : m.nodes[i]? with
    | none => rw [Mem.view, Mem.view, h₀, hn]
    | some o =>
      cases o with
      | none => rw [Mem.view, Mem.view, h₀, hn]
      | some n =>
        rw [view_eq hn, view_eq (h₀.trans hn)]
        refine toCol_congr fun j hj => ?_
        by_cases hlt : j < i
        · rw [if_pos hlt, if_pos hlt]
          exact ih j hlt fun x hx => h x (reaches_cons (by rw [kidsAt_of hn]; exact hj) hx)
        · rw [if_neg hlt, if_neg hlt]

theorem toCol_some {n : Node} {f : Nat → Option Col} (h : ∀ j, j ∈ n.children → ∃ c, f j = some c) : ∃ c, n.toCol f = some c := by
  cases n <;> simp only [Node.toCol] <;> simp only [Node.children] at h
  · exact ⟨_, rfl⟩
  · obtain ⟨c, hc⟩ := h _ (List.mem_singleton.2 rfl); exact ⟨_, by rw [hc]; rfl⟩
  · obtain ⟨c, hc⟩ := h _ (List.mem_singleton.2 rfl); exact ⟨_, by rw [hc]; rfl⟩
  · rename_i k v
    obtain ⟨c, hc⟩ := h k (by simp)
    obtain ⟨d, hd⟩ := h v (by simp)
    exact ⟨_, by rw [hc, hd]; rfl⟩
  · obtain ⟨c, hc⟩ := h _ (List.mem_singleton.2 rfl); exact ⟨_, by rw [hc]; rfl⟩
  · obtain ⟨c, hc⟩ := h _ (List.mem_singleton.2 rfl); exact ⟨_, by rw [hc]; rfl⟩

theorem view_live {m : Mem} (hv : m.Valid) : ∀ (i : Nat), m.live i → ∃ c, m.view i = some c := by
  intro i
  induction i using Nat.strongRecOn with
  | _ i ih =>
    intro ⟨n, hn⟩
    rw [view_eq hn]
    refine toCol_some fun j hj => ?_
    obtain ⟨hlt, hl⟩ := hv.kid i j (by rw [kidsAt_of hn]; exact hj)
    rw [if_pos hlt]
    exact ih j hlt hl

/-! ### Writing -/

theorem put_get {m : Mem} {i : Nat} {n n' : Node} (h : m.nodes[i]? = some (some n)) : (m.put i n').nodes[i]? = some (some n') := by
  have : i < m.nodes.length := by
    rcases Nat.lt_or_ge i m.nodes.length with hl | hl
    · exact hl
    · rw [List.getElem?_eq_none hl] at h; cases h
  simp [Mem.put, this]

theorem put_other {m : Mem} {i j : Nat} {n : Node} (h : j ≠ i) : (m.put i n).nodes[j]? = m.nodes[j]? := by
  simp only [Mem.put]
  rw [List.getElem?_set_ne (Ne.symm h)]

theorem put_shape {m : Mem} {i : Nat} {n n' : Node} (h : m.nodes[i]? = some (some n)) (hc : n'.sig = n.sig) :
    m.Shape (m.put i n') := by
  refine ⟨rfl, ?_⟩
  refine List.ext_getElem? fun j => ?_
  rw [List.getElem?_map, List.getElem?_map]
  by_cases hj : j = i
  · subst hj
    rw [put_get h, h]
    simp [hc]
  · rw [put_other hj]

theorem put_view_lt {m : Mem} {i : Nat} {n : Node} : ∀ (j : Nat), j < i → (m.put i n).view j = m.view j := by
  intro j
  induction j using Nat.strongRecOn with
  | _ j ih =>
    intro hj
    have h₀ : (m.put i n).nodes[j]? = m.nodes[j]? := put_other (by omega)
    cases hn : m.nodes[j]? with
    | none => rw [Mem.view, Mem.view, h₀, hn]
    | some o =>
      cases o with
      | none => rw [Mem.view, Mem.view, h₀, hn]
      | some k =>
        rw [view_eq hn, view_eq (h₀.trans hn)]
        refine toCol_congr fun q _ => ?_
        by_cases hlt : q < j
        · rw [if_pos hlt, if_pos hlt]; exact ih q hlt (by omega)
        · rw [if_neg hlt, if_neg hlt]

/-- Effect of writing to the allocation `id`: what it stands for, the references, and which allocations may have changed. -/
structure Wrote (m m' : Mem) (id : Nat) (c : Col) : Prop where
  view : m'.view id = some c
  shape : m.Shape m'
  frame : ∀ j, ¬ m.Chain id j → m'.nodes[j]? = m.nodes[j]?

theorem Wrote.put {m m₁ : Mem} {id : Nat} {n n' : Node} {c : Col} (hn : m₁.nodes[id]? = some (some n)) (hc : n'.sig = n.sig)
    (hs : m.Shape m₁) (hf : ∀ j, ¬ m.Chain id j → m₁.nodes[j]? = m.nodes[j]?)
    (hcol : n'.toCol (fun j => if j < id then m₁.view j else none) = some c) : Wrote m (m₁.put id n') id c := by
  refine ⟨?_, hs.trans (put_shape hn hc), fun j hj => ?_⟩
  · rw [view_eq (put_get hn), ← hcol]
    refine toCol_congr fun j _ => ?_
    by_cases hlt : j < id
    · rw [if_pos hlt, if_pos hlt, put_view_lt j hlt]
    · rw [if_neg hlt, if_neg hlt]
  · rw [put_other (fun e => hj (by subst e; exact .refl)), hf j hj]

theorem Wrote.above {m m' : Mem} {i id : Nat} {c : Col} (hv : m.Valid) (h : Wrote m m' i c) (hlt : i < id) :
    m'.nodes[id]? = m.nodes[id]? := h.frame id fun hc => by have := chain_le hv hc; omega

theorem Wrote.frame_cons {m m' : Mem} {i id : Nat} {c : Col} (h : Wrote m m' i c) (hk : i ∈ m.kidsAt id) (hs : m.sole i) :
    ∀ j, ¬ m.Chain id j → m'.nodes[j]? = m.nodes[j]? := fun j hj => h.frame j fun hc => hj (chain_cons hk hs hc)

theorem Wrote.trans {m m₁ m₂ : Mem} {i : Nat} {c₁ c₂ : Col} (h₁ : Wrote m m₁ i c₁) (h₂ : Wrote m₁ m₂ i c₂) : Wrote m m₂ i c₂ :=
  ⟨h₂.view, h₁.shape.trans h₂.shape, fun j hj => by rw [h₂.frame j fun hc => hj (h₁.shape.chain hc), h₁.frame j hj]⟩

theorem Wrote.refl {m : Mem} {i : Nat} {c : Col} (h : m.view i = some c) : Wrote m m i c := ⟨h, ⟨rfl, rfl⟩, fun _ _ => rfl⟩

/-- What one push through `push` does to the allocation `i`. -/
def PushOk (push : Mem → Value → Out Mem) (i : Nat) : Prop :=
  ∀ (m : Mem) (v : Value) (m' : Mem) (c : Col), m.Valid → m.view i = some c → push m v = .ok m' →
    ∃ c', c.push v = .ok c' ∧ Wrote m m' i c'

theorem pushEach_ok {push : Mem → Value → Out Mem} {i : Nat} (h : PushOk push i) : ∀ (vs : List Value) (m m' : Mem) (c : Col),
    m.Valid → m.view i = some c → pushEach push m vs = .ok m' → ∃ c', c.pushList vs = .ok c' ∧ Wrote m m' i c'
  | [], m, m', c, _, hc, he => by
    rw [pushEach] at he; cases he
    exact ⟨c, rfl, .refl hc⟩
  | v :: vs, m, m', c, hv, hc, he => by
    rw [pushEach] at he
    obtain ⟨m₁, h₁, h₂⟩ := obind_eq_ok he
    obtain ⟨c₁, hp, w⟩ := h m v m₁ c hv hc h₁
    obtain ⟨c₂, hp', w'⟩ := pushEach_ok h vs m₁ m' c₁ (w.shape.valid hv) w.view h₂
    exact ⟨c₂, by rw [Col.pushList, hp, obind_ok, hp'], w.trans w'⟩

theorem pushWith_ok {m : Mem} (hv : m.Valid) {id : Nat} {n : Node} (hn : m.nodes[id]? = some (some n))
    {inner : Nat → Mem → Value → Out Mem} (hi : ∀ i, i ∈ n.children → PushOk (inner i) i) {v : Value} {m' : Mem} {c : Col}
    (hc : m.view id = some c) (h : n.pushWith m id inner v = .ok m') : ∃ c', c.push v = .ok c' ∧ Wrote m m' id c' := by
  have hkid : ∀ i, i ∈ n.children → i ∈ m.kidsAt id ∧ i < id ∧ ∃ d, m.view i = some d := fun i hm => by
    have hk : i ∈ m.kidsAt id := by rw [kidsAt_of hn]; exact hm
    obtain ⟨hlt, hl⟩ := hv.kid id i hk
    exact ⟨hk, hlt, view_live hv i hl⟩
  rw [view_eq hn] at hc
  -- one push to a single unshared inner column
  have single : ∀ {i : Nat} (x : Value) (m₁ : Mem) (d : Col) (n' : Node), i ∈ n.children → m.sole i → m.view i = some d →
      inner i m x = .ok m₁ → n'.sig = n.sig →
      ∃ d', d.push x = .ok d' ∧ ∀ c', (∀ f : Nat → Option Col, f i = some d' → n'.toCol f = some c') → Wrote m (m₁.put id n') id c' := by
    intro i x m₁ d n' hm hs hd he hch
    obtain ⟨hk, hlt, _⟩ := hkid i hm
    obtain ⟨d', hp, w⟩ := hi i hm m x m₁ d hv hd he
    refine ⟨d', hp, fun c' hc' => ?_⟩
    refine Wrote.put ((w.above hv hlt).trans hn) hch w.shape (w.frame_cons hk hs) (hc' _ ?_)
    show (if i < id then _ else _) = _
    rw [if_pos hlt, w.view]
  cases n with
  | leaf q =>
    simp only [Node.toCol, Option.some.injEq] at hc
    subst hc
    simp only [Node.pushWith] at h
    obtain ⟨c', hp, h'⟩ := obind_eq_ok h
    cases h'
    exact ⟨c', hp, Wrote.put hn (by simp [Node.sig, Node.children, Node.plain, push_flat hp]) ⟨rfl, rfl⟩ (fun _ _ => rfl) rfl⟩
  | nullable nulls i =>
    obtain ⟨hk, hlt, d, hd⟩ := hkid i (by simp [Node.children])
    simp only [Node.toCol, if_pos hlt, hd, Option.map_some, Option.some.injEq] at hc
    subst hc
    simp only [Node.pushWith] at h
    by_cases hs : m.sole i
    · rw [if_pos hs] at h
      cases v with
      | null t =>
        obtain ⟨m₁, h₁, h'⟩ := obind_eq_ok h
        cases h'
        obtain ⟨d', hp, w⟩ := single (Value.default t) m₁ d (.nullable (nulls ++ [1]) i) (by simp [Node.children]) hs hd h₁ rfl
        exact ⟨.nullable (nulls ++ [1]) d', by rw [push_nullable_null, hp]; rfl, w _ fun f hf => by simp [Node.toCol, hf]⟩
      | some x =>
        obtain ⟨m₁, h₁, h'⟩ := obind_eq_ok h
        cases h'
        obtain ⟨d', hp, w⟩ := single x m₁ d (.nullable (nulls ++ [0]) i) (by simp [Node.children]) hs hd h₁ rfl
        exact ⟨.nullable (nulls ++ [0]) d', by rw [push_nullable_some, hp]; rfl, w _ fun f hf => by simp [Node.toCol, hf]⟩
      | _ =>
        obtain ⟨m₁, h₁, h'⟩ := obind_eq_ok h
        cases h'
        obtain ⟨d', hp, w⟩ := single _ m₁ d (.nullable (nulls ++ [0]) i) (by simp [Node.children]) hs hd h₁ rfl
        refine ⟨.nullable (nulls ++ [0]) d', ?_, w _ fun f hf => by simp [Node.toCol, hf]⟩
        have hp' := hp
        simp only [Col.push, Col.sqlType, pushT] at hp' ⊢
        rw [hp']; rfl
    · rw [if_neg hs] at h; cases h
  | array offs i =>
    obtain ⟨hk, hlt, d, hd⟩ := hkid i (by simp [Node.children])
    simp only [Node.toCol, if_pos hlt, hd, Option.map_some, Option.some.injEq] at hc
    subst hc
    cases v <;> simp only [Node.pushWith] at h <;> try contradiction
    rename_i t vs
    by_cases hs : m.sole i
    · rw [if_pos hs] at h
      obtain ⟨m₁, h₁, h'⟩ := obind_eq_ok h
      cases h'
      obtain ⟨d', hp, w⟩ := pushEach_ok (hi i (by simp [Node.children])) vs m m₁ d hv hd h₁
      refine ⟨.array (offs ++ [lastOff offs + vs.length]) d', by rw [push_array, hp]; rfl, ?_⟩
      exact Wrote.put ((w.above hv hlt).trans hn) rfl w.shape (w.frame_cons hk hs) (by simp [Node.toCol, hlt, w.view])
    · rw [if_neg hs] at h; cases h
  | map offs k q =>
    obtain ⟨hk, hlt, d, hd⟩ := hkid k (by simp [Node.children])
    obtain ⟨hk', hlt', e, he⟩ := hkid q (by simp [Node.children])
    simp only [Node.toCol, if_pos hlt, if_pos hlt', hd, he, Option.map_some, Option.bind_some, Option.some.injEq] at hc
    subst hc
    cases v <;> simp only [Node.pushWith] at h <;> try contradiction
    rename_i kt vt ks vs
    by_cases hs : m.sole k ∧ m.sole q
    · rw [if_pos hs] at h
      obtain ⟨m₁, h₁, h'⟩ := obind_eq_ok h
      obtain ⟨m₂, h₂, h''⟩ := obind_eq_ok h'
      cases h''
      obtain ⟨d', hp, w⟩ := pushEach_ok (hi k (by simp [Node.children])) ks m m₁ d hv hd h₁
      -- the keys are kept apart from the values
      have hkq : k ≠ q := fun e => by
        subst e
        have hc := hs.1
        unfold Mem.sole Mem.refs at hc
        have : (kids (some (Node.map offs k k))).count k ≤ ((m.nodes.map kids).flatten).count k := by
          obtain ⟨s, t, hst⟩ := List.append_of_mem (List.mem_of_getElem? hn)
          rw [hst, List.map_append, List.map_cons, List.flatten_append, List.flatten_cons, List.count_append, List.count_append]
          omega
        rw [List.flatten_append, List.count_append] at hc
        simp [kids, Node.children] at this
        omega
      have apart₁ : ∀ x, m.Chain k x → ¬ m.Reaches q x := fun x hx => by
        refine chain_apart (fun hr => ?_) (fun p hp hq hsq => ?_) hx
        · cases hr with
          | refl => exact hkq rfl
          | step hr hx' =>
            have := kid_kid hs.1 hx' hk
            have := reaches_le hv hr
            omega
        · have := kid_kid hsq hq hk'
          have := chain_le hv hp
          omega
      have apart₂ : ∀ x, m.Chain q x → ¬ m.Reaches k x := fun x hx => by
        refine chain_apart (fun hr => ?_) (fun p hp hq hsq => ?_) hx
        · cases hr with
          | refl => exact hkq rfl
          | step hr hx' =>
            have := kid_kid hs.2 hx' hk'
            have := reaches_le hv hr
            omega
        · have := kid_kid hsq hq hk
          have := chain_le hv hp
          omega
      have he₁ : m₁.view q = some e := by
        rw [← he]; exact view_congr q fun x hx => w.frame x fun hc => apart₁ x hc hx
      have hv₁ := w.shape.valid hv
      obtain ⟨e', hp', w'⟩ := pushEach_ok (hi q (by simp [Node.children])) vs m₁ m₂ e hv₁ he₁ h₂
      have hd₂ : m₂.view k = some d' := by
        rw [← w.view]
        refine view_congr k fun x hx => w'.frame x fun hc => apart₂ x (w.shape.chain hc) ?_
        clear hc
        induction hx with
        | refl => exact .refl
        | step _ hx ih => exact .step ih (by rwa [w.shape.kidsAt] at hx)
      refine ⟨.map (offs ++ [lastOff offs + ks.length]) d' e', by rw [push_map, hp, obind_ok, hp']; rfl, ?_⟩
      refine Wrote.put (((w'.above hv₁ hlt').trans (w.above hv hlt)).trans hn) rfl (w.shape.trans w'.shape) (fun j hj => ?_)
        (by simp [Node.toCol, hlt, hlt', hd₂, w'.view])
      rw [w'.frame j fun hc => hj (chain_cons hk' hs.2 (w.shape.chain hc)), w.frame j fun hc => hj (chain_cons hk hs.1 hc)]
    · rw [if_neg hs] at h; cases h
  | simpleAgg g i =>
    obtain ⟨hk, hlt, d, hd⟩ := hkid i (by simp [Node.children])
    simp only [Node.toCol, if_pos hlt, hd, Option.map_some, Option.some.injEq] at hc
    subst hc
    simp only [Node.pushWith] at h
    by_cases hs : m.sole i
    · rw [if_pos hs] at h
      obtain ⟨m₁, h₁, h'⟩ := obind_eq_ok h
      cases h'
      obtain ⟨d', hp, w⟩ := single v m₁ d (.simpleAgg g i) (by simp [Node.children]) hs hd h₁ rfl
      exact ⟨.simpleAgg g d', by rw [push_simpleAgg, hp]; rfl, w _ fun f hf => by simp [Node.toCol, hf]⟩
    · rw [if_neg hs] at h; cases h
  | lowCard ity index i vmap =>
    obtain ⟨hk, hlt, d, hd⟩ := hkid i (by simp [Node.children])
    simp only [Node.toCol, if_pos hlt, hd, Option.map_some, Option.some.injEq] at hc
    subst hc
    simp only [Node.pushWith, hd] at h
    obtain ⟨vm, hvm, h₁⟩ := obind_eq_ok h
    obtain ⟨o, ho, h₂⟩ := obind_eq_ok h₁
    have hpush : ∀ r, (match o with
        | some j => do
          let (ity, index) ← lcIndexPush ity index j
          pure (Col.lowCard ity index d (some vm))
        | none => do
          let j ← d.len
          let d ← pushT d.sqlType d v
          let (ity, index) ← lcIndexPush ity index j
          pure (Col.lowCard ity index d (some ((v, j) :: vm)))) = r → (Col.lowCard ity index d vmap).push v = r := fun r hr => by
      show pushT (.lowCard d.sqlType) _ _ = r
      rw [pushT_lowCard, hvm, obind_ok, ho, obind_ok, ← hr]
      cases o <;> rfl
    cases o with
    | some j =>
      obtain ⟨⟨ity', index'⟩, hx, h₃⟩ := obind_eq_ok h₂
      cases h₃
      refine ⟨.lowCard ity' index' d (some vm), hpush _ (by simp only [hx]; rfl), ?_⟩
      exact Wrote.put hn rfl ⟨rfl, rfl⟩ (fun _ _ => rfl) (by simp [Node.toCol, hlt, hd])
    | none =>
      obtain ⟨j, hj, h₃⟩ := obind_eq_ok h₂
      by_cases hs : m.sole i
      · rw [if_pos hs] at h₃
        obtain ⟨m₁, he, h₄⟩ := obind_eq_ok h₃
        obtain ⟨⟨ity', index'⟩, hx, h₅⟩ := obind_eq_ok h₄
        cases h₅
        obtain ⟨d', hp, w⟩ := single v m₁ d (.lowCard ity' index' i (some ((v, j) :: vm))) (by simp [Node.children]) hs hd he rfl
        refine ⟨.lowCard ity' index' d' (some ((v, j) :: vm)), hpush _ ?_, w _ fun f hf => by simp [Node.toCol, hf]⟩
        have hp' : pushT d.sqlType d v = .ok d' := hp
        simp only [hj, obind_ok, hp', hx]; rfl
      · rw [if_neg hs] at h₃; cases h₃

theorem pushNode_ok : ∀ (id : Nat), PushOk (Mem.pushNode id) id := by
  intro id
  induction id using Nat.strongRecOn with
  | _ id ih =>
    intro m v m' c hv hc h
    rw [Mem.pushNode] at h
    cases hn : m.nodes[id]? with
    | none => rw [hn] at h; cases h
    | some o =>
      cases o with
      | none => rw [hn] at h; cases h
      | some n =>
        rw [hn] at h
        refine pushWith_ok hv hn (fun i hi => ?_) hc h
        have hlt := (hv.kid id i (by rw [kidsAt_of hn]; exact hi)).1
        intro m v m' c hv hc h
        simp only [dif_pos hlt] at h
        exact ih i hlt m v m' c hv hc h

/-! ### Pushing succeeds when nothing inside is shared -/

/-- Nothing inside the allocation `id` is shared. -/
def Mem.Owned (m : Mem) (id : Nat) : Prop := ∀ x, m.Reaches id x → x ≠ id → m.sole x

theorem Mem.Shape.reaches {m m' : Mem} (h : m.Shape m') {a x : Nat} (hr : m'.Reaches a x) : m.Reaches a x := by
  induction hr with
  | refl => exact .refl
  | step _ hx ih => exact .step ih (by rwa [h.kidsAt] at hx)

theorem Mem.Shape.owned {m m' : Mem} (h : m.Shape m') {id : Nat} (ho : m.Owned id) : m'.Owned id :=
  fun x hx hne => (h.sole x).2 (ho x (h.reaches hx) hne)

/-- A push through `push` succeeds whenever nothing is shared and the column takes the value. -/
def PushTotal (push : Mem → Value → Out Mem) (i : Nat) : Prop :=
  ∀ (m : Mem) (v : Value) (c c' : Col), m.Valid → m.view i = some c → m.Owned i → c.push v = .ok c' → ∃ m', push m v = .ok m'

theorem pushEach_total {push : Mem → Value → Out Mem} {i : Nat} (h : PushOk push i) (ht : PushTotal push i) :
    ∀ (vs : List Value) (m : Mem) (c c' : Col), m.Valid → m.view i = some c → m.Owned i → c.pushList vs = .ok c' →
      ∃ m', pushEach push m vs = .ok m'
  | [], m, c, c', _, _, _, _ => ⟨m, rfl⟩
  | v :: vs, m, c, c', hv, hc, ho, hp => by
    rw [Col.pushList] at hp
    obtain ⟨c₁, h₁, h₂⟩ := obind_eq_ok hp
    obtain ⟨m₁, e⟩ := ht m v c c₁ hv hc ho h₁
    obtain ⟨c₂, hp', w⟩ := h m v m₁ c hv hc e
    rw [h₁] at hp'; cases hp'
    obtain ⟨m₂, e'⟩ := pushEach_total h ht vs m₁ c₁ c' (w.shape.valid hv) w.view (w.shape.owned ho) h₂
    exact ⟨m₂, by rw [pushEach, e, obind_ok, e']⟩

theorem owned_kid {m : Mem} (hv : m.Valid) {id i : Nat} (ho : m.Owned id) (hk : i ∈ m.kidsAt id) : m.Owned i ∧ m.sole i := by
  have hlt := (hv.kid id i hk).1
  refine ⟨fun x hx _ => ho x (reaches_cons hk hx) ?_, ho i (.step .refl hk) (by omega)⟩
  have := reaches_le hv hx
  omega

theorem pushWith_total {m : Mem} (hv : m.Valid) {id : Nat} {n : Node} (hn : m.nodes[id]? = some (some n))
    {inner : Nat → Mem → Value → Out Mem} (hok : ∀ i, i ∈ n.children → PushOk (inner i) i)
    (hi : ∀ i, i ∈ n.children → PushTotal (inner i) i) {v : Value} {c c' : Col}
    (hc : m.view id = some c) (ho : m.Owned id) (h : c.push v = .ok c') : ∃ m', n.pushWith m id inner v = .ok m' := by
  have hkid : ∀ i, i ∈ n.children → i < id ∧ m.Owned i ∧ m.sole i ∧ ∃ d, m.view i = some d := fun i hm => by
    have hk : i ∈ m.kidsAt id := by rw [kidsAt_of hn]; exact hm
    obtain ⟨hlt, hl⟩ := hv.kid id i hk
    exact ⟨hlt, (owned_kid hv ho hk).1, (owned_kid hv ho hk).2, view_live hv i hl⟩
  rw [view_eq hn] at hc
  cases n with
  | leaf q =>
    simp only [Node.toCol, Option.some.injEq] at hc
    subst hc
    exact ⟨m.put id (.leaf c'), by simp only [Node.pushWith, h]; rfl⟩
  | nullable nulls i =>
    obtain ⟨hlt, ho', hs, d, hd⟩ := hkid i (by simp [Node.children])
    simp only [Node.toCol, if_pos hlt, hd, Option.map_some, Option.some.injEq] at hc
    subst hc
    simp only [Node.pushWith, if_pos hs]
    cases v with
    | null t =>
      rw [push_nullable_null] at h
      obtain ⟨d', h₁, _⟩ := obind_eq_ok h
      obtain ⟨m₁, e⟩ := hi i (by simp [Node.children]) m _ d d' hv hd ho' h₁
      exact ⟨m₁.put id (.nullable (nulls ++ [1]) i), by simp only [e]; rfl⟩
    | some x =>
      rw [push_nullable_some] at h
      obtain ⟨d', h₁, _⟩ := obind_eq_ok h
      obtain ⟨m₁, e⟩ := hi i (by simp [Node.children]) m _ d d' hv hd ho' h₁
      exact ⟨m₁.put id (.nullable (nulls ++ [0]) i), by simp only [e]; rfl⟩
    | _ =>
      simp only [Col.push, Col.sqlType, pushT] at h
      obtain ⟨d', h₁, _⟩ := obind_eq_ok h
      obtain ⟨m₁, e⟩ := hi i (by simp [Node.children]) m _ d d' hv hd ho' h₁
      exact ⟨m₁.put id (.nullable (nulls ++ [0]) i), by simp only [e]; rfl⟩
  | array offs i =>
    obtain ⟨hlt, ho', hs, d, hd⟩ := hkid i (by simp [Node.children])
    simp only [Node.toCol, if_pos hlt, hd, Option.map_some, Option.some.injEq] at hc
    subst hc
    cases v with
    | array t vs =>
      rw [push_array] at h
      obtain ⟨d', h₁, _⟩ := obind_eq_ok h
      obtain ⟨m₁, e⟩ := pushEach_total (hok i (by simp [Node.children])) (hi i (by simp [Node.children])) vs m d d' hv hd ho' h₁
      exact ⟨m₁.put id (.array (offs ++ [lastOff offs + vs.length]) i), by simp only [Node.pushWith, if_pos hs, e]; rfl⟩
    | _ => simp only [Col.push, Col.sqlType, pushT] at h; contradiction
  | map offs k q =>
    obtain ⟨hlt, ho₁, hs, d, hd⟩ := hkid k (by simp [Node.children])
    obtain ⟨hlt', ho₂, hs', e, he⟩ := hkid q (by simp [Node.children])
    simp only [Node.toCol, if_pos hlt, if_pos hlt', hd, he, Option.map_some, Option.bind_some, Option.some.injEq] at hc
    subst hc
    cases v with
    | map kt vt ks vs =>
      rw [push_map] at h
      obtain ⟨d', h₁, h'⟩ := obind_eq_ok h
      obtain ⟨e', h₂, _⟩ := obind_eq_ok h'
      obtain ⟨m₁, x₁⟩ := pushEach_total (hok k (by simp [Node.children])) (hi k (by simp [Node.children])) ks m d d' hv hd ho₁ h₁
      obtain ⟨d'', _, w⟩ := pushEach_ok (hok k (by simp [Node.children])) ks m m₁ d hv hd x₁
      have hk : k ∈ m.kidsAt id := by rw [kidsAt_of hn]; simp [Node.children]
      have hq : q ∈ m.kidsAt id := by rw [kidsAt_of hn]; simp [Node.children]
      have hv₁ := w.shape.valid hv
      -- the values are unchanged: every changed allocation lies under the keys
      have hkq : k ≠ q := fun e => by
        subst e
        have hc := hs
        unfold Mem.sole Mem.refs at hc
        have : (kids (some (Node.map offs k k))).count k ≤ ((m.nodes.map kids).flatten).count k := by
          obtain ⟨s, t, hst⟩ := List.append_of_mem (List.mem_of_getElem? hn)
          rw [hst, List.map_append, List.map_cons, List.flatten_append, List.flatten_cons, List.count_append, List.count_append]
          omega
        rw [List.flatten_append, List.count_append] at hc
        simp [kids, Node.children] at this
        omega
      have he₁ : m₁.view q = some e := by
        rw [← he]
        refine view_congr q fun x hx => w.frame x fun hc => ?_
        refine chain_apart (fun hr => ?_) (fun p hp hq' hsq => ?_) hc hx
        · cases hr with
          | refl => exact hkq rfl
          | step hr hx' =>
            have := kid_kid hs hx' hk
            have := reaches_le hv hr
            omega
        · have := kid_kid hsq hq' hq
          have := chain_le hv hp
          omega
      obtain ⟨m₂, x₂⟩ := pushEach_total (hok q (by simp [Node.children])) (hi q (by simp [Node.children])) vs m₁ e e' hv₁ he₁
        (w.shape.owned ho₂) h₂
      exact ⟨m₂.put id (.map (offs ++ [lastOff offs + ks.length]) k q), by
        simp only [Node.pushWith, if_pos (And.intro hs hs'), x₁, obind_ok, x₂]; rfl⟩
    | _ => simp only [Col.push, Col.sqlType, pushT] at h; contradiction
  | simpleAgg g i =>
    obtain ⟨hlt, ho', hs, d, hd⟩ := hkid i (by simp [Node.children])
    simp only [Node.toCol, if_pos hlt, hd, Option.map_some, Option.some.injEq] at hc
    subst hc
    rw [push_simpleAgg] at h
    obtain ⟨d', h₁, _⟩ := obind_eq_ok h
    obtain ⟨m₁, e⟩ := hi i (by simp [Node.children]) m _ d d' hv hd ho' h₁
    exact ⟨m₁.put id (.simpleAgg g i), by simp only [Node.pushWith, if_pos hs, e]; rfl⟩
  | lowCard ity index i vmap =>
    obtain ⟨hlt, ho', hs, d, hd⟩ := hkid i (by simp [Node.children])
    simp only [Node.toCol, if_pos hlt, hd, Option.map_some, Option.some.injEq] at hc
    subst hc
    simp only [Node.pushWith, hd]
    have h' : pushT (.lowCard d.sqlType) (.lowCard ity index d vmap) v = .ok c' := h
    rw [pushT_lowCard] at h'
    obtain ⟨vm, hvm, h₁⟩ := obind_eq_ok h'
    obtain ⟨o, ho, h₂⟩ := obind_eq_ok h₁
    rw [hvm, obind_ok, ho, obind_ok]
    cases o with
    | some j =>
      obtain ⟨⟨ity', index'⟩, hx, h₃⟩ := obind_eq_ok h₂
      exact ⟨m.put id (.lowCard ity' index' i (some vm)), by simp only [hx]; rfl⟩
    | none =>
      obtain ⟨j, hj, h₃⟩ := obind_eq_ok h₂
      obtain ⟨d', hp, h₄⟩ := obind_eq_ok h₃
      obtain ⟨⟨ity', index'⟩, hx, h₅⟩ := obind_eq_ok h₄
      obtain ⟨m₁, e⟩ := hi i (by simp [Node.children]) m v d d' hv hd ho' hp
      exact ⟨m₁.put id (.lowCard ity' index' i (some ((v, j) :: vm))), by
        simp only [hj, obind_ok, if_pos hs, e, hx]; rfl⟩

theorem pushNode_total : ∀ (id : Nat), PushTotal (Mem.pushNode id) id := by
  intro id
  induction id using Nat.strongRecOn with
  | _ id ih =>
    intro m v c c' hv hc ho h
    rw [Mem.pushNode]
    cases hn : m.nodes[id]? with
    | none => rw [Mem.view, hn] at hc; cases hc
    | some o =>
      cases o with
      | none => rw [Mem.view, hn] at hc; cases hc
      | some n =>
        simp only
        refine pushWith_total hv hn (fun i hi => ?_) (fun i hi => ?_) hc ho h
        · have hlt := (hv.kid id i (by rw [kidsAt_of hn]; exact hi)).1
          intro m v m' c hv hc h
          simp only [dif_pos hlt] at h
          exact pushNode_ok i m v m' c hv hc h
        · have hlt := (hv.kid id i (by rw [kidsAt_of hn]; exact hi)).1
          intro m v c c' hv hc ho h
          simp only [dif_pos hlt]
          exact ih i hlt m v c c' hv hc ho h

/-! ### Columns held by the program -/

theorem column_eq {m : Mem} {h id : Nat} (hh : m.holds h id) : m.column h = m.view id := by
  unfold Mem.column; rw [show m.holders[h]? = some (some id) from hh]

theorem column_inv {m : Mem} {h : Nat} {c : Col} (hc : m.column h = some c) : ∃ id, m.holds h id ∧ m.view id = some c := by
  unfold Mem.column at hc
  split at hc
  · rename_i id hh; exact ⟨id, hh, hc⟩
  · cases hc

theorem column_congr {m m' : Mem} (h : Nat) (hh : m'.holders[h]? = m.holders[h]?) (hv : ∀ id, m.holds h id → m'.view id = m.view id) :
    m'.column h = m.column h := by
  unfold Mem.column
  rw [hh]
  split
  · rename_i id e; exact hv id e
  · rfl

/-- The column with its lookup table forgotten. -/
def Col.forget : Col → Col
  | .lowCard ity index d _ => .lowCard ity index d none
  | c => c

theorem clone_children (n : Node) : n.cloneInstance.children = n.children := by cases n <;> rfl

theorem clone_toCol {n : Node} {f : Nat → Option Col} {c : Col} (h : n.toCol f = some c) (hp : n.plain = true) :
    n.cloneInstance.toCol f = some c.forget := by
  cases n <;> simp only [Node.toCol, Node.cloneInstance] at h ⊢
  · rename_i q
    simp at h; subst h
    simp only [Node.plain] at hp
    cases q <;> first | rfl | cases hp
  · rename_i i; cases hf : f i <;> rw [hf] at h <;> simp at h; subst h; rfl
  · rename_i i; cases hf : f i <;> rw [hf] at h <;> simp at h; subst h; rfl
  · rename_i k v
    cases hf : f k <;> rw [hf] at h <;> simp at h
    obtain ⟨b, hb, rfl⟩ := h
    rw [hb]; rfl
  · rename_i i; cases hf : f i <;> rw [hf] at h <;> simp at h; subst h; rfl
  · rename_i i _; cases hf : f i <;> rw [hf] at h <;> simp at h; subst h; rfl

end CH
