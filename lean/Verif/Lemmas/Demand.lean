import Verif.Model.Demand
import Verif.Lemmas.StringPool
import Verif.Lemmas.Block
import Verif.Lemmas.Column

/-! The metered readers are the readers, and what ends well has asked for memory in proportion to what was read. -/

namespace CH

/-- An outcome without its value. -/
def Res.done : Res α → Res Unit
  | .ok _ r => .ok () r
  | .more => .more
  | .err e r => .err e r
  | .panic => .panic

/-- What ends well asks for at most `K` times the bytes read. -/
def Lin (K : Nat) (m : Metered α) : Prop := ∀ bs a rest k, m bs = (.ok a rest, k) → k + K * rest.length ≤ K * bs.length

theorem mbind_run (m : Metered α) (f : α → Metered β) (bs : Bytes) : m.bind f bs = match m bs with
  | (.ok a rest, k) => ((f a rest).1, k + (f a rest).2)
  | (.more, k) => (.more, k)
  | (.err e rest, k) => (.err e rest, k)
  | (.panic, k) => (.panic, k) := rfl

theorem mbind_ok {m : Metered α} {f : α → Metered β} {bs b rest k} (h : m.bind f bs = (.ok b rest, k)) :
    ∃ a r k1 k2, m bs = (.ok a r, k1) ∧ f a r = (.ok b rest, k2) ∧ k = k1 + k2 := by
  rw [mbind_run] at h
  cases hm : m bs with
  | mk o k1 =>
    rw [hm] at h
    cases o with
    | ok a r =>
      injection h with h1 h2
      exact ⟨a, r, k1, (f a r).2, rfl, by rw [← h1], h2.symm⟩
    | more => injection h with h1 h2; cases h1
    | err e r => injection h with h1 h2; cases h1
    | panic => injection h with h1 h2; cases h1

theorem Lin.bind {K : Nat} {m : Metered α} {f : α → Metered β} (h : Lin K m) (hf : ∀ a, Lin K (f a)) : Lin K (m.bind f) := by
  intro bs b rest k hb
  obtain ⟨a, r, k1, k2, h1, h2, rfl⟩ := mbind_ok hb
  have := h _ _ _ _ h1
  have := hf a _ _ _ _ h2
  omega

theorem Lin.free {K : Nat} {r : Reader α} (h : Fwd r) : Lin K (Metered.free r) := by
  intro bs a rest k hb
  simp only [Metered.free, Prod.mk.injEq] at hb
  obtain ⟨c, rfl⟩ := h.ok hb.1
  rw [← hb.2, List.length_append, Nat.mul_add]
  omega

/-- Asking for memory and reading as many bytes. -/
theorem Lin.takeRead {K : Nat} (hK : 1 ≤ K) {n : Nat} {r : Reader α} (h : ∀ bs a rest, r bs = .ok a rest → n + rest.length ≤ bs.length) :
    Lin K (Metered.bind (.take n) fun _ => .free r) := by
  intro bs a rest k hb
  obtain ⟨u, r1, k1, k2, h1, h2, rfl⟩ := mbind_ok hb
  simp only [Metered.take, alloc, Prod.mk.injEq] at h1
  obtain ⟨h1, rfl⟩ := h1
  simp only [Metered.free, Prod.mk.injEq] at h2
  obtain ⟨h2, rfl⟩ := h2
  split at h1
  · cases h1
    rw [if_pos ‹_›]
    have := h _ _ _ h2
    have h3 := Nat.mul_le_mul_left K this
    have h4 := Nat.mul_le_mul_right n hK
    rw [Nat.mul_add] at h3
    omega
  · cases h1

theorem readN_used {n : Nat} {bs a rest} (h : readN n bs = .ok a rest) : n + rest.length = bs.length := by
  simp only [readN] at h
  split at h
  · cases h
    simp
    omega
  · cases h

theorem Lin.nums {K : Nat} (hK : 1 ≤ K) (w n : Nat) : Lin K (loadNumsM w n) := by
  refine Lin.takeRead hK fun bs a rest h => ?_
  obtain ⟨b, r, h1, h2⟩ := bind_eq_ok h
  cases h2
  exact Nat.le_of_eq (readN_used h1)

theorem readMany_used {m : Nat} : ∀ {n : Nat} {bs a rest}, readMany (readN m) n bs = .ok a rest → n * m + rest.length = bs.length
  | 0, bs, a, rest, h => by cases h; simp
  | n + 1, bs, a, rest, h => by
    obtain ⟨x, r, h1, h⟩ := bind_eq_ok h
    obtain ⟨y, r2, h2, h⟩ := bind_eq_ok h
    cases h
    have := readN_used h1
    have := readMany_used h2
    rw [Nat.succ_mul]
    omega

theorem Lin.bindAssoc {K : Nat} {n : Nat} {m : Metered α} {f : α → Metered β} (h : Lin K ((Metered.take n).bind fun _ => m)) (hf : ∀ a, Lin K (f a)) :
    Lin K ((Metered.take n).bind fun _ => m.bind f) := by
  intro bs b rest k hb
  obtain ⟨u, r1, k1, k2, h1, h2, rfl⟩ := mbind_ok hb
  obtain ⟨a, r2, k3, k4, h3, h4, rfl⟩ := mbind_ok h2
  have e : ((Metered.take n).bind fun _ => m) bs = (.ok a r2, k1 + k3) := by rw [mbind_run, h1]; simp only [h3]
  have := h _ _ _ _ e
  have := hf a _ _ _ _ h4
  omega

/-! ### The pool -/

namespace StringPool

/-- The chunks but the last, and what is used of the last, are at most twice what is stored and one chunk of the usual size. -/
structure Frugal (p : StringPool) (used : Nat) : Prop where
  before : p.chunks = [] ∨ ∃ init b, p.chunks = init ++ [b] ∧ (init.map List.length).sum + p.position ≤ 2 * used + p.capacity * 80 ∧
    b.length ≤ p.capacity * 80 + used ∧ p.position ≤ b.length

theorem Frugal.room {p : StringPool} {u : Nat} (h : Frugal p u) : p.room ≤ 3 * u + 2 * (p.capacity * 80) := by
  rcases h.before with h | ⟨init, b, h, h1, h2, h3⟩
  · simp [StringPool.room, h]
  · simp only [StringPool.room, h, List.map_append, List.sum_append, List.map_cons, List.map_nil, List.sum_cons, List.sum_nil]
    omega

theorem Frugal.allocate {p p' : StringPool} {xs : List Bytes} {q : StringPtr} {u n : Nat} (hi : Inv p xs) (h : Frugal p u)
    (ha : p.allocate n = .ok (p', q)) : Frugal p' (u + n) ∧ p.room ≤ p'.room ∧ p'.capacity = p.capacity := by
  unfold StringPool.allocate at ha
  rcases hi.room n with ⟨b, hb, hs⟩ | hn
  · rw [allocate_old hb (getLast_small hi hb) hs] at ha
    cases ha
    refine ⟨⟨.inr ?_⟩, Nat.le_refl _, rfl⟩
    rcases h.before with h0 | ⟨init, b', h0, h1, h2, h3⟩
    · rw [h0] at hb; cases hb
    · have : b' = b := by rw [h0] at hb; simpa using hb
      subst this
      exact ⟨init, b', h0, by dsimp only; omega, by dsimp only; omega, hs⟩
  · rw [allocate_new hn] at ha
    simp only at ha
    split at ha
    · cases ha
      refine ⟨⟨.inr ⟨p.chunks, _, rfl, ?_, ?_, ?_⟩⟩, ?_, rfl⟩
      · dsimp only
        rcases h.before with h0 | ⟨init, b', h0, h1, h2, h3⟩
        · rw [h0]; simp; omega
        · rcases hn with hn | ⟨b, hb, hb1, hb2⟩
          · rw [h0] at hn; simp at hn
          · have : b' = b := by rw [h0] at hb; simpa using hb
            subst this
            rw [h0]
            simp only [List.map_append, List.sum_append, List.map_cons, List.map_nil, List.sum_cons, List.sum_nil]
            omega
      · simp; omega
      · simp; omega
      · simp [StringPool.room]
    · cases ha

theorem fill_lengths {p p' : StringPool} {q : StringPtr} {s : Bytes} (hq : ∃ b, p.chunks[q.chunk]? = some b ∧ q.shift + q.len ≤ b.length)
    (h : p.fill q s = .ok p') : p'.chunks.map List.length = p.chunks.map List.length ∧ p'.position = p.position ∧ p'.capacity = p.capacity := by
  obtain ⟨b, hb, hl⟩ := hq
  unfold fill at h
  split at h
  · rename_i hs
    cases h
    refine ⟨?_, rfl, rfl⟩
    apply List.ext_getElem?
    intro i
    simp only [List.getElem?_map, List.getElem?_modify]
    by_cases hi : q.chunk = i
    · subst hi
      rw [hb]
      simp [overwrite_length (b := b) (shift := q.shift) (s := s) (by omega)]
    · simp only [if_neg hi]
      cases p.chunks[i]? <;> rfl
  · cases h

theorem Frugal.of_lengths {p p' : StringPool} {u : Nat} (h : Frugal p u) (hl : p'.chunks.map List.length = p.chunks.map List.length)
    (hp : p'.position = p.position) (hc : p'.capacity = p.capacity) : Frugal p' u := by
  rcases h.before with h0 | ⟨init, b, h0, h1, h2, h3⟩
  · exact ⟨.inl (by rw [h0] at hl; simpa using hl)⟩
  · refine ⟨.inr ?_⟩
    rcases List.eq_nil_or_concat p'.chunks with e | ⟨init', b', e⟩
    · rw [e, h0] at hl; simp at hl
    · rw [List.concat_eq_append] at e
      rw [e, h0, List.map_append, List.map_append] at hl
      obtain ⟨e1, e2⟩ := List.append_inj' hl (by simp)
      have e3 : b'.length = b.length := by simpa using e2
      exact ⟨init', b', e, by rw [e1, hp, hc]; exact h1, by rw [e3, hc]; exact h2, by rw [e3, hp]; exact h3⟩

theorem readIntoM_lin {p p' : StringPool} {xs : List Bytes} {u k : Nat} {bs rest : Bytes} (hi : Inv p xs) (hf : Frugal p u)
    (h : p.readIntoM bs = (.ok p' rest, k)) : ∃ n, n + 1 + rest.length ≤ bs.length ∧ Frugal p' (u + n) ∧ p.room + k = p'.room ∧
      p'.capacity = p.capacity ∧ ∃ ys, Inv p' ys := by
  have hinv : ∃ ys, Inv p' ys := by
    rcases readInto_spec hi bs with ⟨e, _⟩ | ⟨p2, s, r, e, _, h2, _⟩ | ⟨e, _⟩ | ⟨x, r, e, _⟩
    all_goals (simp only [readIntoM, Prod.mk.injEq] at h; rw [h.1] at e; cases e)
    exact ⟨_, h2⟩
  simp only [readIntoM, Prod.mk.injEq] at h
  obtain ⟨h1, h2⟩ := h
  unfold readInto at h1
  cases hu : readUvarint bs with
  | ok n r =>
    rw [hu] at h1 h2
    simp only at h1 h2
    rcases hi.allocate n with ⟨e, _⟩ | ⟨p1, q, s0, e, hq, hl, hi1, hc, hp⟩
    · rw [e] at h1; cases h1
    · rw [e] at h1 h2
      simp only at h1 h2
      obtain ⟨f1, f2, f3⟩ := hf.allocate hi e
      cases hr : readN n r with
      | ok s r' =>
        rw [hr] at h1
        simp only at h1
        cases hfl : p1.fill q s with
        | ok p2 =>
          rw [hfl] at h1
          simp only at h1
          cases h1
          have hin := hi1.inside q (by rw [hp]; simp)
          obtain ⟨g1, g2, g3⟩ := fill_lengths hin hfl
          refine ⟨n, ?_, f1.of_lengths g1 g2 g3, ?_, by rw [g3, f3], hinv⟩
          · have := readN_used hr
            have := readUvarint_progress hu
            omega
          · have : p'.room = p1.room := by simp only [StringPool.room, g1]
            rw [this]
            omega
        | err x => rw [hfl] at h1; cases h1
        | panic => rw [hfl] at h1; cases h1
      | more => rw [hr] at h1; cases h1
      | err x y => rw [hr] at h1; cases h1
      | panic => rw [hr] at h1; cases h1
  | more => rw [hu] at h1; cases h1
  | err x y => rw [hu] at h1; cases h1
  | panic => rw [hu] at h1; cases h1

theorem loadRowsM_lin : ∀ (n : Nat) {p p' : StringPool} {xs : List Bytes} {u k : Nat} {bs rest : Bytes}, Inv p xs → Frugal p u →
    loadRowsM n p bs = (.ok p' rest, k) → ∃ m, m + n + rest.length ≤ bs.length ∧ Frugal p' (u + m) ∧ p.room + k = p'.room ∧ p'.capacity = p.capacity
  | 0, p, p', xs, u, k, bs, rest, hi, hf, h => by
    simp only [loadRowsM, Metered.free, rpure_run, Prod.mk.injEq] at h
    obtain ⟨h, rfl⟩ := h
    cases h
    exact ⟨0, by omega, hf, by omega, rfl⟩
  | n + 1, p, p', xs, u, k, bs, rest, hi, hf, h => by
    obtain ⟨p1, r, k1, k2, h1, h2, rfl⟩ := mbind_ok h
    obtain ⟨a, ha, hf1, hr1, hc1, ys, hi1⟩ := readIntoM_lin hi hf h1
    obtain ⟨m, hm, hf2, hr2, hc2⟩ := loadRowsM_lin n hi1 hf1 h2
    exact ⟨a + m, by omega, by rw [← Nat.add_assoc]; exact hf2, by omega, by rw [hc2, hc1]⟩

end StringPool

theorem string_lin {K : Nat} (hK : 184 ≤ K) (size : Nat) : Lin K (Plan.string.demand size) := by
  intro bs a rest k h
  unfold Plan.demand at h
  obtain ⟨u, r1, k1, k2, h1, h2, rfl⟩ := mbind_ok h
  obtain ⟨p, r2, k3, k4, h3, h4, rfl⟩ := mbind_ok h2
  simp only [Metered.take, alloc, Prod.mk.injEq] at h1
  obtain ⟨h1, rfl⟩ := h1
  simp only [Metered.free, rpure_run, Prod.mk.injEq] at h4
  obtain ⟨h4, rfl⟩ := h4
  cases h4
  split at h1
  · cases h1
    rw [if_pos ‹_›]
    obtain ⟨m, hm, hf, hr, hc⟩ := StringPool.loadRowsM_lin size (StringPool.Inv.empty size) (u := 0) ⟨.inl rfl⟩ h3
    have hroom := hf.room
    rw [hc] at hroom
    have h0 : (StringPool.mk [] [] 0 size).room = 0 := rfl
    dsimp only at hroom
    have h5 := Nat.mul_le_mul_left K hm
    have h6 := Nat.mul_le_mul_right (m + size) hK
    rw [Nat.mul_add] at h5
    omega
  · cases h1

theorem fixed_lin {K : Nat} (hK : 1 ≤ K) (n size : Nat) : Lin K (Plan.demand (.fixed n) size) := by
  unfold Plan.demand
  exact Lin.bindAssoc (Lin.takeRead hK fun bs a rest h => Nat.le_of_eq (readMany_used h)) fun _ => Lin.free (Fwd.pure _)

theorem demand_lin (p : Plan) : ∀ n, Lin 184 (p.demand n) := by
  have pur : Lin 184 (Metered.free (Reader.pure ())) := Lin.free (Fwd.pure _)
  have nums : ∀ w n, Lin 184 (loadNumsM w n) := fun w n => Lin.nums (by omega) w n
  induction p with
  | num t => intro n; exact (nums _ _).bind fun _ => pur
  | string => intro n; exact string_lin (Nat.le_refl _) n
  | fixed k => intro n; exact fixed_lin (by omega) k n
  | date tz => intro n; exact (nums _ _).bind fun _ => pur
  | datetime tz => intro n; exact (nums _ _).bind fun _ => pur
  | dt64 p tz => intro n; exact (nums _ _).bind fun _ => pur
  | ip k => intro n; exact Lin.bindAssoc (Lin.takeRead (by omega) fun _ _ _ h => Nat.le_of_eq (readN_used h)) fun _ => pur
  | nullable p ih => intro n; exact Lin.bindAssoc (Lin.takeRead (by omega) fun _ _ _ h => Nat.le_of_eq (readN_used h)) fun _ => ih _
  | array p ih => intro n; exact (nums _ _).bind fun _ => ih _
  | map k v ih1 ih2 => intro n; exact (nums _ _).bind fun _ => (ih1 _).bind fun _ => ih2 _
  | decimal p s nb => intro n; exact (nums _ _).bind fun _ => pur
  | enum w items => intro n; exact (nums _ _).bind fun _ => pur
  | simpleAgg f p ih => intro n; exact ih n
  | lowCard p ih =>
    intro n
    have fail : ∀ e, Lin 184 (Metered.free (Reader.fail e : Reader Unit)) := fun e => by intro bs a rest k h; simp [Metered.free] at h
    unfold Plan.demand
    split
    · exact (ih 0).bind fun _ => (nums _ _).bind fun _ => pur
    · refine (Lin.free (readLE_fwd 8)).bind fun _ => ?_
      split
      · exact fail _
      · refine (Lin.free (readLE_fwd 8)).bind fun _ => ?_
        split
        · exact fail _
        · split
          · exact fail _
          · split
            · exact fail _
            · refine (Lin.free (readLE_fwd 8)).bind fun _ => (ih _).bind fun _ => (Lin.free (readLE_fwd 8)).bind fun _ => (nums _ _).bind fun _ => ?_
              split
              · exact pur
              · intro bs a rest k h; simp [Metered.free] at h
  | bad e => intro n bs a rest k h; simp [Plan.demand, Metered.free] at h
  | crash => intro n bs a rest k h; simp [Plan.demand, Metered.free] at h

theorem readStringM_lin : Lin 184 readStringM := by
  unfold readStringM
  refine (Lin.free readUvarint_fwd).bind fun n => ?_
  refine Lin.bindAssoc (Lin.takeRead (by omega) fun _ _ _ h => Nat.le_of_eq (readN_used h)) fun b => ?_
  split
  · exact Lin.free (Fwd.pure _)
  · intro bs a rest k h; simp [Metered.free] at h

/-! ### The metered readers are the readers -/

theorem done_bind {m : Metered α} {r : Reader α} {f : α → Metered β} {g : α → Reader γ} {bs : Bytes} (h : (m bs).1 = r bs)
    (hf : ∀ a rest, (f a rest).1.done = (g a rest).done) : (m.bind f bs).1.done = ((r >>= g) bs).done := by
  rw [mbind_run, bind_run, ← h]
  cases m bs with
  | mk o k => cases o <;> simp [Res.done]; exact hf _ _

theorem done_bind' {m : Metered α} {r : Reader δ} {f : α → Metered β} {g : δ → Reader γ} {bs : Bytes} (h : (m bs).1.done = (r bs).done)
    (hf : ∀ a b rest, (f a rest).1.done = (g b rest).done) : (m.bind f bs).1.done = ((r >>= g) bs).done := by
  rw [mbind_run, bind_run]
  cases hm : m bs with
  | mk o k =>
    rw [hm] at h
    cases hr : r bs <;> rw [hr] at h <;> cases o <;> simp only [Res.done, Res.ok.injEq, Res.err.injEq, reduceCtorEq, true_and] at h ⊢
    · subst h
      exact hf _ _ _
    · exact h

theorem loadNumsM_same (w n : Nat) (bs : Bytes) : (loadNumsM w n bs).1 = loadNums w n bs := by
  unfold loadNumsM loadNums
  rw [mbind_run, bind_run]
  simp only [Metered.take]
  cases alloc (n * w) bs <;> rfl

theorem loadRowsM_same : ∀ (n : Nat) (p : StringPool) (bs : Bytes), (StringPool.loadRowsM n p bs).1 = StringPool.loadRows n p bs
  | 0, _, _ => rfl
  | n + 1, p, bs => by
    show ((p.readIntoM).bind _ bs).1 = (p.readInto >>= fun p' => StringPool.loadRows n p') bs
    rw [mbind_run, bind_run]
    simp only [StringPool.readIntoM]
    cases p.readInto bs with
    | ok p' r => exact loadRowsM_same n p' r
    | more => rfl
    | err e r => rfl
    | panic => rfl

theorem demand_same (p : Plan) : ∀ n bs, (p.demand n bs).1.done = (p.load n bs).done := by
  have nums : ∀ (w n : Nat) (f : List Nat → Col) (bs : Bytes), ((loadNumsM w n).bind (fun _ => .free (Reader.pure ())) bs).1.done =
      ((loadNums w n >>= fun xs => Reader.pure (f xs)) bs).done := fun w n f bs => done_bind (loadNumsM_same w n bs) fun _ _ => rfl
  induction p with
  | num t => intro n bs; exact nums _ _ _ bs
  | string =>
    intro n bs
    unfold Plan.demand Plan.load
    refine done_bind rfl fun _ rest => ?_
    have key := StringPool.loadRows_spec n (StringPool.Inv.empty n) rest
    refine done_bind' ?_ fun _ _ _ => rfl
    rw [loadRowsM_same]
    rcases key with ⟨e, e'⟩ | ⟨p', ss, r, e, e', _⟩ | ⟨e, e'⟩ | ⟨x, r, e, e'⟩ <;> (rw [e, e']; rfl)
  | fixed k => intro n bs; exact done_bind rfl fun _ _ => done_bind rfl fun _ _ => rfl
  | date tz => intro n bs; exact nums _ _ _ bs
  | datetime tz => intro n bs; exact nums _ _ _ bs
  | dt64 p tz => intro n bs; exact nums _ _ _ bs
  | ip k => intro n bs; exact done_bind rfl fun _ _ => done_bind rfl fun _ _ => rfl
  | nullable p ih =>
    intro n bs
    refine done_bind rfl fun _ _ => done_bind rfl fun _ rest => ?_
    rw [ih, bind_run]
    cases p.load n rest <;> rfl
  | array p ih =>
    intro n bs
    refine done_bind (loadNumsM_same _ _ _) fun offs rest => ?_
    rw [ih, bind_run]
    cases p.load (lastOff offs) rest <;> rfl
  | map k v ih1 ih2 =>
    intro n bs
    refine done_bind (loadNumsM_same _ _ _) fun offs rest => done_bind' (ih1 _ _) fun _ _ rest' => ?_
    rw [ih2, bind_run]
    cases v.load (lastOff offs) rest' <;> rfl
  | decimal p s nb => intro n bs; exact nums _ _ _ bs
  | enum w items => intro n bs; exact nums _ _ _ bs
  | simpleAgg f p ih =>
    intro n bs
    show (p.demand n bs).1.done = ((p.load n >>= fun c => Reader.pure (Col.simpleAgg f c)) bs).done
    rw [ih, bind_run]
    cases p.load n bs <;> rfl
  | lowCard p ih =>
    intro n bs
    unfold Plan.demand Plan.load
    split
    · exact done_bind' (ih _ _) fun _ _ rest => done_bind (loadNumsM_same _ _ _) fun _ _ => rfl
    · refine done_bind rfl fun version rest => ?_
      split
      · rfl
      · refine done_bind rfl fun flags rest => ?_
        cases IdxTy.fromFlags flags with
        | none => rfl
        | some ity =>
          dsimp only
          split
          · rfl
          · split
            · rfl
            · refine done_bind rfl fun n rest => done_bind' (ih _ _) fun _ _ rest => done_bind rfl fun rows rest =>
                done_bind (loadNumsM_same _ _ _) fun _ _ => ?_
              split <;> rfl
  | bad e => intro n bs; rfl
  | crash => intro n bs; rfl

theorem readStringM_same (bs : Bytes) : (readStringM bs).1 = readString bs := by
  unfold readStringM readString
  rw [mbind_run, bind_run]
  simp only [Metered.free]
  cases readUvarint bs with
  | ok n r =>
    simp only
    rw [mbind_run, bind_run]
    simp only [Metered.take]
    cases alloc n r with
    | ok u r' =>
      simp only
      rw [mbind_run, bind_run]
      simp only [Metered.free]
      cases readN n r' with
      | ok b r'' =>
        simp only
        cases strOfBytes? b <;> rfl
      | more => rfl
      | err e x => rfl
      | panic => rfl
    | more => rfl
    | err e x => rfl
    | panic => rfl
  | more => rfl
  | err e x => rfl
  | panic => rfl

/-! ### Messages that come in pieces -/

/-- More bytes do not change what has ended well, and never take less memory. -/
structure MonoM (m : Metered α) : Prop where
  ok : ∀ {bs a r k}, m bs = (.ok a r, k) → ∀ ext, m (bs ++ ext) = (.ok a (r ++ ext), k)
  le : ∀ bs ext, (m bs).2 ≤ (m (bs ++ ext)).2

theorem mbind_le (m : Metered α) (f : α → Metered β) (bs : Bytes) : (m bs).2 ≤ (m.bind f bs).2 := by
  rw [mbind_run]
  cases m bs with
  | mk o k => cases o <;> simp

theorem MonoM.bind {m : Metered α} {f : α → Metered β} (h : MonoM m) (hf : ∀ a, MonoM (f a)) : MonoM (m.bind f) := by
  constructor
  · intro bs b rest k hb ext
    obtain ⟨a, r, k1, k2, h1, h2, rfl⟩ := mbind_ok hb
    rw [mbind_run, h.ok h1 ext]
    simp only [(hf a).ok h2 ext]
  · intro bs ext
    cases hm : m bs with
    | mk o k =>
      cases o with
      | ok a r =>
        rw [mbind_run, hm, mbind_run, h.ok hm ext]
        exact Nat.add_le_add_left ((hf a).le r ext) k
      | more | err | panic =>
        have e : (m.bind f bs).2 = (m bs).2 := by rw [mbind_run, hm]
        rw [e]
        exact Nat.le_trans (h.le bs ext) (mbind_le m f _)

theorem MonoM.free {r : Reader α} (h : Mono r) : MonoM (Metered.free r) := by
  constructor
  · intro bs a rest k hb ext
    simp only [Metered.free, Prod.mk.injEq] at hb ⊢
    exact ⟨h.ok hb.1 ext, hb.2⟩
  · intro bs ext
    exact Nat.le_refl _

theorem MonoM.take (n : Nat) : MonoM (Metered.take n) := by
  constructor
  · intro bs a rest k hb ext
    simp only [Metered.take, alloc, Prod.mk.injEq] at hb ⊢
    obtain ⟨h1, h2⟩ := hb
    split at h1
    · cases h1
      rw [if_pos ‹_›]
      exact ⟨rfl, h2⟩
    · cases h1
  · intro bs ext
    exact Nat.le_refl _

theorem MonoM.nums (w n : Nat) : MonoM (loadNumsM w n) :=
  (MonoM.take _).bind fun _ => MonoM.free ((readN_mono _).bind fun _ => Mono.pure _)

theorem MonoM.into (p : StringPool) : MonoM p.readIntoM := by
  constructor
  · intro bs a rest k hb ext
    simp only [StringPool.readIntoM, StringPool.readInto, Prod.mk.injEq] at hb ⊢
    obtain ⟨h1, h2⟩ := hb
    cases hu : readUvarint bs with
    | ok n r =>
      rw [hu] at h1 h2
      rw [readUvarint_mono.ok hu ext]
      simp only at h1 h2 ⊢
      refine ⟨?_, h2⟩
      cases ha : p.allocate n with
      | ok x =>
        obtain ⟨p', q⟩ := x
        rw [ha] at h1
        simp only at h1 ⊢
        cases hr : readN n r with
        | ok s r' =>
          rw [hr] at h1
          rw [(readN_mono n).ok hr ext]
          simp only at h1 ⊢
          cases hf : p'.fill q s with
          | ok p2 => rw [hf] at h1; simp only at h1 ⊢; cases h1; rfl
          | err e => rw [hf] at h1; cases h1
          | panic => rw [hf] at h1; cases h1
        | more => rw [hr] at h1; cases h1
        | err e x => rw [hr] at h1; cases h1
        | panic => rw [hr] at h1; cases h1
      | err e => rw [ha] at h1; cases h1
      | panic => rw [ha] at h1; cases h1
    | more => rw [hu] at h1; cases h1
    | err e x => rw [hu] at h1; cases h1
    | panic => rw [hu] at h1; cases h1
  · intro bs ext
    simp only [StringPool.readIntoM]
    cases hu : readUvarint bs with
    | ok n r => rw [readUvarint_mono.ok hu ext]; exact Nat.le_refl _
    | more | err | panic => exact Nat.zero_le _

theorem MonoM.rows : ∀ (n : Nat) (p : StringPool), MonoM (StringPool.loadRowsM n p)
  | 0, p => MonoM.free (Mono.pure _)
  | n + 1, p => (MonoM.into p).bind fun p' => MonoM.rows n p'

theorem demand_mono (p : Plan) : ∀ n, MonoM (p.demand n) := by
  have pur : MonoM (Metered.free (Reader.pure ())) := MonoM.free (Mono.pure _)
  have fail : ∀ e, MonoM (Metered.free (Reader.fail e : Reader Unit)) := fun e => MonoM.free (Mono.fail _)
  induction p with
  | num t => intro n; exact (MonoM.nums _ _).bind fun _ => pur
  | string => intro n; exact (MonoM.take _).bind fun _ => (MonoM.rows _ _).bind fun _ => pur
  | fixed k => intro n; exact (MonoM.take _).bind fun _ => (MonoM.free (readMany_mono (readN_mono _) _)).bind fun _ => pur
  | date tz => intro n; exact (MonoM.nums _ _).bind fun _ => pur
  | datetime tz => intro n; exact (MonoM.nums _ _).bind fun _ => pur
  | dt64 p tz => intro n; exact (MonoM.nums _ _).bind fun _ => pur
  | ip k => intro n; exact (MonoM.take _).bind fun _ => (MonoM.free (readN_mono _)).bind fun _ => pur
  | nullable p ih => intro n; exact (MonoM.take _).bind fun _ => (MonoM.free (readN_mono _)).bind fun _ => ih _
  | array p ih => intro n; exact (MonoM.nums _ _).bind fun _ => ih _
  | map k v ih1 ih2 => intro n; exact (MonoM.nums _ _).bind fun _ => (ih1 _).bind fun _ => ih2 _
  | decimal p s nb => intro n; exact (MonoM.nums _ _).bind fun _ => pur
  | enum w items => intro n; exact (MonoM.nums _ _).bind fun _ => pur
  | simpleAgg f p ih => intro n; exact ih n
  | lowCard p ih =>
    intro n
    unfold Plan.demand
    split
    · exact (ih 0).bind fun _ => (MonoM.nums _ _).bind fun _ => pur
    · refine (MonoM.free (readLE_mono 8)).bind fun _ => ?_
      split
      · exact fail _
      · refine (MonoM.free (readLE_mono 8)).bind fun _ => ?_
        split
        · exact fail _
        · split
          · exact fail _
          · split
            · exact fail _
            · refine (MonoM.free (readLE_mono 8)).bind fun _ => (ih _).bind fun _ => (MonoM.free (readLE_mono 8)).bind fun _ =>
                (MonoM.nums _ _).bind fun _ => ?_
              split
              · exact pur
              · exact MonoM.free Mono.panic'
  | bad e => intro n; exact fail _
  | crash => intro n; exact MonoM.free Mono.panic'

theorem readStringM_mono : MonoM readStringM := by
  refine (MonoM.free readUvarint_mono).bind fun n => (MonoM.take _).bind fun _ => (MonoM.free (readN_mono _)).bind fun b => ?_
  split
  · exact MonoM.free (Mono.pure _)
  · exact MonoM.free (Mono.fail _)

/-- Storing strings one after the other. -/
theorem StringPool.pushAll_frugal : ∀ (ss : List Bytes) {p p' : StringPool} {xs : List Bytes} {u : Nat}, Inv p xs → Frugal p u →
    p.pushAll ss = .ok p' → Frugal p' (u + (ss.map List.length).sum) ∧ p'.capacity = p.capacity
  | [], p, p', xs, u, hi, hf, h => by
    cases h
    exact ⟨by simpa using hf, rfl⟩
  | s :: ss, p, p', xs, u, hi, hf, h => by
    rw [StringPool.pushAll] at h
    rcases hi.push s with ⟨e, _⟩ | ⟨p1, e, hi1, _⟩
    · rw [e] at h; cases h
    · rw [e] at h
      simp only at h
      unfold StringPool.push at e
      rcases hi.allocate s.length with ⟨e', _⟩ | ⟨p2, q, s0, e', hq, hl, hi2, hc, hp⟩
      · rw [e'] at e; cases e
      · rw [e'] at e
        simp only at e
        obtain ⟨f1, _, f3⟩ := hf.allocate hi e'
        obtain ⟨g1, g2, g3⟩ := fill_lengths (hi2.inside q (by rw [hp]; simp)) e
        obtain ⟨r1, r2⟩ := pushAll_frugal ss hi1 (f1.of_lengths g1 g2 g3) h
        rw [List.map_cons, List.sum_cons, ← Nat.add_assoc]
        exact ⟨r1, by rw [r2, g3, f3]⟩

end CH
