import Verif.Lemmas.Demand
import Verif.Props.Wire
import Verif.Lemmas.Block

/-! What has been read is kept: the memory asked for from below. -/

namespace CH

/-- All but `c` of the bytes read have got memory. -/
def Keeps (c : Nat) (m : Metered α) : Prop := ∀ bs a rest k, m bs = (.ok a rest, k) → bs.length ≤ rest.length + k + c

/-- The parts of a plan that are of low cardinality. -/
def Plan.lowCards : Plan → Nat
  | .nullable p | .array p | .simpleAgg _ p => p.lowCards
  | .map k v => k.lowCards + v.lowCards
  | .lowCard p => p.lowCards + 1
  | _ => 0

theorem Keeps.bind {c d : Nat} {m : Metered α} {f : α → Metered β} (h : Keeps c m) (hf : ∀ a, Keeps d (f a)) : Keeps (c + d) (m.bind f) := by
  intro bs b rest k hb
  obtain ⟨a, r, k1, k2, h1, h2, rfl⟩ := mbind_ok hb
  have := h _ _ _ _ h1
  have := hf a _ _ _ _ h2
  omega

theorem Keeps.mono {c d : Nat} {m : Metered α} (h : Keeps c m) (hcd : c ≤ d) : Keeps d m := by
  intro bs a rest k hb
  have := h _ _ _ _ hb
  omega

theorem Keeps.pure (a : α) : Keeps 0 (Metered.free (Reader.pure a)) := by
  intro bs b rest k h
  simp only [Metered.free, rpure_run, Prod.mk.injEq] at h
  obtain ⟨h, rfl⟩ := h
  cases h
  omega

theorem Keeps.fail (e : Err) : Keeps 0 (Metered.free (Reader.fail e : Reader α)) := by
  intro bs b rest k h
  simp [Metered.free] at h

theorem Keeps.panic : Keeps 0 (Metered.free (Reader.panic : Reader α)) := by
  intro bs b rest k h
  simp [Metered.free] at h

/-- Asking for memory and reading as many bytes. -/
theorem Keeps.takeRead {n : Nat} {r : Reader α} {f : α → Metered β} {d : Nat} (h : ∀ bs a rest, r bs = .ok a rest → n + rest.length = bs.length)
    (hf : ∀ a, Keeps d (f a)) : Keeps d (Metered.bind (.take n) fun _ => Metered.bind (.free r) f) := by
  intro bs a rest k hb
  obtain ⟨u, r1, k1, k2, h1, h2, rfl⟩ := mbind_ok hb
  obtain ⟨b, r2, k3, k4, h3, h4, rfl⟩ := mbind_ok h2
  simp only [Metered.take, alloc, Prod.mk.injEq] at h1
  obtain ⟨h1, rfl⟩ := h1
  simp only [Metered.free, Prod.mk.injEq] at h3
  obtain ⟨h3, rfl⟩ := h3
  split at h1
  · cases h1
    rw [if_pos ‹_›]
    have := h _ _ _ h3
    have := hf b _ _ _ _ h4
    omega
  · cases h1

theorem Keeps.nums (w n : Nat) : Keeps 0 (loadNumsM w n) := by
  intro bs a rest k hb
  obtain ⟨u, r1, k1, k2, h1, h2, rfl⟩ := mbind_ok hb
  simp only [Metered.take, alloc, Prod.mk.injEq] at h1
  obtain ⟨h1, rfl⟩ := h1
  simp only [Metered.free, Prod.mk.injEq] at h2
  obtain ⟨h2, rfl⟩ := h2
  split at h1
  · cases h1
    rw [if_pos ‹_›]
    obtain ⟨b, r, h3, h4⟩ := bind_eq_ok h2
    cases h4
    have := readN_used h3
    omega
  · cases h1

theorem Keeps.word : Keeps 8 (Metered.free (readLE 8)) := by
  intro bs a rest k h
  simp only [Metered.free, Prod.mk.injEq] at h
  obtain ⟨h, rfl⟩ := h
  obtain ⟨b, r, h1, h2⟩ := bind_eq_ok h
  cases h2
  have := readN_used h1
  omega

theorem readUvarint_short {bs r : Bytes} {n : Nat} (h : readUvarint bs = .ok n r) : bs.length ≤ r.length + 11 := by
  obtain ⟨c, l, rfl, hc, hl, _, _⟩ := Props.C02_uvarint_sound bs r n h
  rw [Props.C02_uvarint_total_partial c l r hc hl] at h
  by_cases h11 : 11 ≤ c.length
  · rw [if_pos h11] at h; cases h
  · simp; omega

namespace StringPool

/-- What is stored has room. -/
def Roomy (p : StringPool) (used : Nat) : Prop :=
  (p.chunks = [] ∧ used = 0) ∨ ∃ init b, p.chunks = init ++ [b] ∧ used ≤ (init.map List.length).sum + p.position ∧ p.position ≤ b.length

theorem Roomy.room {p : StringPool} {u : Nat} (h : Roomy p u) : u ≤ p.room := by
  rcases h with ⟨_, h⟩ | ⟨init, b, h, h1, h2⟩
  · omega
  · simp only [StringPool.room, h, List.map_append, List.sum_append, List.map_cons, List.map_nil, List.sum_cons, List.sum_nil]
    omega

theorem Roomy.allocate {p p' : StringPool} {xs : List Bytes} {q : StringPtr} {u n : Nat} (hi : Inv p xs) (h : Roomy p u)
    (ha : p.allocate n = .ok (p', q)) : Roomy p' (u + n) ∧ p.room ≤ p'.room := by
  unfold StringPool.allocate at ha
  rcases hi.room n with ⟨b, hb, hs⟩ | hn
  · rw [allocate_old hb (getLast_small hi hb) hs] at ha
    cases ha
    refine ⟨.inr ?_, Nat.le_refl _⟩
    rcases h with ⟨h0, _⟩ | ⟨init, b', h0, h1, h2⟩
    · rw [h0] at hb; cases hb
    · have : b' = b := by rw [h0] at hb; simpa using hb
      subst this
      exact ⟨init, b', h0, by dsimp only; omega, hs⟩
  · rw [allocate_new hn] at ha
    simp only at ha
    split at ha
    · cases ha
      refine ⟨.inr ⟨p.chunks, _, rfl, ?_, ?_⟩, ?_⟩
      · dsimp only
        have := h.room
        simp only [StringPool.room] at this
        omega
      · simp; omega
      · simp [StringPool.room]
    · cases ha

theorem Roomy.of_lengths {p p' : StringPool} {u : Nat} (h : Roomy p u) (hl : p'.chunks.map List.length = p.chunks.map List.length)
    (hp : p'.position = p.position) : Roomy p' u := by
  rcases h with ⟨h0, h1⟩ | ⟨init, b, h0, h1, h2⟩
  · exact .inl ⟨by rw [h0] at hl; simpa using hl, h1⟩
  · refine .inr ?_
    rcases List.eq_nil_or_concat p'.chunks with e | ⟨init', b', e⟩
    · rw [e, h0] at hl; simp at hl
    · rw [List.concat_eq_append] at e
      rw [e, h0, List.map_append, List.map_append] at hl
      obtain ⟨e1, e2⟩ := List.append_inj' hl (by simp)
      have e3 : b'.length = b.length := by simpa using e2
      exact ⟨init', b', e, by rw [e1, hp]; exact h1, by rw [e3, hp]; exact h2⟩

theorem readIntoM_keeps {p p' : StringPool} {xs : List Bytes} {u k : Nat} {bs rest : Bytes} (hi : Inv p xs) (hf : Roomy p u)
    (h : p.readIntoM bs = (.ok p' rest, k)) : ∃ n, bs.length ≤ n + 11 + rest.length ∧ Roomy p' (u + n) ∧ p.room + k = p'.room ∧ ∃ ys, Inv p' ys := by
  have hinv : ∃ ys, Inv p' ys := by
    rcases readInto_spec hi bs with ⟨e, _⟩ | ⟨p2, s, r, e, _, h2, _⟩ | ⟨e, _⟩ | ⟨x, r, e, _⟩
    all_goals (simp only [readIntoM, Prod.mk.injEq] at h; rw [h.1] at e; cases e)
    exact ⟨_, h2⟩
  simp only [readIntoM, Prod.mk.injEq] at h
  obtain ⟨h1, h2⟩ := h
  unfold readInto at h1
  cases hu : readUvarint bs with
  | ok n r =>
    rw [hu] at h1 h2
    simp only at h1 h2
    rcases hi.allocate n with ⟨e, _⟩ | ⟨p1, q, s0, e, hq, hl, hi1, hc, hp⟩
    · rw [e] at h1; cases h1
    · rw [e] at h1 h2
      simp only at h1 h2
      obtain ⟨f1, f2⟩ := hf.allocate hi e
      cases hr : readN n r with
      | ok s r' =>
        rw [hr] at h1
        simp only at h1
        cases hfl : p1.fill q s with
        | ok p2 =>
          rw [hfl] at h1
          simp only at h1
          cases h1
          obtain ⟨g1, g2, g3⟩ := fill_lengths (hi1.inside q (by rw [hp]; simp)) hfl
          refine ⟨n, ?_, f1.of_lengths g1 g2, ?_, hinv⟩
          · have := readN_used hr
            have := readUvarint_short hu
            omega
          · have : p'.room = p1.room := by simp only [StringPool.room, g1]
            rw [this]
            omega
        | err x => rw [hfl] at h1; cases h1
        | panic => rw [hfl] at h1; cases h1
      | more => rw [hr] at h1; cases h1
      | err x y => rw [hr] at h1; cases h1
      | panic => rw [hr] at h1; cases h1
  | more => rw [hu] at h1; cases h1
  | err x y => rw [hu] at h1; cases h1
  | panic => rw [hu] at h1; cases h1

theorem loadRowsM_keeps : ∀ (n : Nat) {p p' : StringPool} {xs : List Bytes} {u k : Nat} {bs rest : Bytes}, Inv p xs → Roomy p u →
    loadRowsM n p bs = (.ok p' rest, k) → ∃ m, bs.length ≤ m + 11 * n + rest.length ∧ Roomy p' (u + m) ∧ p.room + k = p'.room
  | 0, p, p', xs, u, k, bs, rest, hi, hf, h => by
    simp only [loadRowsM, Metered.free, rpure_run, Prod.mk.injEq] at h
    obtain ⟨h, rfl⟩ := h
    cases h
    exact ⟨0, by omega, hf, by omega⟩
  | n + 1, p, p', xs, u, k, bs, rest, hi, hf, h => by
    obtain ⟨p1, r, k1, k2, h1, h2, rfl⟩ := mbind_ok h
    obtain ⟨a, ha, hf1, hr1, ys, hi1⟩ := readIntoM_keeps hi hf h1
    obtain ⟨m, hm, hf2, hr2⟩ := loadRowsM_keeps n hi1 hf1 h2
    exact ⟨a + m, by omega, by rw [← Nat.add_assoc]; exact hf2, by omega⟩

end StringPool

theorem string_keeps (size : Nat) : Keeps 0 (Plan.string.demand size) := by
  intro bs a rest k h
  unfold Plan.demand at h
  obtain ⟨u, r1, k1, k2, h1, h2, rfl⟩ := mbind_ok h
  obtain ⟨p, r2, k3, k4, h3, h4, rfl⟩ := mbind_ok h2
  simp only [Metered.take, alloc, Prod.mk.injEq] at h1
  obtain ⟨h1, rfl⟩ := h1
  simp only [Metered.free, rpure_run, Prod.mk.injEq] at h4
  obtain ⟨h4, rfl⟩ := h4
  cases h4
  split at h1
  · cases h1
    rw [if_pos ‹_›]
    obtain ⟨m, hm, hf, hr⟩ := StringPool.loadRowsM_keeps size (StringPool.Inv.empty size) (u := 0) (.inl ⟨rfl, rfl⟩) h3
    have hroom := hf.room
    have h0 : (StringPool.mk [] [] 0 size).room = 0 := rfl
    omega
  · cases h1

theorem demand_keeps (p : Plan) : ∀ n, Keeps (32 * p.lowCards) (p.demand n) := by
  have pur : Keeps 0 (Metered.free (Reader.pure ())) := Keeps.pure _
  induction p with
  | num t => intro n; exact (Keeps.nums _ _).bind fun _ => pur
  | string => intro n; exact string_keeps n
  | fixed k => intro n; exact Keeps.takeRead (fun _ _ _ h => readMany_used h) fun _ => pur
  | date tz => intro n; exact (Keeps.nums _ _).bind fun _ => pur
  | datetime tz => intro n; exact (Keeps.nums _ _).bind fun _ => pur
  | dt64 p tz => intro n; exact (Keeps.nums _ _).bind fun _ => pur
  | ip k => intro n; exact Keeps.takeRead (fun _ _ _ h => readN_used h) fun _ => pur
  | nullable p ih => intro n; exact Keeps.takeRead (fun _ _ _ h => readN_used h) fun _ => ih _
  | array p ih =>
    intro n
    exact ((Keeps.nums _ _).bind fun _ => ih _).mono (by simp only [Plan.lowCards]; omega)
  | map k v ih1 ih2 =>
    intro n
    exact ((Keeps.nums _ _).bind fun _ => (ih1 _).bind fun _ => ih2 _).mono (by simp only [Plan.lowCards]; omega)
  | decimal p s nb => intro n; exact (Keeps.nums _ _).bind fun _ => pur
  | enum w items => intro n; exact (Keeps.nums _ _).bind fun _ => pur
  | simpleAgg f p ih => intro n; exact ih n
  | lowCard p ih =>
    intro n
    unfold Plan.demand
    split
    · exact ((ih 0).bind fun _ => (Keeps.nums _ _).bind fun _ => pur).mono (by simp only [Plan.lowCards]; omega)
    · refine (Keeps.word.bind (d := 24 + 32 * p.lowCards) fun _ => ?_).mono (by simp only [Plan.lowCards]; omega)
      split
      · exact (Keeps.fail _).mono (by omega)
      · refine (Keeps.word.bind (d := 16 + 32 * p.lowCards) fun _ => ?_).mono (by omega)
        split
        · exact (Keeps.fail _).mono (by omega)
        · split
          · exact (Keeps.fail _).mono (by omega)
          · split
            · exact (Keeps.fail _).mono (by omega)
            · refine (Keeps.word.bind fun _ => (ih _).bind fun _ => Keeps.word.bind fun _ => (Keeps.nums _ _).bind (d := 0) fun _ => ?_).mono (by omega)
              split
              · exact pur
              · exact Keeps.panic
  | bad e => intro n; exact (Keeps.fail _).mono (by omega)
  | crash => intro n; exact Keeps.panic.mono (by omega)

theorem readColumnM_lin (known : Tz → Bool) (tz : Tz) (size : Nat) : Lin 184 (readColumnM known tz size) :=
  readStringM_lin.bind fun _ => readStringM_lin.bind fun _ => demand_lin _ _

theorem readColumnM_mono (known : Tz → Bool) (tz : Tz) (size : Nat) : MonoM (readColumnM known tz size) :=
  readStringM_mono.bind fun _ => readStringM_mono.bind fun _ => demand_mono _ _

theorem pure_lin (a : α) : Lin K (Metered.free (Reader.pure a)) := by
  intro bs b rest k h
  simp only [Metered.free, rpure_run, Prod.mk.injEq] at h
  obtain ⟨h, rfl⟩ := h
  cases h
  omega

theorem readColumnsM_lin (known : Tz → Bool) (tz : Tz) (rows : Nat) : ∀ n, Lin 184 (readColumnsM known tz rows n)
  | 0 => pure_lin ()
  | n + 1 => (readColumnM_lin known tz rows).bind fun _ => readColumnsM_lin known tz rows n

theorem readColumnsM_mono (known : Tz → Bool) (tz : Tz) (rows : Nat) : ∀ n, MonoM (readColumnsM known tz rows n)
  | 0 => MonoM.free (Mono.pure ())
  | n + 1 => (readColumnM_mono known tz rows).bind fun _ => readColumnsM_mono known tz rows n

theorem rawLoadM_lin (known : Tz → Bool) (tz : Tz) : Lin 184 (rawLoadM known tz) :=
  (Lin.free readBlockInfo_fwd).bind fun _ => (Lin.free readUvarint_fwd).bind fun _ => (Lin.free readUvarint_fwd).bind fun _ =>
    readColumnsM_lin known tz _ _

theorem rawLoadM_mono (known : Tz → Bool) (tz : Tz) : MonoM (rawLoadM known tz) :=
  (MonoM.free readBlockInfo_mono).bind fun _ => (MonoM.free readUvarint_mono).bind fun _ => (MonoM.free readUvarint_mono).bind fun _ =>
    readColumnsM_mono known tz _ _

theorem mbind_of_ok {m : Metered α} {f : α → Metered β} {bs r : Bytes} {a : α} (h : (m bs).1 = .ok a r) : (m.bind f bs).1 = (f a r).1 := by
  rw [mbind_run]
  cases e : m bs with
  | mk x k => rw [e] at h; simp only at h; subst h; rfl

theorem readColumnM_ok {known : Tz → Bool} {tz : Tz} {size : Nat} {bs rest : Bytes} {c : NCol} (h : readColumn known tz size bs = .ok c rest) :
    (readColumnM known tz size bs).1 = .ok () rest := by
  obtain ⟨s, r, h1, h2⟩ := bind_eq_ok h
  obtain ⟨t, r', h3, h4⟩ := bind_eq_ok h2
  obtain ⟨d, r2, h5, h6⟩ := bind_eq_ok h4
  cases h6
  unfold readColumnM
  rw [mbind_of_ok ((readStringM_same bs).trans h1), mbind_of_ok ((readStringM_same r).trans h3)]
  have e := demand_same (resolve known tz t.toList) size r'
  have e2 : ((resolve known tz t.toList).load size r') = .ok d rest := h5
  rw [e2] at e
  cases hd : ((resolve known tz t.toList).demand size r').1 with
  | ok u r3 => rw [hd] at e; simp only [Res.done] at e; cases e; rfl
  | more => rw [hd] at e; cases e
  | err x y => rw [hd] at e; cases e
  | panic => rw [hd] at e; cases e

theorem readColumnsM_ok {known : Tz → Bool} {tz : Tz} {rows : Nat} : ∀ (n : Nat) {bs rest : Bytes} {b b' : Block},
    readColumns known tz rows n b bs = .ok b' rest → (readColumnsM known tz rows n bs).1 = .ok () rest
  | 0, bs, rest, b, b', h => by cases h; rfl
  | n + 1, bs, rest, b, b', h => by
    obtain ⟨c, r, h1, h2⟩ := bind_eq_ok h
    obtain ⟨b1, r1, h3, h4⟩ := bind_eq_ok h2
    have hr : r1 = r := by
      unfold Reader.lift at h3
      cases hb : b.append c <;> rw [hb] at h3 <;> cases h3
      rfl
    subst hr
    unfold readColumnsM
    rw [mbind_of_ok (readColumnM_ok h1)]
    exact readColumnsM_ok n h4

theorem rawLoadM_ok {known : Tz → Bool} {tz : Tz} {bs rest : Bytes} {b : Block} (h : rawLoad known tz bs = .ok b rest) :
    (rawLoadM known tz bs).1 = .ok () rest := by
  obtain ⟨i, r, h1, h2⟩ := bind_eq_ok h
  obtain ⟨nc, r', h3, h4⟩ := bind_eq_ok h2
  obtain ⟨nr, r2, h5, h6⟩ := bind_eq_ok h4
  unfold rawLoadM
  rw [mbind_of_ok (m := Metered.free readBlockInfo) h1, mbind_of_ok (m := Metered.free readUvarint) h3,
    mbind_of_ok (m := Metered.free readUvarint) h5]
  exact readColumnsM_ok nc h6

end CH
