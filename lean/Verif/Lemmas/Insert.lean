import Verif.Lemmas.Native
import Verif.Lemmas.Cast

/-! What an INSERT sends follows the native format. -/

namespace CH

open Spec

variable {parse : IpKind → String → Option Bytes} {tz : Tz}

theorem wrote_body {p : Col} {n : Nat} {b : Bytes} (h : WroteRows tz p n b) (hc : Common p.sqlType) (hk : KeysHash p.sqlType) (hg : Flagged p) :
    ∃ vs, vs.length = n ∧ RowsAre p 0 vs ∧ Body tz p.sqlType vs b := by
  induction h with
  | base hs hb =>
    obtain ⟨b', vs, h1, h2, h3, h4⟩ := save_body hs hc hk hg
    rw [hb] at h1
    injection h1 with h1
    subst h1
    exact ⟨vs, h2, h3, h4⟩
  | @dt64 p z xs n hn hx =>
    refine ⟨xs.map fun x => .dt64 (toSigned 8 x) p z, by simp [hn], rows_map fun i hi => by rw [Col.at, idx_ok hi]; rfl,
      .plain trivial (inTurn_map fun x hx' => ⟨rfl, rfl, intWord_of_word (by decide) (word_put (hx x hx'))⟩)⟩
  | @nullable nulls c n b hn _ ih =>
    obtain ⟨W, wl, wr, wB⟩ := ih hc hk hg.2
    refine ⟨List.zipWith (orNull c.sqlType) nulls W, by rw [List.length_zipWith]; omega, fun i v hv => ?_,
      .nullable (ws := W) (by rw [List.length_zipWith]; omega) (by rw [List.length_zipWith]; omega) (fun i v w f hv hw hf => ?_) wB⟩
    · obtain ⟨f, w, hf, hw, rfl⟩ := zipWith_get hv
      rw [Nat.zero_add]
      exact at_nullable hf (by simpa using wr i w hw)
    · obtain ⟨f', w', hf', hw', rfl⟩ := zipWith_get hv
      rw [hf] at hf'; rw [hw] at hw'
      cases hf'; cases hw'
      exact orNull_cases (hg.1 f (List.mem_of_getElem? hf))
  | @array offs c n b hn hp ho _ ih =>
    obtain ⟨W, wl, wr, wB⟩ := ih hc hk hg
    have o1 : (0 :: offs).Pairwise (· ≤ ·) := List.pairwise_cons.mpr ⟨fun _ _ => Nat.zero_le _, hp⟩
    have o2 : ∀ o ∈ offs, o ≤ W.length := fun o h => by rw [wl]; exact le_lastOff hp h
    obtain ⟨c1, c2⟩ := ends_rowsCut (W := W) o1 o2
    rw [last_cons, ← wl] at c2
    have c2 : (rowsCut 0 offs W).flatten = W := by simpa using c2
    refine ⟨(rowsCut 0 offs W).map (.array c.sqlType), by rw [List.length_map, rowsCut_length, hn], fun i v hv => ?_,
      .array ?_ (by rw [c2]; exact wB)⟩
    · rw [List.getElem?_map] at hv
      obtain ⟨p, hp, rfl⟩ := Option.map_eq_some_iff.mp hv
      rw [Nat.zero_add]
      exact array_cell wr o1 o2 hp
    · rw [c1]
      exact words_put ho
  | agg _ ih =>
    obtain ⟨vs, h1, h2, h3⟩ := ih hc hk hg
    exact ⟨vs, h1, fun i v hv => by rw [Col.at]; exact h2 i v hv, .agg h3⟩

theorem wrote_nothing {p : Col} {b : Bytes} (h : WroteRows tz p 0 b) : b = [] := by
  generalize hn : 0 = n at h
  induction h with
  | base hs hb =>
    subst hn
    rw [save_nothing hs] at hb
    injection hb with hb
    exact hb.symm
  | dt64 h _ =>
    subst hn
    rw [List.length_eq_zero_iff.mp h]; rfl
  | nullable h _ ih =>
    subst hn
    rw [List.length_eq_zero_iff.mp h, ih rfl]; rfl
  | array h _ _ _ ih =>
    subst hn
    rw [List.length_eq_zero_iff.mp h] at ih ⊢
    rw [ih rfl]; rfl
  | agg _ ih => exact ih hn

theorem wrote_stream {p : Col} {n : Nat} {b : Bytes} (h : WroteRows tz p n b) (hf : Flat p.sqlType) (hk : KeysHash p.sqlType) (hg : Flagged p) :
    ∃ vs, vs.length = n ∧ RowsAre p 0 vs ∧ Stream tz p.sqlType vs b := by
  have common : Common p.sqlType → ∃ vs, vs.length = n ∧ RowsAre p 0 vs ∧ Stream tz p.sqlType vs b := by
    intro hc
    cases n with
    | zero =>
      rw [wrote_nothing h]
      exact ⟨[], rfl, by intro i v hv; simp at hv, .none⟩
    | succ n =>
      obtain ⟨vs, h1, h2, h3⟩ := wrote_body h hc hk hg
      exact ⟨vs, h1, h2, .some (p := []) (by intro e; subst e; simp at h1) (prefix_common hc) h3⟩
  cases h with
  | base hs hb =>
    obtain ⟨b', vs, h1, h2, h3, h4⟩ := save_stream hs hf hk hg
    rw [hb] at h1
    injection h1 with h1
    subst h1
    exact ⟨vs, h2, h3, h4⟩
  | _ => exact common hf

theorem sent_laid {c d : Col} {t : SqlType} {n : Nat} (h : Sent parse tz c t d n) (hf : Flat t) (hk : KeysHash t) (hg : Flagged c) :
    ∃ b vs, d.save 0 n = .ok b ∧ vs.length = n ∧ Stream tz t vs b ∧
      ∀ i v w, i < n → cell c i = some v → convert parse tz t v = some w → vs[i]? = some w := by
  obtain ⟨p, b, m1, m2, m3, m4, m5⟩ := h.mirror
  subst m3
  obtain ⟨vs, h1, h2, h3⟩ := wrote_stream m1 hf hk (m2 hg)
  refine ⟨b, vs, m4, h1, h3, fun i v w hi hc hw => ?_⟩
  have e := List.getElem?_eq_getElem (l := vs) (i := i) (by omega)
  have e1 := h2 i _ e
  rw [Nat.zero_add, m5 i v w hi hc hw] at e1
  injection e1 with e1
  rw [e, e1]

theorem slice_body {p : Col} {s e : Nat} {b : Bytes} (h : WroteSlice tz p s e b) (hc : Common p.sqlType) (hk : KeysHash p.sqlType)
    (hg : Flagged p) : ∃ vs, vs.length = e - s ∧ RowsAre p s vs ∧ Body tz p.sqlType vs b := by
  induction h with
  | base hs hb =>
    obtain ⟨b', vs, h1, h2, h3, h4⟩ := save_body hs hc hk hg
    rw [hb] at h1
    injection h1 with h1
    subst h1
    exact ⟨vs, h2, h3, h4⟩
  | @dt64 p z xs s e hse he hx =>
    refine ⟨((xs.drop s).take (e - s)).map fun x => .dt64 (toSigned 8 x) p z, by simp; omega, fun i v hv => ?_,
      .plain trivial (inTurn_map fun x hx' => ⟨rfl, rfl, intWord_of_word (by decide)
        (word_put (hx x (List.mem_of_mem_drop (List.mem_of_mem_take hx'))))⟩)⟩
    rw [List.getElem?_map] at hv
    obtain ⟨x, h1, rfl⟩ := Option.map_eq_some_iff.mp hv
    obtain ⟨h2, h1⟩ := List.getElem?_eq_some_iff.mp h1
    rw [List.length_take, List.length_drop] at h2
    rw [List.getElem_take, List.getElem_drop] at h1
    rw [Col.at, idx_ok (by omega), obind_ok, h1]; rfl
  | @nullable nulls c s e b hse he _ ih =>
    obtain ⟨W, wl, wr, wB⟩ := ih hc hk hg.2
    have hl : ((nulls.drop s).take (e - s)).length = e - s := by rw [List.length_take, List.length_drop]; omega
    refine ⟨List.zipWith (orNull c.sqlType) ((nulls.drop s).take (e - s)) W, by rw [List.length_zipWith]; omega, fun i v hv => ?_,
      .nullable (ws := W) (by rw [List.length_zipWith]; omega) (by rw [List.length_zipWith]; omega) (fun i v w f hv hw hf => ?_) wB⟩
    · obtain ⟨f, w, hf, hw, rfl⟩ := zipWith_get hv
      obtain ⟨h2, h1⟩ := List.getElem?_eq_some_iff.mp hf
      rw [List.getElem_take, List.getElem_drop] at h1
      exact at_nullable (by rw [List.getElem?_eq_getElem (by omega), h1]) (wr i w hw)
    · obtain ⟨f', w', hf', hw', rfl⟩ := zipWith_get hv
      rw [hf] at hf'; rw [hw] at hw'
      cases hf'; cases hw'
      exact orNull_cases (hg.1 f (List.mem_of_mem_drop (List.mem_of_mem_take (List.mem_of_getElem? hf))))
  | agg _ ih =>
    obtain ⟨vs, h1, h2, h3⟩ := ih hc hk hg
    exact ⟨vs, h1, fun i v hv => by rw [Col.at]; exact h2 i v hv, .agg h3⟩

theorem slice_stream {p : Col} {s e : Nat} {b : Bytes} (h : WroteSlice tz p s e b) (hse : s < e) (hf : Flat p.sqlType) (hk : KeysHash p.sqlType)
    (hg : Flagged p) : ∃ vs, vs.length = e - s ∧ RowsAre p s vs ∧ Stream tz p.sqlType vs b := by
  have common : Common p.sqlType → ∃ vs, vs.length = e - s ∧ RowsAre p s vs ∧ Stream tz p.sqlType vs b := by
    intro hc
    obtain ⟨vs, h1, h2, h3⟩ := slice_body h hc hk hg
    exact ⟨vs, h1, h2, .some (p := []) (by intro e; subst e; simp at h1; omega) (prefix_common hc) h3⟩
  cases h with
  | base hs hb =>
    obtain ⟨b', vs, h1, h2, h3, h4⟩ := save_stream hs hf hk hg
    rw [hb] at h1
    injection h1 with h1
    subst h1
    exact ⟨vs, h2, h3, h4⟩
  | _ => exact common hf

theorem sent_slice {c d : Col} {t : SqlType} {n s e : Nat} (h : Sent parse tz c t d n) (hf : Flat t) (hk : KeysHash t) (hg : Flagged c)
    (hl : ListFree t) (hse : s < e) (he : e ≤ n) :
    ∃ b vs, d.save s e = .ok b ∧ vs.length = e - s ∧ Stream tz t vs b ∧
      ∀ i v w, i < e - s → cell c (s + i) = some v → convert parse tz t v = some w → vs[i]? = some w := by
  obtain ⟨p, m2, m3, m4, m5⟩ := h.slices hl
  subst m3
  obtain ⟨b, m6, m7⟩ := m4 s e (by omega) he
  obtain ⟨vs, h1, h2, h3⟩ := slice_stream m7 hse hf hk (m2 hg)
  refine ⟨b, vs, m6, h1, h3, fun i v w hi hc hw => ?_⟩
  have e0 := List.getElem?_eq_getElem (l := vs) (i := i) (by omega)
  have e1 := h2 i _ e0
  rw [m5 (s + i) v w (by omega) hc hw] at e1
  injection e1 with e1
  rw [e0, e1]

/-- The columns of a block after conversion. -/
theorem sent_fields {n : Nat} {P : Nat → Field → Prop} : ∀ {ds : List NCol},
    (∀ (i : Nat) d, ds[i]? = some d → d.data.len = .ok n ∧ ∃ b vs, d.data.save 0 n = .ok b ∧ vs.length = n ∧ Stream tz d.data.sqlType vs b ∧
      P i ⟨d.name, d.data.sqlType, vs⟩) →
    ∃ bss fs, mapOut NCol.write ds = .ok bss ∧ InTurn (FieldLaid tz) fs bss.flatten ∧ fs.length = ds.length ∧
      (∀ f ∈ fs, f.cells.length = n) ∧ ∀ (i : Nat) f, fs[i]? = some f → P i f
  | [], _ => ⟨[], [], rfl, .nil, rfl, by simp, by simp⟩
  | c :: cs, h => by
    obtain ⟨h1, b, vs, s1, s2, s3, s4⟩ := h 0 c rfl
    obtain ⟨bss, fs, i1, i2, i3, i4, i5⟩ := sent_fields (P := fun i f => P (i + 1) f) (ds := cs) fun i d hd => h (i + 1) d (by simpa using hd)
    have e1 : c.write = .ok (putString c.name ++ putString (String.ofList c.data.sqlType.name) ++ b) := by
      rw [NCol.write, h1]; simp only [obind_ok]; rw [s1]; rfl
    refine ⟨_ :: bss, ⟨c.name, c.data.sqlType, vs⟩ :: fs, by rw [mapOut, e1]; simp only [obind_ok]; rw [i1]; rfl, ?_, by simp [i3], ?_, ?_⟩
    · rw [List.flatten_cons]
      exact .cons ⟨_, _, _, rfl, lettered_put _, lettered_put _, s3⟩ i2
    · intro x hx'
      rcases List.mem_cons.mp hx' with rfl | hx'
      · exact s2
      · exact i4 x hx'
    · intro i f hf
      cases i with
      | zero =>
        simp only [List.getElem?_cons_zero, Option.some.injEq] at hf
        subst hf
        exact s4
      | succ i =>
        simp only [List.getElem?_cons_succ] at hf
        exact i5 i f hf

end CH
