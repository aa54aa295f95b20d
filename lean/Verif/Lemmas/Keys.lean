import Verif.Spec.Keys
import Verif.Lemmas.Native

namespace CH.Keys
open CH CH.Spec

theorem body_unhashed {tz : Tz} {k : SqlType} {ks : List Value} {b : Bytes} (hb : Body tz k ks b) :
    ¬ Hashes k → Common k → ∀ q ∈ ks, q.refHashable = false := by
  induction hb with
  | @plain t vs b hs h =>
    intro hn _
    induction h with
    | nil => simp
    | @cons x xs b bs hx _ ih =>
      intro q hq
      rcases List.mem_cons.mp hq with rfl | hq
      · cases t <;> cases q <;> simp_all [CellLaid, Hashes, Value.refHashable]
        all_goals exact hn
      · exact ih q hq
  | nullable h1 h2 h3 _ _ =>
    intro _ _ q hq
    obtain ⟨i, hi, rfl⟩ := List.getElem_of_mem hq
    rcases h3 i _ _ _ (List.getElem?_eq_getElem hi) (List.getElem?_eq_getElem (by omega)) (List.getElem?_eq_getElem (by omega)) with h | h
    · rw [h.2]; rfl
    · rw [h.2]; rfl
  | array _ _ _ =>
    intro _ _ q hq
    obtain ⟨p, _, rfl⟩ := List.mem_map.mp hq
    rfl
  | @map k v vs o a b parts _ _ _ hl hr _ _ =>
    intro _ _ q hq
    obtain ⟨i, hi, rfl⟩ := List.getElem_of_mem hq
    obtain ⟨ks, xs, h, -⟩ := hr i _ _ (List.getElem?_eq_getElem hi) (List.getElem?_eq_getElem (by omega))
    rw [h]; rfl
  | agg _ ih => exact fun hn hc => ih hn hc
  | lowEmpty => simp
  | low => exact fun _ hc => hc.elim
  | lowNull => exact fun _ hc => hc.elim

theorem cell_panics {offs : List Nat} {k v : Col} {W : List (Value × Value)} (hk : RowsAre k 0 (W.map (·.1)))
    (hv : RowsAre v 0 (W.map (·.2))) (hp : (0 :: offs).Pairwise (· ≤ ·)) (hw : ∀ o ∈ offs, o ≤ W.length)
    (hh : ∀ p ∈ W, p.1.refHashable = false) {i : Nat} {p : List (Value × Value)} (hi : (rowsCut 0 offs W)[i]? = some p) :
    (Col.map offs k v).at i = if p = [] then .ok (.map k.sqlType v.sqlType [] []) else .panic := by
  have hlt : i < offs.length := by
    have := (List.getElem?_eq_some_iff.mp hi).1
    rwa [rowsCut_length] at this
  rw [rowsCut_get hlt] at hi
  have h1 := start_le hp hlt
  have h2 := hw _ (List.getElem_mem hlt)
  rw [at_map, rowStart_eq hlt, obind_ok, idx_ok hlt, obind_ok, elemsBefore_cons hlt, if_neg (by omega),
    rangeOut_rows (W := W.map (·.1)) (fun j x hx => by simpa using hk j x hx) (by simpa using h2), obind_ok,
    rangeOut_rows (W := W.map (·.2)) (fun j x hx => by simpa using hv j x hx) (by simpa using h2), obind_ok,
    ← List.map_drop, ← List.map_drop, ← List.map_take, ← List.map_take]
  have hi := Option.some.inj hi
  have hm : ∀ q ∈ p, q ∈ W := fun q hq => by
    rw [← hi] at hq
    exact List.mem_of_mem_drop (List.mem_of_mem_take hq)
  rw [hi]
  cases p with
  | nil => rfl
  | cons q qs => simp [mapBuild, hh q (hm q (by simp))]

theorem mapFree_hash {t : SqlType} : MapFree t → KeysHash t := by
  induction t with
  | nullable t ih | array t ih | simpleAgg f t ih | lowCard t ih => exact ih
  | map k v => exact fun h => h.elim
  | _ => exact fun _ => trivial

theorem load_unhashed {tz : Tz} {k v : SqlType} {vs : List Value} {b : Bytes} (h : Body tz (.map k v) vs b) (hc : Common (.map k v))
    (hm : MapFree k) (hkv : KeysHash v) (hn : ¬ Hashes k) (hb : b.length < 2 ^ 56) :
    ∃ c, (∀ rest, (planOf tz (.map k v)).load vs.length (b ++ rest) = .ok c rest) ∧ c.sqlType = .map k v ∧ c.len = .ok vs.length ∧
      ∀ (i : Nat) ks xs, vs[i]? = some (.map k v ks xs) → c.at i = if ks = [] then .ok (.map k v [] []) else .panic := by
  cases h with
  | plain hs _ => exact hs.elim
  | @map _ _ _ o a b parts ho ha hv hlen hrow =>
    rw [List.length_append, List.length_append] at hb
    obtain ⟨kc, K, kl, kt, klen, kn, kr, kbd, kmf⟩ := load_body ha hc.1 (mapFree_hash hm) (by omega)
    obtain ⟨vc, W, vl, vt, vlen, vn, vr, vbd, vmf⟩ := load_body hv hc.2 hkv (by omega)
    rw [kmf.1 hm] at kr kbd
    rw [List.length_map] at kl vl vn
    have hol : (ends 0 parts).length ≤ o.length := inTurn_length (fun x b h => by rw [h.1]; decide) ho
    obtain ⟨s1, s2, s3⟩ := ends_sorted parts 0
    have hz : ((parts.flatten.map (·.1)).zip W).length = parts.flatten.length := by
      rw [List.length_zip, List.length_map]; omega
    have hz1 := zip_fst (xs := parts.flatten.map (·.1)) (ys := W) (by rw [List.length_map]; omega)
    have hz2 := zip_snd (xs := parts.flatten.map (·.1)) (ys := W) (by rw [List.length_map]; omega)
    rw [← hz1] at kr kbd
    rw [← hz2] at vr
    rw [← hz] at s2
    have hh : ∀ p ∈ (parts.flatten.map (·.1)).zip W, p.1.refHashable = false :=
      fun p hp => body_unhashed kbd hn hc.1 _ (List.mem_map_of_mem hp)
    refine ⟨.map (ends 0 parts) kc vc, fun rest => ?_, ?_, ?_, ?_⟩
    · have := load_words ho (by decide) (by omega) (a ++ (b ++ rest))
      rw [ends_length] at this
      rw [planOf, Plan.load, List.append_assoc, List.append_assoc, hlen, bind_ok this, lastOff_ends, bind_ok (kl _), bind_ok (vl rest)]; rfl
    · rw [Col.sqlType, kt, vt]
    · rw [Col.len, ends_length, hlen]
    · intro i ks xs hx
      have hi := (List.getElem?_eq_some_iff.mp hx).1
      have hp := List.getElem?_eq_getElem (l := rowsCut 0 (ends 0 parts) ((parts.flatten.map (·.1)).zip W)) (i := i)
        (by rw [rowsCut_length, ends_length]; omega)
      have hq := List.getElem?_eq_getElem (l := parts) (i := i) (by omega)
      obtain ⟨ks', xs', e, en⟩ := hrow i _ _ hx hq
      cases e
      rw [cell_panics kr vr s1 (by simpa using s2) hh hp, kt, vt]
      have hkeys := cut_map (f := Prod.fst) hp
      have hcut : (rowsCut 0 (ends 0 parts) parts.flatten)[i]? = some parts[i] := by
        rw [show rowsCut 0 (ends 0 parts) parts.flatten = parts from rowsCut_ends parts []]; exact hq
      have hkeys' := cut_map (f := Prod.fst) hcut
      rw [hz1, hkeys'] at hkeys
      have hl := congrArg List.length (Option.some.inj hkeys)
      rw [List.length_map, List.length_map] at hl
      have hiff : ks = [] ↔ parts[i] = [] := by
        constructor
        · intro h0
          subst h0
          refine List.eq_nil_iff_forall_not_mem.mpr fun q hq => ?_
          have := (en.2.2.1 q.1).mpr (List.mem_map_of_mem hq)
          simp at this
        · intro h0
          refine List.eq_nil_iff_forall_not_mem.mpr fun q hq => ?_
          have := (en.2.2.1 q).mp hq
          rw [h0] at this
          simp at this
      have hiff2 : parts[i] = [] ↔ (rowsCut 0 (ends 0 parts) ((parts.flatten.map (·.1)).zip W))[i]'(by rw [rowsCut_length, ends_length]; omega) = [] := by
        rw [← List.length_eq_zero_iff, hl, List.length_eq_zero_iff]
      by_cases h0 : ks = []
      · rw [if_pos h0, if_pos (hiff2.mp (hiff.mp h0))]
      · rw [if_neg h0, if_neg fun h => h0 (hiff.mpr (hiff2.mpr h))]

end CH.Keys
