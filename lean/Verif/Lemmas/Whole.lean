import Verif.Lemmas.Answer
import Verif.Lemmas.Outage
import Verif.Props.Outage

/-! # Lemmas for C89: from the bytes on a socket to the blocks of a query -/

namespace CH

open CH.Spec

namespace Whole

/-- Of two decodings of the same bytes one begins with the other. -/
theorem compare {env : Env} {i j k : TransportInfo} {bs r r' : Bytes} {xs ys : List (Packet ⊕ Err)}
    (h1 : Decodes env i bs xs j r) (h2 : Decodes env i bs ys k r') :
    (∃ zs, ys = xs ++ zs ∧ Decodes env j r zs k r') ∨ (∃ zs, xs = ys ++ zs ∧ Decodes env k r' zs j r) := by
  induction h1 generalizing ys with
  | done => exact .inl ⟨ys, rfl, h2⟩
  | packet h hk t ih =>
    cases h2 with
    | done => exact .inr ⟨_, rfl, .packet h hk t⟩
    | packet h' hk' t' =>
      rw [h] at h'
      simp only [Res.ok.injEq] at h'
      obtain ⟨rfl, rfl⟩ := h'
      obtain rfl := knows_unique hk hk'
      rcases ih t' with ⟨zs, rfl, hz⟩ | ⟨zs, rfl, hz⟩
      · exact .inl ⟨zs, rfl, hz⟩
      · exact .inr ⟨zs, rfl, hz⟩
    | error h' _ => rw [h] at h'; simp at h'
  | error h t ih =>
    cases h2 with
    | done => exact .inr ⟨_, rfl, .error h t⟩
    | packet h' _ _ => rw [h] at h'; simp at h'
    | error h' t' =>
      rw [h] at h'
      simp only [Res.err.injEq] at h'
      obtain ⟨rfl, rfl⟩ := h'
      rcases ih t' with ⟨zs, rfl, hz⟩ | ⟨zs, rfl, hz⟩
      · exact .inl ⟨zs, rfl, hz⟩
      · exact .inr ⟨zs, rfl, hz⟩

theorem eof_not_middle : ¬ Middle (.packet .eof) := nofun
theorem exception_not_middle (e : ServerError) : ¬ Middle (.packet (.exception e)) := nofun

/-- Up to the first packet that does not belong to the middle of an answer, two lists are the same. -/
theorem same_middle {ps qs : List Packet} {p q : Packet} {zs zs' : List (Packet ⊕ Err)} (hp : ∀ x ∈ ps, Middle (.packet x))
    (hq : ∀ x ∈ qs, Middle (.packet x)) (h1 : ¬ Middle (.packet p)) (h2 : ¬ Middle (.packet q))
    (h : ps.map .inl ++ .inl p :: zs = qs.map .inl ++ .inl q :: zs') : ps = qs ∧ p = q ∧ zs = zs' := by
  induction ps generalizing qs with
  | nil =>
    cases qs with
    | nil =>
      simp at h
      exact ⟨rfl, h.1, h.2⟩
    | cons y qs =>
      simp at h
      exact absurd (hq y (by simp)) (by rw [← h.1]; exact h1)
  | cons x ps ih =>
    cases qs with
    | nil =>
      simp at h
      exact absurd (hp x (by simp)) (by rw [h.1]; exact h2)
    | cons y qs =>
      simp at h
      obtain ⟨e1, e2, e3⟩ := ih (fun z hz => hp z (by simp [hz])) (fun z hz => hq z (by simp [hz])) h.2
      exact ⟨by rw [h.1, e1], e2, e3⟩

/-- The same for two decodings of the same bytes, each with such a packet at its end. -/
theorem same_end {env : Env} {i j k : TransportInfo} {bs r r' : Bytes} {ps qs : List Packet} {p q : Packet}
    (h1 : Decodes env i bs (ps.map .inl ++ [.inl p]) j r) (h2 : Decodes env i bs (qs.map .inl ++ [.inl q]) k r')
    (hp : ∀ x ∈ ps, Middle (.packet x)) (hq : ∀ x ∈ qs, Middle (.packet x)) (n1 : ¬ Middle (.packet p)) (n2 : ¬ Middle (.packet q)) :
    ps = qs ∧ p = q ∧ r = r' := by
  rcases compare h1 h2 with ⟨zs, e, hz⟩ | ⟨zs, e, hz⟩
  · obtain ⟨e1, e2, e3⟩ := same_middle (zs := zs) (zs' := []) hp hq n1 n2 (by rw [e]; simp)
    subst e3
    cases hz
    exact ⟨e1, e2, rfl⟩
  · obtain ⟨e1, e2, e3⟩ := same_middle (zs := []) (zs' := zs) hp hq n1 n2 (by rw [e]; simp)
    subst e3
    cases hz
    exact ⟨e1, e2, rfl⟩

theorem means_all {said : List Said} {ps : List Packet} (hl : ps.length = said.length)
    (hm : ∀ (i : Nat) m p, said[i]? = some m → ps[i]? = some p → Means m p) : ∀ p ∈ ps, Middle (.packet p) := by
  intro p hp
  obtain ⟨k, hk⟩ := List.mem_iff_getElem?.mp hp
  have hk' := (List.getElem?_eq_some_iff.mp hk).1
  exact means_middle (hm k _ _ (List.getElem?_eq_getElem (by omega)) hk)

theorem after_pong {env : Env} {i j : TransportInfo} {b r : Bytes} {ds : List (Packet ⊕ Err)} (h : Decodes env i (4 :: b) (.inl .pong :: ds) j r) :
    Decodes env i b ds j r := by
  cases h with
  | packet h hk t =>
    rw [Props.pong_parse] at h
    cases h
    cases hk
    exact t

end Whole

end CH
