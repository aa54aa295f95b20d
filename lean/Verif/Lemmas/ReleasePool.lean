import Verif.Model.ReleasePool
import Verif.Lemmas.StringPool
import Verif.Lemmas.Reader

namespace CH.StringPool

open CH.Spec

/-- The invariant of Lemmas/StringPool without what it says about the capacity. -/
def InvR (p : StringPool) (xs : List Bytes) : Prop := Inv { p with capacity := 0 } xs

theorem InvR.empty (c : Nat) : InvR ⟨[], [], 0, c⟩ [] := Inv.empty 0

/-- A new chunk changes nothing that is stored. -/
theorem Inv.chunk {p : StringPool} {xs : List Bytes} (h : Inv p xs) (hc : p.capacity = 0) {L : Nat} (hL : L ≤ isizeMax) :
    Inv { p with position := 0, chunks := p.chunks ++ [List.replicate L 0] } xs := by
  have keep : ∀ q ∈ p.pointers, (p.chunks ++ [List.replicate L (0 : UInt8)])[q.chunk]? = p.chunks[q.chunk]? := by
    intro q hq
    obtain ⟨d, hd, _⟩ := h.inside q hq
    rw [List.getElem?_append_left (List.getElem?_eq_some_iff.mp hd).1]
  constructor
  · intro _; simp [hc]
  · intro b hb
    simp only [List.mem_append, List.mem_singleton] at hb
    rcases hb with hb | rfl
    · exact h.small b hb
    · simpa using hL
  · intro b _; simp
  · exact h.count
  · intro q hq
    simp only [keep q hq]; exact h.inside q hq
  · intro q hq hc
    obtain ⟨d, hd, _⟩ := h.inside q hq
    have := (List.getElem?_eq_some_iff.mp hd).1
    simp at hc; omega
  · exact h.order
  · intro i q x hq hx
    have := h.holds i q x hq hx
    simp only [getByPointer, keep q (List.mem_of_getElem? hq)]
    exact this

theorem allocateR_old {p : StringPool} {b : Bytes} {size : Nat} (hb : p.chunks.getLast? = some b) (hs : b.length ≤ isizeMax)
    (hp : p.position + size ≤ b.length) (f : Nat) :
    allocateFuelR (f + 1) p size = some (.ok (⟨p.chunks,
      p.pointers ++ [⟨p.chunks.length - 1, p.position, size⟩], p.position + size, p.capacity⟩, ⟨p.chunks.length - 1, p.position, size⟩)) := by
  have hs' : b.length < usizeEnd := by simp only [isizeMax] at hs; simp only [usizeEnd]; omega
  have h1 : p.freeSpaceR = b.length - p.position := by
    simp only [freeSpaceR, hb]
    rw [show usizeEnd + b.length - p.position = usizeEnd + (b.length - p.position) by omega, Nat.add_mod_left, Nat.mod_eq_of_lt (by omega)]
  have hne : p.chunks ≠ [] := by intro h; rw [h] at hb; cases hb
  have h2 : ¬ (b.length - p.position < size ∨ p.chunks = []) := by
    rintro (h | h)
    · omega
    · exact hne h
  have h3 : (p.position + size) % usizeEnd = p.position + size := Nat.mod_eq_of_lt (by omega)
  simp only [allocateFuelR, h1, if_neg h2, tryAllocateR, hb, h3]
  rw [if_pos ⟨by omega, hp⟩]

theorem allocateR_new {p : StringPool} {size : Nat} (hl : ∀ b, p.chunks.getLast? = some b → b.length ≤ isizeMax)
    (hp : p.chunks = [] ∨ ∃ b, p.chunks.getLast? = some b ∧ p.position ≤ b.length ∧ b.length < p.position + size) (f : Nat) :
    allocateFuelR (f + 2) p size = some (if max (p.capacity * 80 % usizeEnd) size ≤ isizeMax then
      .ok (⟨p.chunks ++ [List.replicate (max (p.capacity * 80 % usizeEnd) size) 0], p.pointers ++ [⟨p.chunks.length, 0, size⟩], size,
        p.capacity⟩, ⟨p.chunks.length, 0, size⟩)
      else .panic) := by
  have h1 : p.freeSpaceR < size ∨ p.chunks = [] := by
    rcases hp with h | ⟨b, hb, h, h'⟩
    · exact .inr h
    · left
      have hs := hl b hb
      have hs' : b.length < usizeEnd := by simp only [isizeMax] at hs; simp only [usizeEnd]; omega
      simp only [freeSpaceR, hb]
      rw [show usizeEnd + b.length - p.position = usizeEnd + (b.length - p.position) by omega, Nat.add_mod_left, Nat.mod_eq_of_lt (by omega)]
      omega
  rw [allocateFuelR, if_pos h1]
  unfold reserveR
  by_cases hr : max (p.capacity * 80 % usizeEnd) size ≤ isizeMax
  · rw [if_pos hr, if_pos hr]
    simp only
    rw [allocateR_old (b := List.replicate (max (p.capacity * 80 % usizeEnd) size) 0) (by simp) (by simpa using hr)
      (by simp only [List.length_replicate, Nat.zero_add]; exact Nat.le_max_right _ _)]
    simp
  · rw [if_neg hr, if_neg hr]

theorem InvR.allocate {p : StringPool} {xs : List Bytes} (h : InvR p xs) (size : Nat) :
    (p.allocateR size = .panic ∧ ¬ max (p.capacity * 80 % usizeEnd) size ≤ isizeMax) ∨
    ∃ p' q s, p.allocateR size = .ok (p', q) ∧ q.len = size ∧ s.length = size ∧ InvR p' (xs ++ [s]) ∧ p'.capacity = p.capacity ∧
      p'.pointers = p.pointers ++ [q] := by
  -- from a pool with room
  have old : ∀ (p : StringPool) (b : Bytes), InvR p xs → p.chunks.getLast? = some b → p.position + size ≤ b.length →
      ∃ s : Bytes, s.length = size ∧ InvR ⟨p.chunks, p.pointers ++ [⟨p.chunks.length - 1, p.position, size⟩], p.position + size, p.capacity⟩ (xs ++ [s]) := by
    intro p b h hb hs
    have hsm : b.length ≤ isizeMax := getLast_small h hb
    rcases Inv.allocate h size with ⟨e, _⟩ | ⟨p', q, s, e, _, hl, hi, _, _⟩
    all_goals
      unfold StringPool.allocate at e
      rw [allocate_old (p := { p with capacity := 0 }) hb hsm hs] at e
      cases e
    exact ⟨s, hl, hi⟩
  rcases Inv.room h size with ⟨b, hb, hs⟩ | hn
  · obtain ⟨s, hl, hi⟩ := old p b h hb hs
    refine .inr ⟨_, _, s, ?_, rfl, hl, hi, rfl, rfl⟩
    unfold StringPool.allocateR
    rw [allocateR_old (p := p) hb (getLast_small h hb) hs]
  · have e := allocateR_new (p := p) (size := size) (fun b hb => getLast_small h hb) hn 0
    by_cases hr : max (p.capacity * 80 % usizeEnd) size ≤ isizeMax
    · rw [if_pos hr] at e
      have hi := Inv.chunk h rfl hr
      obtain ⟨s, hl, hi'⟩ := old { p with position := 0, chunks := p.chunks ++ [List.replicate (max (p.capacity * 80 % usizeEnd) size) 0] }
        (List.replicate (max (p.capacity * 80 % usizeEnd) size) 0) hi (by simp)
        (by simp only [List.length_replicate, Nat.zero_add]; exact Nat.le_max_right _ _)
      refine .inr ⟨⟨p.chunks ++ [List.replicate (max (p.capacity * 80 % usizeEnd) size) 0], p.pointers ++ [⟨p.chunks.length, 0, size⟩], size,
        p.capacity⟩, ⟨p.chunks.length, 0, size⟩, s, by unfold StringPool.allocateR; rw [e], rfl, hl, ?_, rfl, rfl⟩
      simpa using hi'
    · rw [if_neg hr] at e
      exact .inl ⟨by unfold StringPool.allocateR; rw [e], hr⟩

theorem InvR.fill {p : StringPool} {xs : List Bytes} {s0 s : Bytes} {q : StringPtr} (h : InvR p (xs ++ [s0]))
    (hq : p.pointers.getLast? = some q) (hs : s.length = q.len) : ∃ p', p.fill q s = .ok p' ∧ InvR p' (xs ++ [s]) ∧ p'.capacity = p.capacity := by
  obtain ⟨p2, s', e2, i2, hs', _, _⟩ := Inv.fill h (q := q) (s := s) hq (by omega)
  have hle : s.length ≤ q.len := by omega
  simp only [StringPool.fill, if_pos hle] at e2
  cases e2
  rw [hs' hs] at i2
  exact ⟨{ p with chunks := p.chunks.modify q.chunk fun b => overwrite b q.shift s }, by simp only [StringPool.fill, if_pos hle], i2, rfl⟩

theorem InvR.push {p p' : StringPool} {xs : List Bytes} (h : InvR p xs) {s : Bytes} (hp : p.pushR s = .ok p') :
    InvR p' (xs ++ [s]) ∧ p'.capacity = p.capacity := by
  unfold StringPool.pushR at hp
  rcases h.allocate s.length with ⟨e, hn⟩ | ⟨p1, q, s0, e, hq, hl, hi, hc, hpt⟩
  · rw [e] at hp; cases hp
  · rw [e] at hp
    obtain ⟨p2, e2, i2, hc2⟩ := hi.fill (q := q) (s := s) (by rw [hpt]; simp) hq.symm
    simp only [e2] at hp
    cases hp
    exact ⟨i2, by rw [hc2, hc]⟩

theorem InvR.pushAll {p p' : StringPool} {xs : List Bytes} (h : InvR p xs) {ss : List Bytes} (hp : p.pushAllR ss = .ok p') :
    InvR p' (xs ++ ss) := by
  induction ss generalizing p xs with
  | nil => cases hp; simpa using h
  | cons s ss ih =>
    rw [StringPool.pushAllR] at hp
    cases e : p.pushR s with
    | ok p1 =>
      rw [e] at hp
      have := ih (h.push e).1 hp
      simpa using this
    | err x => rw [e] at hp; cases hp
    | panic => rw [e] at hp; cases hp

theorem InvR.stores {p : StringPool} {xs : List Bytes} (h : InvR p xs) : Stores p xs := Inv.stores (p := { p with capacity := 0 }) h

theorem InvR.apart {p : StringPool} {xs : List Bytes} (h : InvR p xs) : Apart p := Inv.apart (p := { p with capacity := 0 }) h

theorem InvR.readInto {p p' : StringPool} {xs : List Bytes} (h : InvR p xs) {bs rest : Bytes} (hp : p.readIntoR bs = .ok p' rest) :
    ∃ s, InvR p' (xs ++ [s]) ∧ ∃ r, readUvarintR bs = .ok s.length r ∧ r = s ++ rest := by
  unfold StringPool.readIntoR at hp
  cases hu : readUvarintR bs with
  | ok n r =>
    rw [hu] at hp
    simp only at hp
    rcases h.allocate n with ⟨e, _⟩ | ⟨p1, q, s0, e, hq, hl, hi, hc, hpt⟩
    · rw [e] at hp; cases hp
    · rw [e] at hp
      simp only at hp
      cases hr : readN n r with
      | ok s r' =>
        rw [hr] at hp
        simp only at hp
        have hs : s.length = n ∧ r = s ++ r' := by
          unfold readN at hr
          split at hr
          · cases hr
            exact ⟨by simp; omega, by simp⟩
          · cases hr
        obtain ⟨p2, e2, i2, _⟩ := hi.fill (q := q) (s := s) (by rw [hpt]; simp) (by omega)
        rw [e2] at hp
        cases hp
        exact ⟨s, i2, r, by rw [hs.1], hs.2⟩
      | more => rw [hr] at hp; cases hp
      | err x y => rw [hr] at hp; cases hp
      | panic => rw [hr] at hp; cases hp
  | more => rw [hu] at hp; cases hp
  | err x y => rw [hu] at hp; cases hp
  | panic => rw [hu] at hp; cases hp

theorem InvR.loadRows : ∀ (n : Nat) {p p' : StringPool} {xs : List Bytes} {bs rest : Bytes}, InvR p xs → loadRowsR n p bs = .ok p' rest →
    ∃ ss, ss.length = n ∧ InvR p' (xs ++ ss)
  | 0, p, p', xs, bs, rest, h, hp => by
    cases hp
    exact ⟨[], rfl, by simpa using h⟩
  | n + 1, p, p', xs, bs, rest, h, hp => by
    obtain ⟨p1, r, h1, h2⟩ := bind_eq_ok hp
    obtain ⟨s, hi, _⟩ := h.readInto h1
    obtain ⟨ss, hl, hi'⟩ := InvR.loadRows n hi h2
    exact ⟨s :: ss, by simp [hl], by simpa using hi'⟩

/-- With a capacity that does not make the product wrap, slots are the same in both builds. -/
theorem allocate_same {p : StringPool} {xs : List Bytes} (h : InvR p xs) (hc : p.capacity * 80 < 2 ^ 64) (size : Nat) :
    p.allocateR size = p.allocate size := by
  have e : p.capacity * 80 % usizeEnd = p.capacity * 80 := Nat.mod_eq_of_lt hc
  unfold StringPool.allocateR StringPool.allocate
  rcases Inv.room h size with ⟨b, hb, hs⟩ | hn
  · rw [allocateR_old (p := p) hb (getLast_small h hb) hs, allocate_old (p := p) hb (getLast_small h hb) hs]
  · rw [allocateR_new (p := p) (fun b hb => getLast_small h hb) hn, allocate_new (p := p) hn, e]
    simp only [Nat.max_le]

theorem pushAll_same {p : StringPool} {xs : List Bytes} (h : InvR p xs) (hc : p.capacity * 80 < 2 ^ 64) (ss : List Bytes) :
    p.pushAllR ss = p.pushAll ss := by
  induction ss generalizing p xs with
  | nil => rfl
  | cons s ss ih =>
    have e : p.pushR s = p.push s := by
      unfold StringPool.pushR StringPool.push
      rw [allocate_same h hc]
      rfl
    rw [StringPool.pushAllR, StringPool.pushAll, ← e]
    cases e2 : p.pushR s with
    | ok p1 =>
      obtain ⟨i, hc1⟩ := h.push e2
      exact ih i (by rw [hc1]; exact hc)
    | err x => rfl
    | panic => rfl

end CH.StringPool
