import Verif.Spec.StringPool
import Verif.Lemmas.Wire
import Verif.Model.Load

/-! The invariant of the string pool. -/

namespace CH.StringPool
open CH.Spec

/-- What every reachable pool satisfies; `xs` are the strings stored so far. -/
structure Inv (p : StringPool) (xs : List Bytes) : Prop where
  cap : p.chunks ≠ [] → p.capacity * 80 ≤ isizeMax
  small : ∀ b ∈ p.chunks, b.length ≤ isizeMax
  pos : ∀ b, p.chunks.getLast? = some b → p.position ≤ b.length
  count : p.pointers.length = xs.length
  inside : ∀ q ∈ p.pointers, ∃ b, p.chunks[q.chunk]? = some b ∧ q.shift + q.len ≤ b.length
  below : ∀ q ∈ p.pointers, q.chunk + 1 = p.chunks.length → q.shift + q.len ≤ p.position
  order : ∀ (i j : Nat) (a b : StringPtr), i < j → p.pointers[i]? = some a → p.pointers[j]? = some b →
    a.chunk < b.chunk ∨ a.chunk = b.chunk ∧ a.shift + a.len ≤ b.shift
  holds : ∀ (i : Nat) (q : StringPtr) (x : Bytes), p.pointers[i]? = some q → xs[i]? = some x → p.getByPointer q = some x

theorem Inv.empty (c : Nat) : Inv ⟨[], [], 0, c⟩ [] := by
  constructor <;> simp

theorem allocate_old {p : StringPool} {b : Bytes} {size : Nat} (hb : p.chunks.getLast? = some b) (hs : b.length ≤ isizeMax)
    (hp : p.position + size ≤ b.length) (f : Nat) :
    allocateFuel (f + 1) p size = some (.ok (⟨p.chunks,
      p.pointers ++ [⟨p.chunks.length - 1, p.position, size⟩], p.position + size, p.capacity⟩, ⟨p.chunks.length - 1, p.position, size⟩)) := by
  have h1 : p.freeSpace = .ok (b.length - p.position) := by
    simp only [freeSpace, hb]; rw [if_pos (by omega)]
  have hne : p.chunks ≠ [] := by intro h; rw [h] at hb; cases hb
  have h2 : ¬ (b.length - p.position < size ∨ p.chunks = []) := by
    rintro (h | h)
    · omega
    · exact hne h
  have h3 : p.position + size < usizeEnd := by
    simp only [isizeMax] at hs; simp only [usizeEnd]; omega
  simp only [allocateFuel, h1, if_neg h2, tryAllocate, hb, if_pos h3, if_pos hp]

theorem allocate_new {p : StringPool} {size : Nat}
    (hp : p.chunks = [] ∨ ∃ b, p.chunks.getLast? = some b ∧ p.position ≤ b.length ∧ b.length < p.position + size) (f : Nat) :
    allocateFuel (f + 2) p size = some (if p.capacity * 80 ≤ isizeMax ∧ size ≤ isizeMax then
      .ok (⟨p.chunks ++ [List.replicate (max (p.capacity * 80) size) 0], p.pointers ++ [⟨p.chunks.length, 0, size⟩], size,
        p.capacity⟩, ⟨p.chunks.length, 0, size⟩)
      else .panic) := by
  have h1 : ∃ n, p.freeSpace = .ok n ∧ (n < size ∨ p.chunks = []) := by
    rcases hp with h | ⟨b, hb, h, h'⟩
    · exact ⟨0, by simp [freeSpace, h], .inr h⟩
    · refine ⟨b.length - p.position, ?_, .inl (by omega)⟩
      simp only [freeSpace, hb]; rw [if_pos h]
  obtain ⟨n, hn, hc⟩ := h1
  rw [allocateFuel]
  simp only [hn, if_pos hc]
  by_cases hr : p.capacity * 80 ≤ isizeMax ∧ size ≤ isizeMax
  · have e : p.reserve size = .ok { p with position := 0, chunks := p.chunks ++ [List.replicate (max (p.capacity * 80) size) 0] } := by
      unfold reserve
      rw [if_pos (by simp only [isizeMax] at hr; simp only [usizeEnd]; omega), if_pos (by omega)]
    simp only [e, if_pos hr]
    rw [allocate_old (b := List.replicate (max (p.capacity * 80) size) 0) (by simp) (by simp; omega) (by simp; omega)]
    simp
  · have e : p.reserve size = .panic := by
      unfold reserve
      split
      · rw [if_neg (by omega)]
      · rfl
    simp only [e, if_neg hr]

/-- Every pool either has room in its last chunk or needs a new one. -/
theorem Inv.room {p : StringPool} {xs : List Bytes} (h : Inv p xs) (size : Nat) :
    (∃ b, p.chunks.getLast? = some b ∧ p.position + size ≤ b.length) ∨
    (p.chunks = [] ∨ ∃ b, p.chunks.getLast? = some b ∧ p.position ≤ b.length ∧ b.length < p.position + size) := by
  cases hl : p.chunks.getLast? with
  | none => exact .inr (.inl (by simpa using hl))
  | some b =>
    have := h.pos b hl
    by_cases hs : p.position + size ≤ b.length
    · exact .inl ⟨b, rfl, hs⟩
    · exact .inr (.inr ⟨b, rfl, this, by omega⟩)

theorem getLast_small {p : StringPool} {xs : List Bytes} (h : Inv p xs) {b : Bytes} (hb : p.chunks.getLast? = some b) :
    b.length ≤ isizeMax := h.small b (List.mem_of_getLast? hb)

/-- The state after `allocate`, whatever is in the new slot. -/
theorem Inv.allocate {p : StringPool} {xs : List Bytes} (h : Inv p xs) (size : Nat) :
    (p.allocate size = .panic ∧ ¬ (p.capacity * 80 ≤ isizeMax ∧ size ≤ isizeMax)) ∨
    ∃ p' q s, p.allocate size = .ok (p', q) ∧ q.len = size ∧ s.length = size ∧ Inv p' (xs ++ [s]) ∧ p'.capacity = p.capacity ∧
      p'.pointers = p.pointers ++ [q] := by
  rcases h.room size with ⟨b, hb, hs⟩ | hn
  · refine .inr ?_
    unfold StringPool.allocate
    rw [allocate_old hb (getLast_small h hb) hs]
    have hlen : p.chunks.length - 1 < p.chunks.length := by
      have : p.chunks ≠ [] := by intro e; rw [e] at hb; cases hb
      have := List.length_pos_iff.mpr this
      omega
    have hget : p.chunks[p.chunks.length - 1]? = some b := by rw [← hb, List.getLast?_eq_getElem?]
    refine ⟨_, _, (b.drop p.position).take size, rfl, rfl, by simp; omega, ?_, rfl, rfl⟩
    constructor
    · exact h.cap
    · exact h.small
    · intro b' hb'
      simp only [hb] at hb'
      cases hb'; exact hs
    · simp [h.count]
    · intro q hq
      simp only [List.mem_append, List.mem_singleton] at hq
      rcases hq with hq | rfl
      · exact h.inside q hq
      · exact ⟨b, hget, hs⟩
    · intro q hq hc
      simp only [List.mem_append, List.mem_singleton] at hq
      rcases hq with hq | rfl
      · have := h.below q hq hc
        simp only; omega
      · exact Nat.le_refl _
    · intro i j a c hij ha hc
      simp only [List.getElem?_append] at ha hc
      split at hc
      · rename_i hj
        rw [if_pos (by omega)] at ha
        exact h.order i j a c hij ha hc
      · rename_i hj
        rw [List.getElem?_singleton] at hc
        split at hc
        · cases hc
          rename_i hj0
          rw [if_pos (by omega)] at ha
          have hm := List.mem_of_getElem? ha
          obtain ⟨d, hd, _⟩ := h.inside a hm
          have hlt := (List.getElem?_eq_some_iff.mp hd).1
          by_cases hcl : a.chunk + 1 = p.chunks.length
          · exact .inr ⟨by simp only; omega, h.below a hm hcl⟩
          · exact .inl (by simp only; omega)
        · cases hc
    · intro i q x hq hx
      simp only [List.getElem?_append, List.getElem?_singleton] at hq hx
      rw [h.count] at hq
      split at hx
      · rename_i hi
        rw [if_pos hi] at hq
        exact h.holds i q x hq hx
      · rename_i hi
        rw [if_neg hi] at hq
        split at hq
        · cases hq
          rw [if_pos (by omega)] at hx
          cases hx
          simp only [getByPointer, hget]
          rw [if_pos hs]
        · cases hq
  · unfold StringPool.allocate
    rw [allocate_new hn]
    by_cases hr : p.capacity * 80 ≤ isizeMax ∧ size ≤ isizeMax
    · rw [if_pos hr]
      refine .inr ⟨_, _, List.replicate size 0, rfl, rfl, by simp, ?_, rfl, rfl⟩
      have keep : ∀ q ∈ p.pointers, (p.chunks ++ [List.replicate (max (p.capacity * 80) size) (0 : UInt8)])[q.chunk]? = p.chunks[q.chunk]? := by
        intro q hq
        obtain ⟨d, hd, _⟩ := h.inside q hq
        rw [List.getElem?_append_left (List.getElem?_eq_some_iff.mp hd).1]
      constructor
      · exact fun _ => hr.1
      · intro b hb
        simp only [List.mem_append, List.mem_singleton] at hb
        rcases hb with hb | rfl
        · exact h.small b hb
        · simp; omega
      · intro b hb
        simp at hb; subst hb
        simp; omega
      · simp [h.count]
      · intro q hq
        simp only [List.mem_append, List.mem_singleton] at hq
        rcases hq with hq | rfl
        · simp only [keep q hq]; exact h.inside q hq
        · exact ⟨List.replicate (max (p.capacity * 80) size) 0, by simp, by simp; omega⟩
      · intro q hq hc
        simp only [List.mem_append, List.mem_singleton] at hq
        rcases hq with hq | rfl
        · obtain ⟨d, hd, _⟩ := h.inside q hq
          have := (List.getElem?_eq_some_iff.mp hd).1
          simp at hc; omega
        · simp
      · intro i j a c hij ha hc
        simp only [List.getElem?_append] at ha hc
        split at hc
        · rename_i hj
          rw [if_pos (by omega)] at ha
          exact h.order i j a c hij ha hc
        · rename_i hj
          rw [List.getElem?_singleton] at hc
          split at hc
          · cases hc
            rename_i hj0
            rw [if_pos (by omega)] at ha
            obtain ⟨d, hd, _⟩ := h.inside a (List.mem_of_getElem? ha)
            exact .inl (List.getElem?_eq_some_iff.mp hd).1
          · cases hc
      · intro i q x hq hx
        simp only [List.getElem?_append, List.getElem?_singleton] at hq hx
        rw [h.count] at hq
        split at hx
        · rename_i hi
          rw [if_pos hi] at hq
          have := h.holds i q x hq hx
          simp only [getByPointer, keep q (List.mem_of_getElem? hq)]
          exact this
        · rename_i hi
          rw [if_neg hi] at hq
          split at hq
          · cases hq
            rw [if_pos (by omega)] at hx
            cases hx
            simp only [getByPointer]
            simp
            omega
          · cases hq
    · rw [if_neg hr]
      exact .inl ⟨rfl, hr⟩

/-- A slot is only handed out when the pool's chunks and the string can be allocated. -/
theorem Inv.fits {p : StringPool} {xs : List Bytes} (h : Inv p xs) {size : Nat} {r : StringPool × StringPtr}
    (hr : p.allocate size = .ok r) : max (p.capacity * 80) size ≤ isizeMax := by
  rcases h.room size with ⟨b, hb, hs⟩ | hn
  · have h1 := getLast_small h hb
    have h2 := h.cap (by intro e; rw [e] at hb; cases hb)
    omega
  · unfold StringPool.allocate at hr
    rw [allocate_new hn] at hr
    simp only at hr
    split at hr
    · omega
    · cases hr

theorem overwrite_length {b : Bytes} {shift : Nat} {s : Bytes} (h : shift + s.length ≤ b.length) :
    (overwrite b shift s).length = b.length := by
  simp [overwrite]; omega

/-- Filling the newest slot with all its bytes. -/
theorem Inv.fill {p : StringPool} {xs : List Bytes} {s0 s : Bytes} {q : StringPtr} (h : Inv p (xs ++ [s0]))
    (hq : p.pointers.getLast? = some q) (hs : s.length ≤ q.len) :
    ∃ p' s', p.fill q s = .ok p' ∧ Inv p' (xs ++ [s']) ∧ (s.length = q.len → s' = s) ∧ p'.capacity = p.capacity ∧
      p'.pointers = p.pointers := by
  have hqm : q ∈ p.pointers := List.mem_of_getLast? hq
  obtain ⟨b, hb, hbl⟩ := h.inside q hqm
  have hcl := (List.getElem?_eq_some_iff.mp hb).1
  have hol : (overwrite b q.shift s).length = b.length := overwrite_length (by omega)
  have hmod : ∀ i, (p.chunks.modify q.chunk (fun b => overwrite b q.shift s))[i]? =
      if q.chunk = i then some (overwrite b q.shift s) else p.chunks[i]? := by
    intro i
    rw [List.getElem?_modify]
    split
    · subst_vars; rw [hb]; rfl
    · cases p.chunks[i]? <;> rfl
  have hlast : p.pointers[xs.length]? = some q := by
    rw [List.getLast?_eq_getElem?, h.count] at hq
    simpa using hq
  refine ⟨⟨p.chunks.modify q.chunk (fun b => overwrite b q.shift s), p.pointers, p.position, p.capacity⟩,
    ((overwrite b q.shift s).drop q.shift).take q.len, by simp only [StringPool.fill, if_pos hs], ?_, ?_, rfl, rfl⟩
  · constructor
    · exact fun _ => h.cap (by intro e; rw [e] at hcl; simp at hcl)
    · intro c hc
      simp only at hc
      obtain ⟨i, hi⟩ := List.getElem?_of_mem hc
      rw [hmod] at hi
      split at hi
      · cases hi; rw [hol]; exact h.small b (List.mem_of_getElem? hb)
      · exact h.small c (List.mem_of_getElem? hi)
    · intro c hc
      simp only [List.getLast?_eq_getElem?, List.length_modify] at hc
      rw [hmod] at hc
      split at hc
      · rename_i e
        cases hc; rw [hol]
        exact h.pos b (by rw [List.getLast?_eq_getElem?, ← e]; exact hb)
      · exact h.pos c (by rw [List.getLast?_eq_getElem?]; exact hc)
    · have := h.count; simp at this ⊢; exact this
    · intro r hr
      obtain ⟨d, hd, hl⟩ := h.inside r hr
      simp only [hmod]
      split
      · rename_i e
        rw [← e, hb] at hd; cases hd
        exact ⟨_, rfl, by omega⟩
      · exact ⟨d, hd, hl⟩
    · intro r hr hc
      simp only [List.length_modify] at hc
      exact h.below r hr hc
    · exact h.order
    · intro i r x hr hx
      rw [List.getElem?_append] at hx
      split at hx
      · rename_i hi
        have hold := h.holds i r x hr (by rw [List.getElem?_append_left hi]; exact hx)
        simp only [getByPointer, hmod] at hold ⊢
        by_cases e : q.chunk = r.chunk
        · rw [if_pos e]
          rw [← e, hb] at hold
          simp only [hol]
          simp only at hold
          split at hold
          · rename_i hin
            rw [if_pos hin]
            injection hold with hold
            have ho := h.order i xs.length r q hi hr hlast
            rw [← hold]
            have : r.shift + r.len ≤ q.shift := by omega
            congr 1
            apply List.ext_getElem?
            intro k
            simp only [List.getElem?_take, List.getElem?_drop, overwrite]
            split
            · rw [List.append_assoc, List.getElem?_append_left (by simp; omega), List.getElem?_take, if_pos (by omega)]
            · rfl
          · cases hold
        · rw [if_neg e]; exact hold
      · rename_i hi
        rw [List.getElem?_singleton] at hx
        split at hx
        · have : i = xs.length := by omega
          subst this
          rw [hlast] at hr; cases hr
          cases hx
          simp only [getByPointer, hmod, if_true, hol]
          rw [if_pos hbl]
        · cases hx
  · intro he
    simp only [overwrite]
    rw [List.append_assoc, List.drop_append_of_le_length (by simp; omega), List.drop_of_length_le (by simp; omega), List.nil_append, ← he]
    simp

theorem Inv.push {p : StringPool} {xs : List Bytes} (h : Inv p xs) (s : Bytes) :
    (p.push s = .panic ∧ ¬ (p.capacity * 80 ≤ isizeMax ∧ s.length ≤ isizeMax)) ∨
    ∃ p', p.push s = .ok p' ∧ Inv p' (xs ++ [s]) ∧ p'.capacity = p.capacity := by
  unfold StringPool.push
  rcases h.allocate s.length with ⟨e, hn⟩ | ⟨p', q, s0, e, hq, hl, hi, hc, hp⟩
  · rw [e]; exact .inl ⟨rfl, hn⟩
  · rw [e]
    obtain ⟨p2, s', e2, i2, hs', hc2, _⟩ := hi.fill (q := q) (s := s) (by rw [hp]; simp) (by omega)
    rw [hs' hq.symm] at i2
    exact .inr ⟨p2, e2, i2, by rw [hc2, hc]⟩

theorem Inv.pushAll {p : StringPool} {xs : List Bytes} (h : Inv p xs) (ss : List Bytes) :
    (p.pushAll ss = .panic ∧ ¬ (p.capacity * 80 ≤ isizeMax ∧ ∀ s ∈ ss, s.length ≤ isizeMax)) ∨
    ∃ p', p.pushAll ss = .ok p' ∧ Inv p' (xs ++ ss) ∧ p'.capacity = p.capacity := by
  induction ss generalizing p xs with
  | nil => exact .inr ⟨p, rfl, by simpa using h, rfl⟩
  | cons s ss ih =>
    rw [StringPool.pushAll]
    rcases h.push s with ⟨e, hn⟩ | ⟨p', e, hi, hc⟩
    · rw [e]; exact .inl ⟨rfl, fun ⟨a, b⟩ => hn ⟨a, b s (by simp)⟩⟩
    · rw [e]
      rcases ih hi with ⟨e', hn⟩ | ⟨p2, e', hi', hc'⟩
      · exact .inl ⟨e', fun ⟨a, b⟩ => hn ⟨by rw [hc]; exact a, fun x hx => b x (by simp [hx])⟩⟩
      · exact .inr ⟨p2, e', by simpa using hi', by rw [hc', hc]⟩

theorem Inv.stores {p : StringPool} {xs : List Bytes} (h : Inv p xs) : Stores p xs := by
  refine ⟨h.count, fun i x hx => ?_, fun i hi => ?_⟩
  · have hi := (List.getElem?_eq_some_iff.mp hx).1
    have hq : p.pointers[i]? = some (p.pointers[i]'(by rw [h.count]; exact hi)) := List.getElem?_eq_getElem _
    have := h.holds i _ x hq hx
    simp only [get, getUnchecked, hq, this]
    exact ⟨trivial, trivial⟩
  · simp only [get]
    rw [List.getElem?_eq_none (by rw [h.count]; exact hi)]

theorem Inv.apart {p : StringPool} {xs : List Bytes} (h : Inv p xs) : Apart p := by
  refine ⟨h.inside, fun i j a b hij ha hb => ?_⟩
  rcases Nat.lt_or_gt_of_ne hij with hlt | hlt
  · rcases h.order i j a b hlt ha hb with h | h
    · exact .inl (by omega)
    · exact .inr (.inl h.2)
  · rcases h.order j i b a hlt hb ha with h | h
    · exact .inl (by omega)
    · exact .inr (.inr h.2)

theorem readInto_spec {p : StringPool} {xs : List Bytes} (h : Inv p xs) (bs : Bytes) :
    (p.readInto bs = .panic ∧ readBytesLP (p.capacity * 80) bs = .panic) ∨
    (∃ p' s rest, p.readInto bs = .ok p' rest ∧ readBytesLP (p.capacity * 80) bs = .ok s rest ∧ Inv p' (xs ++ [s]) ∧
      p'.capacity = p.capacity) ∨
    (p.readInto bs = .more ∧ readBytesLP (p.capacity * 80) bs = .more) ∨
    ∃ e r, p.readInto bs = .err e r ∧ readBytesLP (p.capacity * 80) bs = .err e r := by
  unfold readInto readBytesLP
  show (_ ∧ Reader.bind _ _ bs = _) ∨ (∃ p' s rest, _ ∧ Reader.bind _ _ bs = _ ∧ _) ∨ (_ ∧ Reader.bind _ _ bs = _) ∨
    ∃ e r, _ ∧ Reader.bind _ _ bs = _
  unfold Reader.bind
  cases hu : readUvarint bs with
  | ok n rest =>
    simp only
    rcases h.allocate n with ⟨e, hbig⟩ | ⟨p', q, s0, e, hq, hl, hi, hc, hp⟩
    · rw [e]
      refine .inl ⟨rfl, ?_⟩
      show Reader.bind (alloc _) _ rest = _
      unfold Reader.bind
      rw [alloc, if_neg (by omega)]
    · rw [e]
      have ha : ∀ f : Unit → Reader Bytes, (alloc (max (p.capacity * 80) n) >>= f) rest = f () rest := by
        intro f
        show Reader.bind (alloc _) _ rest = _
        unfold Reader.bind
        rw [alloc, if_pos (h.fits e)]
      simp only [ha, readN]
      by_cases hn : n ≤ rest.length
      · simp only [if_pos hn]
        obtain ⟨p2, s', e2, i2, hs', hc2, _⟩ := hi.fill (q := q) (s := rest.take n) (by rw [hp]; simp) (by simp; omega)
        rw [hs' (by simp; omega)] at i2
        refine .inr (.inl ⟨p2, rest.take n, rest.drop n, ?_, rfl, i2, by rw [hc2, hc]⟩)
        rw [e2]
      · simp only [if_neg hn]
        exact .inr (.inr (.inl ⟨trivial, trivial⟩))
  | more => exact .inr (.inr (.inl ⟨rfl, rfl⟩))
  | err e r => exact .inr (.inr (.inr ⟨e, r, rfl, rfl⟩))
  | panic => exact .inl ⟨rfl, rfl⟩

theorem loadRows_spec (n : Nat) {p : StringPool} {xs : List Bytes} (h : Inv p xs) (bs : Bytes) :
    (loadRows n p bs = .panic ∧ readMany (readBytesLP (p.capacity * 80)) n bs = .panic) ∨
    (∃ p' ss rest, loadRows n p bs = .ok p' rest ∧ readMany (readBytesLP (p.capacity * 80)) n bs = .ok ss rest ∧ Inv p' (xs ++ ss)) ∨
    (loadRows n p bs = .more ∧ readMany (readBytesLP (p.capacity * 80)) n bs = .more) ∨
    ∃ e r, loadRows n p bs = .err e r ∧ readMany (readBytesLP (p.capacity * 80)) n bs = .err e r := by
  induction n generalizing p xs bs with
  | zero => exact .inr (.inl ⟨p, [], bs, rfl, rfl, by simpa using h⟩)
  | succ n ih =>
    have e1 : loadRows (n + 1) p bs = Reader.bind p.readInto (loadRows n) bs := rfl
    have e2 : readMany (readBytesLP (p.capacity * 80)) (n + 1) bs = Reader.bind (readBytesLP (p.capacity * 80)) (fun x =>
      Reader.bind (readMany (readBytesLP (p.capacity * 80)) n) (fun xs => Reader.pure (x :: xs))) bs := rfl
    rw [e1, e2]
    unfold Reader.bind
    rcases readInto_spec h bs with ⟨e, e'⟩ | ⟨p', s, rest, e, e', hi, hcap⟩ | ⟨e, e'⟩ | ⟨x, r, e, e'⟩
    · rw [e, e']; exact .inl ⟨rfl, rfl⟩
    · rw [e, e', ← hcap]
      simp only
      rcases ih hi rest with ⟨f, f'⟩ | ⟨p2, ss, rest', f, f', hj⟩ | ⟨f, f'⟩ | ⟨x, r, f, f'⟩
      · rw [f, f']; exact .inl ⟨rfl, rfl⟩
      · rw [f, f']; exact .inr (.inl ⟨p2, s :: ss, rest', rfl, rfl, by simpa using hj⟩)
      · rw [f, f']; exact .inr (.inr (.inl ⟨rfl, rfl⟩))
      · rw [f, f']; exact .inr (.inr (.inr ⟨x, r, rfl, rfl⟩))
    · rw [e, e']; exact .inr (.inr (.inl ⟨rfl, rfl⟩))
    · rw [e, e']; exact .inr (.inr (.inr ⟨x, r, rfl, rfl⟩))

theorem collect_spec {p : StringPool} {xs : List Bytes} (h : Stores p xs) (n i : Nat) :
    p.collect n i = .ok (((xs.drop i).take n).map some) := by
  induction n generalizing i with
  | zero => simp [collect]
  | succ n ih =>
    rw [collect]
    by_cases hi : i < xs.length
    · have hx : xs[i]? = some xs[i] := List.getElem?_eq_getElem hi
      have e : p.iterNext i = .ok (some (some xs[i], i + 1)) := by
        simp only [iterNext, h.1, if_pos hi, (h.2.1 i _ hx).1]
      rw [e]
      simp only [ih]
      rw [List.drop_eq_getElem_cons hi, List.take_succ_cons, List.map_cons]
    · have e : p.iterNext i = .ok none := by
        simp only [iterNext, h.1, if_neg hi]
      rw [e, List.drop_eq_nil_of_le (by omega)]
      simp

theorem foldr_some (xs : List Bytes) :
    (xs.map some).foldr (fun (x : Option Bytes) acc => match x, acc with
      | some b, some r => some (putBytes b ++ r) | _, _ => none) (some []) = some (xs.flatMap putBytes) := by
  induction xs with
  | nil => rfl
  | cons x xs ih => simp [ih]

end CH.StringPool
