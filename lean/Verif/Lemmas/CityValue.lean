import Verif.Lemmas.City

/-! What the functions of city.cc compute, in terms of `Spec.City`. -/

namespace CH.City
open CH.Spec

theorem shifts (x : UInt64) (n : Nat) (h0 : 0 < n) (h1 : n < 64) :
    (x >>> UInt64.ofNat n) ||| (x <<< UInt64.ofNat (64 - n)) = Spec.City.rot x n := by
  apply UInt64.toBitVec_inj.1
  have e : ∀ k, k < 64 → (UInt64.ofNat k).toBitVec % 64 = BitVec.ofNat 64 k := by
    intro k hk
    apply BitVec.eq_of_toNat_eq
    simp
    omega
  simp only [Spec.City.rot, UInt64.toBitVec_or, UInt64.toBitVec_shiftRight, UInt64.toBitVec_shiftLeft]
  rw [e n h1, e (64 - n) (by omega)]
  rw [BitVec.rotateRight, BitVec.rotateRightAux, Nat.mod_eq_of_lt h1, BitVec.ushiftRight_eq', BitVec.shiftLeft_eq']
  simp
  rw [Nat.mod_eq_of_lt (by omega), Nat.mod_eq_of_lt (by omega)]

theorem rotate_eq (x : UInt64) (n : Nat) (h0 : 0 < n) (h1 : n < 64) : rotate x (UInt64.ofNat n) = Spec.City.rot x n := by
  rw [rotate, if_neg, ← shifts x n h0 h1]
  · have : (64 : UInt64) - UInt64.ofNat n = UInt64.ofNat (64 - n) := by
      rw [UInt64.ofNat_sub (by omega)]
      rfl
    rw [this]
  · intro h
    have := congrArg UInt64.toNat h
    simp at this
    omega

theorem mix_eq (x : UInt64) : shiftMix x = Spec.City.mix x := rfl

theorem mix2_eq (u v : UInt64) : hashLen16 u v = Spec.City.mix2 u v := rfl

theorem weak_eq (w x y z a b : UInt64) : weakHash w x y z a b = Spec.City.weak w x y z a b := by
  simp only [weakHash, Spec.City.weak]
  rw [show (21 : UInt64) = UInt64.ofNat 21 from rfl, show (44 : UInt64) = UInt64.ofNat 44 from rfl,
    rotate_eq _ 21 (by decide) (by decide), rotate_eq _ 44 (by decide) (by decide)]

/-- `len` bytes from `s` on. -/
def part (m : Bytes) (s len : Nat) : Bytes := (m.drop s).take len

theorem part_length {m : Bytes} {s len : Nat} (h : s + len ≤ m.length) : (part m s len).length = len := by
  simp [part]; omega

theorem part_drop {m : Bytes} {s len : Nat} (n : Nat) : (part m s len).drop n = part m (s + n) (len - n) := by
  rw [part, List.drop_take, List.drop_drop, part]

theorem part_word {m : Bytes} {s len i : Nat} (h : i + 8 ≤ len) :
    Spec.City.word (part m s len) i = Spec.City.word m (s + i) := by
  rw [Spec.City.word, part_drop, part, List.take_take, Nat.min_eq_left (by omega), Spec.City.word]

theorem getLE_foldr : ∀ (b : Bytes), getLE b = b.foldr (fun b n => b.toNat + 256 * n) 0
  | [] => rfl
  | b :: bs => by rw [getLE, getLE_foldr bs]; rfl

/-- `x` answers `a` on the buffer `m`. -/
def Val (m : Bytes) (x : Cpp α) (a : α) : Prop := ∃ R, ∀ t, x m t = some (a, t ++ R)

theorem Val.pure {m : Bytes} {a b : α} (h : a = b) : Val m (Cpp.pure a) b := ⟨[], fun t => by simp [Cpp.pure, h]⟩

theorem Val.bind {m : Bytes} {x : Cpp α} {f : α → Cpp β} {a : α} {b : β} (hx : Val m x a) (hf : Val m (f a) b) :
    Val m (x >>= f) b := by
  obtain ⟨R, h⟩ := hx
  obtain ⟨R', h'⟩ := hf
  refine ⟨R ++ R', fun t => ?_⟩
  show Cpp.bind x f m t = _
  rw [Cpp.bind, h t]
  simp only [h' (t ++ R), List.append_assoc]

theorem Val.fetch {m : Bytes} {n p : Nat} {q : Int} (hq : q = p) (h : p + n ≤ m.length) :
    Val m (fetch n q) (getLE (part m p n)) := by
  subst hq
  refine ⟨[((p : Int), n)], fun t => ?_⟩
  rw [City.fetch, if_pos ⟨by omega, by omega⟩]
  rfl

theorem Val.fetch64 {m : Bytes} {p : Nat} {q : Int} (hq : q = p) (h : p + 8 ≤ m.length) :
    Val m (fetch64 q) (Spec.City.word m p) := by
  refine (Val.fetch (n := 8) hq h).bind (Val.pure ?_)
  rw [getLE_foldr]
  rfl

theorem Val.fetch32 {m : Bytes} {p : Nat} {q : Int} (hq : q = p) (h : p + 4 ≤ m.length) :
    Val m (fetch32 q) (Spec.City.word (part m p 4) 0) := by
  refine (Val.fetch (n := 4) hq h).bind (Val.pure ?_)
  rw [getLE_foldr, Spec.City.word, List.drop_zero, List.take_of_length_le]
  rw [part_length h]; omega

theorem Val.rotate {m : Bytes} {v : UInt64} {n : Nat} (h0 : 0 < n) (h1 : n < 64) :
    Val m (rotateByAtLeast1 v n) (Spec.City.rot v n) := by
  rw [rotateByAtLeast1, if_pos ⟨h0, h1⟩]
  exact Val.pure (shifts v n h0 h1)

theorem getLE_one (b : UInt8) : getLE [b] = b.toNat := by simp [getLE]

theorem part_one {m : Bytes} {s len i : Nat} {b : UInt8} (h : (part m s len)[i]? = some b) : getLE (part m (s + i) 1) = b.toNat := by
  have hi : i < len := by
    have := List.getElem?_eq_some_iff.1 h
    obtain ⟨h1, _⟩ := this
    simp [part] at h1; omega
  have : part m (s + i) 1 = [b] := by
    rw [part, List.getElem?_take, if_pos hi, List.getElem?_drop] at h
    rw [part]
    obtain ⟨h1, h2⟩ := List.getElem?_eq_some_iff.1 h
    rw [List.drop_eq_getElem_cons h1, h2]
    rfl
  rw [this, getLE_one]

theorem val_short {m : Bytes} {s len : Nat} (h1 : s + len ≤ m.length) (h2 : len ≤ 16) :
    Val m (hashLen0to16 s len) (Spec.City.short (part m s len)) := by
  have hl := part_length h1
  rw [hashLen0to16, Spec.City.short.eq_def, hl]
  by_cases c1 : len > 8
  · rw [if_pos c1, if_pos c1]
    refine (Val.fetch64 (p := s) rfl (by omega)).bind ((Val.fetch64 (p := s + len - 8) (by omega) (by omega)).bind
      ((Val.rotate (by omega) (by omega)).bind (Val.pure ?_)))
    rw [part_word (by omega), part_word (by omega), mix2_eq, Nat.add_sub_assoc (by omega)]
    rfl
  · rw [if_neg c1, if_neg c1]
    by_cases c2 : len ≥ 4
    · rw [if_pos c2, if_pos c2]
      refine (Val.fetch32 (p := s) rfl (by omega)).bind ((Val.fetch32 (p := s + len - 4) (by omega) (by omega)).bind (Val.pure ?_))
      have e1 : (part m s len).take 4 = part m s 4 := by
        rw [part, List.take_take, Nat.min_eq_left c2, part]
      have e2 : Spec.City.word (part m s len) (len - 4) = Spec.City.word (part m (s + len - 4) 4) 0 := by
        rw [Spec.City.word, Spec.City.word, part_drop, Nat.sub_sub_self c2, ← Nat.add_sub_assoc c2, List.drop_zero]
      rw [e1, e2, mix2_eq]
    · rw [if_neg c2, if_neg c2]
      by_cases c3 : len > 0
      · rw [if_pos c3]
        refine (Val.fetch (n := 1) (p := s + 0) (by omega) (by omega)).bind
          ((Val.fetch (n := 1) (p := s + len / 2) (by omega) (by omega)).bind
          ((Val.fetch (n := 1) (p := s + (len - 1)) (by omega) (by omega)).bind (Val.pure ?_)))
        match hp : part m s len, hl with
        | [a], hl =>
          simp at hl; subst hl
          rw [part_one (b := a) (len := 1) (by rw [hp]; rfl)]
          have ha := a.toNat_lt
          rw [Nat.mod_eq_of_lt (by omega), Nat.mod_eq_of_lt (by omega), Nat.mul_comm a.toNat 256, Nat.mul_comm a.toNat 4]
          rfl
        | [a, b], hl =>
          simp at hl; subst hl
          rw [part_one (b := a) (len := 2) (by rw [hp]; rfl), part_one (b := b) (len := 2) (by rw [hp]; rfl)]
          have ha := a.toNat_lt
          have hb := b.toNat_lt
          rw [Nat.mod_eq_of_lt (by omega), Nat.mod_eq_of_lt (by omega), Nat.mul_comm b.toNat 256, Nat.mul_comm b.toNat 4]
          rfl
        | [a, b, c], hl =>
          simp at hl; subst hl
          rw [part_one (b := a) (len := 3) (by rw [hp]; rfl), part_one (b := b) (len := 3) (by rw [hp]; rfl),
            part_one (b := c) (len := 3) (by rw [hp]; rfl)]
          have ha := a.toNat_lt
          have hb := b.toNat_lt
          have hc := c.toNat_lt
          rw [Nat.mod_eq_of_lt (by omega), Nat.mod_eq_of_lt (by omega), Nat.mul_comm b.toNat 256, Nat.mul_comm c.toNat 4]
          rfl
        | [], hl => simp at hl; omega
        | _ :: _ :: _ :: _ :: _, hl => simp at hl; omega
      · rw [if_neg c3]
        have : len = 0 := by omega
        subst this
        exact Val.pure rfl

theorem val_weak {m : Bytes} {s len i : Nat} {p : Int} {a b : UInt64} (hp : p = (s + i : Nat)) (h1 : s + len ≤ m.length)
    (h2 : i + 32 ≤ len) : Val m (weakHashAt p a b) (Spec.City.weakAt (part m s len) i a b) := by
  refine (Val.fetch64 (p := s + i) hp (by omega)).bind ((Val.fetch64 (p := s + (i + 8)) (by omega) (by omega)).bind
    ((Val.fetch64 (p := s + (i + 16)) (by omega) (by omega)).bind ((Val.fetch64 (p := s + (i + 24)) (by omega) (by omega)).bind
    (Val.pure ?_))))
  rw [weak_eq, Spec.City.weakAt, part_word (by omega), part_word (by omega), part_word (by omega), part_word (by omega)]

theorem val_murmurLoop {m : Bytes} : ∀ (fuel : Nat) {s : Int} {k len : Nat} {a b c d : UInt64}, s = k → k + len ≤ m.length →
    16 < len → len < fuel + 16 → ∀ r, Spec.City.absorbAll (part m k len) (a, b) (c, d) = r →
    Val m (murmurLoop fuel s len a b c d) (r.1.1, r.1.2, r.2.1, r.2.2) := by
  intro fuel
  induction fuel with
  | zero => intro s k len a b c d h0 h1 h2 h3; omega
  | succ fuel ih =>
    intro s k len a b c d h0 h1 h2 h3 r hr
    subst h0
    rw [murmurLoop]
    rw [Spec.City.absorbAll, if_pos (by rw [part_length h1]; omega), part_drop, part_word (by omega), part_word (by omega)] at hr
    refine (Val.fetch64 (p := k) rfl (by omega)).bind ((Val.fetch64 (p := k + 8) (by omega) (by omega)).bind ?_)
    by_cases c1 : len - 16 > 16
    · rw [if_pos c1]
      exact ih (k := k + 16) (by omega) (by omega) c1 (by omega) r hr
    · rw [if_neg c1]
      rw [Spec.City.absorbAll, if_neg (by rw [part_length (by omega)]; omega)] at hr
      subst hr
      exact Val.pure rfl

theorem val_murmur {m : Bytes} {s len : Nat} {seed : UInt64 × UInt64} (h1 : s + len ≤ m.length) :
    Val m (cityMurmur s len seed) (Spec.City.murmur (part m s len) seed) := by
  have hl := part_length h1
  rw [cityMurmur, Spec.City.murmur, hl]
  by_cases c1 : len ≤ 16
  · rw [if_pos c1, if_pos c1]
    refine (val_short h1 c1).bind ?_
    by_cases c2 : len ≥ 8
    · simp only [if_pos c2]
      refine (Val.fetch64 (p := s) rfl (by omega)).bind (Val.pure ?_)
      rw [part_word (by omega)]
      rfl
    · simp only [if_neg c2]
      exact Val.pure rfl
  · rw [if_neg c1, if_neg c1]
    refine (Val.fetch64 (p := s + (len - 8)) (by omega) (by omega)).bind
      ((Val.fetch64 (p := s + (len - 16)) (by omega) (by omega)).bind ?_)
    rw [part_word (by omega), part_word (by omega)]
    exact (val_murmurLoop len rfl h1 (by omega) (by omega) _ rfl).bind (Val.pure rfl)

/-- The state of the specification. -/
def State.spec (q : State) : Spec.City.S := ⟨q.v, q.w, q.x, q.y, q.z⟩

theorem val_half {m : Bytes} {s : Int} {k len : Nat} {q : State} (h0 : s = k) (h1 : k + len ≤ m.length) (h2 : 64 ≤ len) :
    ∃ q', q'.spec = Spec.City.absorb64 (part m k len) q.spec ∧ Val m (half s q) q' := by
  refine ⟨⟨(Spec.City.absorb64 (part m k len) q.spec).v, (Spec.City.absorb64 (part m k len) q.spec).w,
    (Spec.City.absorb64 (part m k len) q.spec).x, (Spec.City.absorb64 (part m k len) q.spec).y,
    (Spec.City.absorb64 (part m k len) q.spec).z⟩, rfl, ?_⟩
  refine (Val.fetch64 (p := k + 16) (by omega) (by omega)).bind ((Val.fetch64 (p := k + 48) (by omega) (by omega)).bind
    ((val_weak (s := k) (i := 0) (len := len) (by omega) h1 (by omega)).bind
    ((val_weak (s := k) (i := 32) (len := len) (by omega) h1 (by omega)).bind (Val.pure ?_))))
  simp only [Spec.City.absorb64, State.spec]
  rw [show (37 : UInt64) = UInt64.ofNat 37 from rfl, show (42 : UInt64) = UInt64.ofNat 42 from rfl,
    show (33 : UInt64) = UInt64.ofNat 33 from rfl]
  rw [rotate_eq _ 37 (by decide) (by decide), rotate_eq _ 42 (by decide) (by decide), rotate_eq _ 33 (by decide) (by decide)]
  rw [part_word (by omega), part_word (by omega)]
  rfl

theorem val_mainLoop {m : Bytes} : ∀ (fuel : Nat) {s : Int} {k len : Nat} {q : State}, s = k → k + len ≤ m.length → 128 ≤ len →
    len < fuel + 128 → ∃ q', q'.spec = Spec.City.absorb128 (part m k len) q.spec ∧
      Val m (mainLoop fuel s len q) ((k + len - len % 128 : Nat), len % 128, q') := by
  intro fuel
  induction fuel with
  | zero => intro s k len q h0 h1 h2 h3; omega
  | succ fuel ih =>
    intro s k len q h0 h1 h2 h3
    obtain ⟨q1, e1, v1⟩ := val_half (q := q) h0 h1 (by omega)
    obtain ⟨q2, e2, v2⟩ := val_half (m := m) (s := s + 64) (k := k + 64) (len := len - 64) (q := q1) (by omega) (by omega) (by omega)
    have e : Spec.City.absorb128 (part m k len) q.spec = Spec.City.absorb128 (part m (k + 128) (len - 128)) q2.spec := by
      rw [Spec.City.absorb128, if_pos (by rw [part_length h1]; omega), part_drop, part_drop, ← e1, ← e2]
    rw [mainLoop, e]
    by_cases c1 : len - 128 ≥ 128
    · obtain ⟨q', e', v'⟩ := ih (s := s + 128) (k := k + 128) (len := len - 128) (q := q2) (by omega) (by omega) c1 (by omega)
      refine ⟨q', e', v1.bind (v2.bind ?_)⟩
      rw [if_pos c1]
      rw [show k + len - len % 128 = k + 128 + (len - 128) - (len - 128) % 128 by omega, show len % 128 = (len - 128) % 128 by omega]
      exact v'
    · refine ⟨q2, ?_, v1.bind (v2.bind ?_)⟩
      · rw [Spec.City.absorb128, if_neg (by rw [part_length (by omega)]; omega)]
      · rw [if_neg c1]
        refine Val.pure ?_
        rw [show len % 128 = len - 128 by omega]
        subst h0
        rw [show ((k : Int) + 128) = (k + len - (len - 128) : Nat) by omega]

/-- Rounds at the end, from round `j` on; `k` and `len` are pointer and length of the whole message. -/
theorem val_tailLoop {m : Bytes} {k len : Nat} (h1 : k + len ≤ m.length) (h2 : 128 ≤ len) : ∀ (fuel : Nat) {s : Int} {j : Nat} {q : State},
    s = (k + len - len % 128 : Nat) → j ≤ (len % 128 + 31) / 32 → (len % 128 + 31) / 32 < j + fuel →
    ∃ q', q'.spec = ((List.range' j ((len % 128 + 31) / 32 - j)).map fun j => len - 32 * (j + 1)).foldl
        (Spec.City.absorb32 (part m k len)) q.spec ∧
      Val m (tailLoop fuel s (len % 128) (32 * j) q) q' := by
  intro fuel
  induction fuel with
  | zero => intro s j q h0 h3 h4; omega
  | succ fuel ih =>
    intro s j q h0 h3 h4
    rw [tailLoop]
    by_cases c1 : 32 * j < len % 128
    · rw [if_pos c1]
      have hi : len - 32 * (j + 1) + 32 ≤ len := by omega
      let q1 : State := ⟨Spec.City.weakAt (part m k len) (len - 32 * (j + 1)) q.v.1 q.v.2,
        (q.w.1 + Spec.City.word m (k + (len - 32 * (j + 1) + 16)) + q.v.1, q.w.2),
        rotate q.x 49 * k0 + (q.w.1 + Spec.City.word m (k + (len - 32 * (j + 1) + 16))), rotate (q.y - q.x) 42 * k0 + q.v.2, q.z⟩
      have e1 : q1.spec = Spec.City.absorb32 (part m k len) q.spec (len - 32 * (j + 1)) := by
        simp only [Spec.City.absorb32, State.spec, q1]
        rw [part_word (by omega), show (49 : UInt64) = UInt64.ofNat 49 from rfl, show (42 : UInt64) = UInt64.ofNat 42 from rfl,
          rotate_eq _ 49 (by decide) (by decide), rotate_eq _ 42 (by decide) (by decide)]
        rfl
      obtain ⟨q', e', v'⟩ := ih (s := s) (j := j + 1) (q := q1) h0 (by omega) (by omega)
      refine ⟨q', ?_, ?_⟩
      · rw [show (len % 128 + 31) / 32 - j = ((len % 128 + 31) / 32 - (j + 1)) + 1 by omega, List.range'_succ, List.map_cons,
          List.foldl_cons, ← e1, e']
      · refine (Val.fetch64 (p := k + (len - 32 * (j + 1) + 16)) (by omega) (by omega)).bind
          ((val_weak (s := k) (i := len - 32 * (j + 1)) (len := len) (by omega) h1 (by omega)).bind v')
    · rw [if_neg c1]
      refine ⟨q, ?_, Val.pure rfl⟩
      rw [show (len % 128 + 31) / 32 - j = 0 by omega]
      rfl

theorem val_withSeed {m : Bytes} {s len : Nat} {seed : UInt64 × UInt64} (h1 : s + len ≤ m.length) :
    Val m (cityHash128WithSeed s len seed) (Spec.City.seeded (part m s len) seed) := by
  have hl := part_length h1
  rw [cityHash128WithSeed, Spec.City.seeded, hl]
  by_cases c1 : len < 128
  · rw [if_pos c1, if_pos c1]
    exact val_murmur h1
  · rw [if_neg c1, if_neg c1]
    refine (Val.fetch64 (p := s) rfl (by omega)).bind ((Val.fetch64 (p := s + 8) (by omega) (by omega)).bind
      ((Val.fetch64 (p := s + 88) (by omega) (by omega)).bind ?_))
    rw [Spec.City.long, hl, part_word (by omega), part_word (by omega), part_word (by omega)]
    obtain ⟨q1, e1, v1⟩ := val_mainLoop (m := m) len (s := s) (k := s) (len := len) (q := ⟨_, _, _, _, _⟩) rfl h1 (by omega) (by omega)
    refine v1.bind ?_
    obtain ⟨q2, e2, v2⟩ := val_tailLoop (m := m) h1 (by omega) (len % 128 + 1) (s := _) (j := 0) (q := ⟨_, _, _, _, _⟩) rfl
      (by omega) (by omega)
    refine v2.bind (Val.pure ?_)
    have r (n : Nat) (h0 : 0 < n) (h1 : n < 64) (x : UInt64) : rotate x (UInt64.ofNat n) = Spec.City.rot x n := rotate_eq x n h0 h1
    have r49 := r 49 (by decide) (by decide)
    have r42 := r 42 (by decide) (by decide)
    have r35 := r 35 (by decide) (by decide)
    have r53 := r 53 (by decide) (by decide)
    have r37 := r 37 (by decide) (by decide)
    rw [show UInt64.ofNat 49 = 49 from rfl] at r49
    rw [show UInt64.ofNat 42 = 42 from rfl] at r42
    rw [show UInt64.ofNat 35 = 35 from rfl] at r35
    rw [show UInt64.ofNat 53 = 53 from rfl] at r53
    rw [show UInt64.ofNat 37 = 37 from rfl] at r37
    simp only [State.spec, k0, k1, r49, r42, r35, r53, r37] at e1 e2
    simp only [Nat.add_zero]
    rw [← e1]
    simp only [Spec.City.positions, List.range_eq_range']
    simp only [Nat.sub_zero] at e2
    rw [← e2]
    rfl

theorem val_hash (m : Bytes) : Val m (cityHash128 m.length) (Spec.City.hash m) := by
  have hm : part m 0 m.length = m := by simp [part]
  rw [cityHash128, Spec.City.hash]
  by_cases c1 : m.length ≥ 16
  · rw [if_pos c1, if_pos c1]
    refine (Val.fetch64 (p := 0) rfl (by omega)).bind ((Val.fetch64 (p := 8) rfl (by omega)).bind ?_)
    have := val_withSeed (m := m) (s := 16) (len := m.length - 16) (seed := (Spec.City.word m 0 ^^^ k3, Spec.City.word m 8)) (by omega)
    have e : part m 16 (m.length - 16) = m.drop 16 := by
      rw [part, List.take_of_length_le (by simp)]
    rw [e] at this
    exact this
  · rw [if_neg c1, if_neg c1]
    by_cases c2 : m.length ≥ 8
    · rw [if_pos c2, if_pos c2]
      refine (Val.fetch64 (p := 0) rfl (by omega)).bind ((Val.fetch64 (p := m.length - 8) (by omega) (by omega)).bind ?_)
      have := val_withSeed (m := m) (s := 0) (len := 0)
        (seed := (Spec.City.word m 0 ^^^ (UInt64.ofNat m.length * k0), Spec.City.word m (m.length - 8) ^^^ k1)) (by omega)
      exact this
    · rw [if_neg c2, if_neg c2]
      have := val_withSeed (m := m) (s := 0) (len := m.length) (seed := (k0, k1)) (by omega)
      rw [hm] at this
      exact this

end CH.City
