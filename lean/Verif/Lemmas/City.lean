import Verif.Model.City
import Verif.Spec.City

/-! Which bytes the functions of city.cc read. -/

namespace CH.City
open CH.Spec

/-- `x` has a meaning on the buffer `m`, reads inside it, reads at least the bytes in `P`, and answers something in `Q`. -/
def Reads (m : Bytes) (x : Cpp α) (P : Int → Prop) (Q : α → Prop) : Prop :=
  ∃ a R, (∀ t, x m t = some (a, t ++ R)) ∧ ReadsInside m.length R ∧ (∀ i, P i → ReadAt R i) ∧ Q a

theorem Reads.pure {m : Bytes} {a : α} {Q : α → Prop} (h : Q a) : Reads m (Cpp.pure a) (fun _ => False) Q :=
  ⟨a, [], fun t => by simp [Cpp.pure], by simp [ReadsInside], by simp, h⟩

theorem Reads.bind {m : Bytes} {x : Cpp α} {f : α → Cpp β} {P P' : Int → Prop} {Q : α → Prop} {Q' : β → Prop}
    (hx : Reads m x P Q) (hf : ∀ a, Q a → Reads m (f a) P' Q') : Reads m (x >>= f) (fun i => P i ∨ P' i) Q' := by
  obtain ⟨a, R, h, hi, hr, hq⟩ := hx
  obtain ⟨b, R', h', hi', hr', hq'⟩ := hf a hq
  refine ⟨b, R ++ R', fun t => ?_, ?_, ?_, hq'⟩
  · show Cpp.bind x f m t = _
    rw [Cpp.bind, h t]
    simp only [h' (t ++ R), List.append_assoc]
  · intro r hmem
    rcases List.mem_append.1 hmem with h | h
    · exact hi r h
    · exact hi' r h
  · rintro i (h | h)
    · obtain ⟨r, hm, hb⟩ := hr i h
      exact ⟨r, List.mem_append_left _ hm, hb⟩
    · obtain ⟨r, hm, hb⟩ := hr' i h
      exact ⟨r, List.mem_append_right _ hm, hb⟩

theorem Reads.weaken {m : Bytes} {x : Cpp α} {P P' : Int → Prop} {Q Q' : α → Prop}
    (hx : Reads m x P Q) (hp : ∀ i, P' i → P i) (hq : ∀ a, Q a → Q' a) : Reads m x P' Q' := by
  obtain ⟨a, R, h, hi, hr, h'⟩ := hx
  exact ⟨a, R, h, hi, fun i h => hr i (hp i h), hq a h'⟩

theorem Reads.fetch {m : Bytes} {n : Nat} {p : Int} (h0 : 0 ≤ p) (h1 : p + n ≤ m.length) :
    Reads m (fetch n p) (fun i => p ≤ i ∧ i < p + n) (fun _ => True) := by
  refine ⟨getLE ((m.drop p.toNat).take n), [(p, n)], fun t => ?_, ?_, ?_, trivial⟩
  · rw [City.fetch, if_pos ⟨h0, h1⟩]
  · intro r hr
    simp at hr
    subst hr
    exact ⟨h0, h1⟩
  · intro i hi
    exact ⟨(p, n), by simp, hi⟩

theorem Reads.fetch64 {m : Bytes} {p : Int} (h0 : 0 ≤ p) (h1 : p + 8 ≤ m.length) :
    Reads m (fetch64 p) (fun i => p ≤ i ∧ i < p + 8) (fun _ => True) :=
  ((Reads.fetch (n := 8) h0 h1).bind (fun _ _ => Reads.pure trivial)).weaken (fun i h => .inl h) (fun _ h => h)

theorem Reads.fetch32 {m : Bytes} {p : Int} (h0 : 0 ≤ p) (h1 : p + 4 ≤ m.length) :
    Reads m (fetch32 p) (fun i => p ≤ i ∧ i < p + 4) (fun _ => True) :=
  ((Reads.fetch (n := 4) h0 h1).bind (fun _ _ => Reads.pure trivial)).weaken (fun i h => .inl h) (fun _ h => h)

theorem Reads.rotate {m : Bytes} {v : UInt64} {n : Nat} (h0 : 0 < n) (h1 : n < 64) :
    Reads m (rotateByAtLeast1 v n) (fun _ => False) (fun _ => True) := by
  rw [rotateByAtLeast1, if_pos ⟨h0, h1⟩]
  exact Reads.pure trivial

theorem reads_short {m : Bytes} {s : Int} {len : Nat} (h0 : 0 ≤ s) (h1 : s + len ≤ m.length) (h2 : len ≤ 16) :
    Reads m (hashLen0to16 s len) (fun i => s ≤ i ∧ i < s + len) (fun _ => True) := by
  rw [hashLen0to16]
  by_cases c1 : len > 8
  · rw [if_pos c1]
    refine Reads.weaken ((Reads.fetch64 h0 (by omega)).bind fun a _ => (Reads.fetch64 (by omega) (by omega)).bind fun b _ =>
      (Reads.rotate (by omega) (by omega)).bind fun r _ => Reads.pure trivial) ?_ (fun _ h => h)
    intro i hi; omega
  · rw [if_neg c1]
    by_cases c2 : len ≥ 4
    · rw [if_pos c2]
      refine Reads.weaken ((Reads.fetch32 h0 (by omega)).bind fun a _ => (Reads.fetch32 (by omega) (by omega)).bind fun b _ =>
        Reads.pure trivial) ?_ (fun _ h => h)
      intro i hi; omega
    · rw [if_neg c2]
      by_cases c3 : len > 0
      · rw [if_pos c3]
        refine Reads.weaken ((Reads.fetch (n := 1) h0 (by omega)).bind fun a _ =>
          (Reads.fetch (n := 1) (p := s + (len / 2 : Nat)) (by omega) (by omega)).bind fun b _ =>
          (Reads.fetch (n := 1) (p := s + len - 1) (by omega) (by omega)).bind fun c _ =>
          Reads.pure trivial) ?_ (fun _ h => h)
        intro i hi; omega
      · rw [if_neg c3]
        refine Reads.weaken (Reads.pure trivial) ?_ (fun _ h => h)
        intro i hi; omega

theorem reads_weak {m : Bytes} {s : Int} {a b : UInt64} (h0 : 0 ≤ s) (h1 : s + 32 ≤ m.length) :
    Reads m (weakHashAt s a b) (fun i => s ≤ i ∧ i < s + 32) (fun _ => True) := by
  refine Reads.weaken ((Reads.fetch64 h0 (by omega)).bind fun _ _ => (Reads.fetch64 (by omega) (by omega)).bind fun _ _ =>
    (Reads.fetch64 (by omega) (by omega)).bind fun _ _ => (Reads.fetch64 (by omega) (by omega)).bind fun _ _ =>
    Reads.pure trivial) ?_ (fun _ h => h)
  intro i hi; omega

/-- All but the last bytes (at most sixteen) of the rest. -/
theorem reads_murmurLoop {m : Bytes} : ∀ (fuel : Nat) {s : Int} {len : Nat} {a b c d : UInt64}, 0 ≤ s → s + len ≤ m.length → 16 < len →
    len < fuel + 16 → Reads m (murmurLoop fuel s len a b c d) (fun i => s ≤ i ∧ i < s + len - 16) (fun _ => True) := by
  intro fuel
  induction fuel with
  | zero => intro s len a b c d h0 h1 h2 h3; omega
  | succ fuel ih =>
    intro s len a b c d h0 h1 h2 h3
    rw [murmurLoop]
    by_cases c1 : len - 16 > 16
    · simp only [if_pos c1]
      refine Reads.weaken ((Reads.fetch64 h0 (by omega)).bind fun _ _ => (Reads.fetch64 (by omega) (by omega)).bind fun _ _ =>
        ih (by omega) (by omega) c1 (by omega)) ?_ (fun _ h => h)
      intro i hi; omega
    · simp only [if_neg c1]
      refine Reads.weaken ((Reads.fetch64 h0 (by omega)).bind fun _ _ => (Reads.fetch64 (by omega) (by omega)).bind fun _ _ =>
        Reads.pure trivial) ?_ (fun _ h => h)
      intro i hi; omega

theorem reads_murmur {m : Bytes} {s : Int} {len : Nat} {seed : UInt64 × UInt64} (h0 : 0 ≤ s) (h1 : s + len ≤ m.length) :
    Reads m (cityMurmur s len seed) (fun i => s ≤ i ∧ i < s + len) (fun _ => True) := by
  rw [cityMurmur]
  by_cases c1 : len ≤ 16
  · rw [if_pos c1]
    by_cases c2 : len ≥ 8
    · simp only [if_pos c2]
      refine Reads.weaken ((reads_short h0 h1 c1).bind fun _ _ => (Reads.fetch64 h0 (by omega)).bind fun _ _ =>
        Reads.pure trivial) ?_ (fun _ h => h)
      intro i hi; omega
    · simp only [if_neg c2]
      refine Reads.weaken ((reads_short h0 h1 c1).bind fun _ _ => Reads.pure trivial) ?_ (fun _ h => h)
      intro i hi; omega
  · rw [if_neg c1]
    refine Reads.weaken ((Reads.fetch64 (by omega) (by omega)).bind fun _ _ => (Reads.fetch64 (by omega) (by omega)).bind fun _ _ =>
      (reads_murmurLoop len h0 h1 (by omega) (by omega)).bind fun _ _ => Reads.pure trivial) ?_ (fun _ h => h)
    intro i hi; omega

theorem reads_half {m : Bytes} {s : Int} {q : State} (h0 : 0 ≤ s) (h1 : s + 64 ≤ m.length) :
    Reads m (half s q) (fun i => s ≤ i ∧ i < s + 64) (fun _ => True) := by
  refine Reads.weaken ((Reads.fetch64 (by omega) (by omega)).bind fun _ _ => (Reads.fetch64 (by omega) (by omega)).bind fun _ _ =>
    (reads_weak h0 (by omega)).bind fun _ _ => (reads_weak (by omega) (by omega)).bind fun _ _ =>
    Reads.pure trivial) ?_ (fun _ h => h)
  intro i hi; omega

/-- The main loop stops with fewer than 128 bytes left, having read all before. -/
theorem reads_mainLoop {m : Bytes} : ∀ (fuel : Nat) {s : Int} {len : Nat} {q : State}, 0 ≤ s → s + len ≤ m.length → 128 ≤ len →
    len < fuel + 128 → Reads m (mainLoop fuel s len q) (fun i => s ≤ i ∧ i < s + len - (len % 128 : Nat))
      (fun r => r.1 = s + len - (len % 128 : Nat) ∧ r.2.1 = len % 128) := by
  intro fuel
  induction fuel with
  | zero => intro s len q h0 h1 h2 h3; omega
  | succ fuel ih =>
    intro s len q h0 h1 h2 h3
    rw [mainLoop]
    by_cases c1 : len - 128 ≥ 128
    · simp only [if_pos c1]
      refine Reads.weaken ((reads_half h0 (by omega)).bind fun _ _ => (reads_half (by omega) (by omega)).bind fun _ _ =>
        ih (by omega) (by omega) c1 (by omega)) ?_ ?_
      · intro i hi; omega
      · rintro ⟨r1, r2, r3⟩ ⟨h, h'⟩
        constructor <;> simp only at h h' ⊢ <;> omega
    · simp only [if_neg c1]
      refine Reads.weaken ((reads_half h0 (by omega)).bind fun _ _ => (reads_half (by omega) (by omega)).bind fun _ _ =>
        Reads.pure (Q := fun r : Int × Nat × State => r.1 = s + len - (len % 128 : Nat) ∧ r.2.1 = len % 128) ⟨?_, ?_⟩) ?_ (fun _ h => h)
      · simp only; omega
      · simp only; omega
      · intro i hi; omega

/-- The tail loop reads backwards in steps of 32 bytes; with 31 bytes in front of `s` it stays inside. -/
theorem reads_tailLoop {m : Bytes} : ∀ (fuel : Nat) {s : Int} {len done : Nat} {q : State}, 31 ≤ s → s + len ≤ m.length →
    0 < fuel → len < done + fuel → Reads m (tailLoop fuel s len done q) (fun i => s ≤ i ∧ i < s + len - done) (fun _ => True) := by
  intro fuel
  induction fuel with
  | zero =>
    intro s len done q h0 h1 h2 h3
    omega
  | succ fuel ih =>
    intro s len done q h0 h1 h2 h3
    rw [tailLoop]
    by_cases c1 : done < len
    · rw [if_pos c1]
      refine Reads.weaken ((Reads.fetch64 (by omega) (by omega)).bind fun _ _ => (reads_weak (by omega) (by omega)).bind fun _ _ =>
        ih h0 h1 (by omega) (by omega)) ?_ (fun _ h => h)
      intro i hi; omega
    · rw [if_neg c1]
      refine Reads.weaken (Reads.pure trivial) ?_ (fun _ h => h)
      intro i hi; omega

theorem reads_withSeed {m : Bytes} {s : Int} {len : Nat} {seed : UInt64 × UInt64} (h0 : 0 ≤ s) (h1 : s + len ≤ m.length) :
    Reads m (cityHash128WithSeed s len seed) (fun i => s ≤ i ∧ i < s + len) (fun _ => True) := by
  rw [cityHash128WithSeed]
  by_cases c1 : len < 128
  · rw [if_pos c1]
    exact reads_murmur h0 h1
  · rw [if_neg c1]
    refine Reads.weaken (P := fun i => _) ((Reads.fetch64 h0 (by omega)).bind fun _ _ =>
      (Reads.fetch64 (by omega) (by omega)).bind fun _ _ => (Reads.fetch64 (by omega) (by omega)).bind fun _ _ =>
      (reads_mainLoop len h0 h1 (by omega) (by omega)).bind
        (P' := fun i => s + len - (len % 128 : Nat) ≤ i ∧ i < s + len) fun r hr => ?_) ?_ (fun _ h => h)
    · obtain ⟨r1, r2, q⟩ := r
      simp only at hr
      refine Reads.weaken ((reads_tailLoop (r2 + 1) (s := r1) (len := r2) (done := 0) ?_ ?_ ?_ ?_).bind fun _ _ =>
        Reads.pure trivial) ?_ (fun _ h => h)
      · omega
      · omega
      · omega
      · omega
      · intro i hi; omega
    · intro i hi; omega

theorem reads_hash (m : Bytes) : Reads m (cityHash128 m.length) (fun i => 0 ≤ i ∧ i < m.length) (fun _ => True) := by
  rw [cityHash128]
  by_cases c1 : m.length ≥ 16
  · rw [if_pos c1]
    refine Reads.weaken ((Reads.fetch64 (by omega) (by omega)).bind fun _ _ => (Reads.fetch64 (by omega) (by omega)).bind fun _ _ =>
      reads_withSeed (by omega) (by omega)) ?_ (fun _ h => h)
    intro i hi; omega
  · rw [if_neg c1]
    by_cases c2 : m.length ≥ 8
    · rw [if_pos c2]
      refine Reads.weaken ((Reads.fetch64 (by omega) (by omega)).bind fun _ _ =>
        (Reads.fetch64 (by omega) (by omega)).bind fun _ _ => reads_withSeed (by omega) (by omega)) ?_ (fun _ h => h)
      intro i hi; omega
    · rw [if_neg c2]
      refine Reads.weaken (reads_withSeed (by omega) (by omega)) ?_ (fun _ h => h)
      intro i hi; omega

end CH.City
