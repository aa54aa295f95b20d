import Verif.Spec.Into
import Verif.Lemmas.Values
import Verif.Lemmas.From

/-! Lemmas about conversions between Rust values and `Value`. -/

namespace CH

open Spec

theorem declares_typed {t : RustTy} (h : Legal.Typed t) (hl : Legal t) : declares t = some t.sqlType := by
  induction t with
  | hmap k v _ ih =>
    simp only [Legal] at hl
    rw [declares, ih hl.2.1 hl.2.2]
    cases k <;> simp_all [Legal.KeyTy, declares, RustTy.sqlType]
  | _ => simp_all [Legal.Typed, declares, RustTy.sqlType]

theorem ownPut_new {k v : Value} : ∀ {ks vs : List Value}, ks.length = vs.length → (∀ x ∈ ks, ownEq x k ≠ .ok true) →
    ownPut k v ks vs = (ks ++ [k], vs ++ [v])
  | [], [], _, _ => rfl
  | x :: xs, y :: ys, hl, h => by
    have ih := ownPut_new (k := k) (v := v) (ks := xs) (vs := ys) (by simpa using hl) fun z hz => h z (by simp [hz])
    rw [ownPut]
    split
    · rename_i e; exact absurd e (h x (by simp))
    · simp [ih]

theorem ownFill_new : ∀ {ps : List (Value × Value)} {a b : List Value}, a.length = b.length →
    (∀ p ∈ ps, ∃ f, ownHash p.1 = .ok f) → (a ++ ps.map (·.1)).Pairwise (fun x y => ownEq x y ≠ .ok true) →
    ownFill (a, b) ps = .ok (a ++ ps.map (·.1), b ++ ps.map (·.2))
  | [], a, b, _, _, _ => by simp [ownFill]
  | (k, v) :: ps, a, b, hl, hh, hp => by
    obtain ⟨f, hf⟩ := hh (k, v) (by simp)
    have hn : ownPut k v a b = (a ++ [k], b ++ [v]) :=
      ownPut_new hl fun x hx => (List.pairwise_append.mp hp).2.2 x hx k (by simp)
    rw [ownFill, hf]
    simp only [hn]
    rw [ownFill_new (by simp [hl]) (fun p hp => hh p (by simp [hp])) (by simpa using hp)]
    simp

/-- The value of a key. -/
def keyValue : (k : RustTy) → k.El → Value
  | .num t, x => .num t x
  | .text, x => .str (strBytes x)
  | _, _ => .str []

theorem asStr_text (s : String) : Value.asStr (.str (strBytes s)) = .ok (.text s) := by
  rw [Value.asStr, strOfBytes_strBytes]

theorem strBytes_ne {x y : String} (h : x ≠ y) : strBytes x ≠ strBytes y := by
  intro e
  have h1 := strOfBytes_strBytes x
  rw [e, strOfBytes_strBytes] at h1
  exact h (Option.some.inj h1).symm

theorem text_ne {x y : String} (h : x ≠ y) : ownEq (.str (strBytes x)) (.str (strBytes y)) ≠ .ok true ∧
    Value.keyEq (.str (strBytes x)) (.str (strBytes y)) = false := by
  simp [ownEq, Value.keyEq, strBytes_ne h]

theorem num_ne {t : NumTy} (h2 : t ≠ .f32) (h3 : t ≠ .f64) {x y : Nat} (h : x ≠ y) :
    ownEq (.num t x) (.num t y) ≠ .ok true ∧ Value.keyEq (.num t x) (.num t y) = false := by
  have hz : numEq t x y = false := by
    simp only [numEq]
    cases t <;> simp_all [isZero, isNaN] <;> omega
  simp [ownEq, Value.keyEq, hz, h]

theorem key_facts {k : RustTy} (hk : k = .text ∨ ∃ t, k = .num t ∧ t ≠ .bool ∧ t ≠ .f32 ∧ t ≠ .f64) (x : k.El) :
    toValue k x = .ok (keyValue k x) ∧ (keyValue k x).refHashable = true ∧
    (∃ r, fromSql (askedFor k) (keyValue k x) = .ok r ∧ Returns k x r) := by
  rcases hk with rfl | ⟨t, rfl, h⟩
  · exact ⟨rfl, rfl, .text x, asStr_text x, rfl⟩
  · refine ⟨rfl, ?_, ?_⟩
    · simp [keyValue, Value.refHashable, h]
    · exact ⟨.num x, by simp [askedFor, keyValue, fromSql], rfl⟩

theorem key_ne {k : RustTy} (hk : k = .text ∨ ∃ t, k = .num t ∧ t ≠ .bool ∧ t ≠ .f32 ∧ t ≠ .f64) {x y : k.El} (h : x ≠ y) :
    ownEq (keyValue k x) (keyValue k y) ≠ .ok true ∧ Value.keyEq (keyValue k x) (keyValue k y) = false := by
  rcases hk with rfl | ⟨t, rfl, _, h2, h3⟩
  · exact text_ne h
  · exact num_ne h2 h3 h

theorem intoPairs_ok {α β : Type} {f : α → Out Value} {g : β → Out Value} {f' : α → Value} (hf : ∀ a, f a = .ok (f' a)) :
    ∀ {ps : List (α × β)}, (∀ p ∈ ps, ∃ v, g p.2 = .ok v) →
    ∃ vs : List Value, intoPairs f g ps = .ok ((ps.map fun p => f' p.1).zip vs) ∧ vs.length = ps.length ∧
      ∀ (i : Nat) p v, ps[i]? = some p → vs[i]? = some v → g p.2 = .ok v
  | [], _ => ⟨[], rfl, rfl, by simp⟩
  | (a, b) :: ps, h => by
    obtain ⟨v, hv⟩ := h (a, b) (by simp)
    obtain ⟨vs, h1, h2, h3⟩ := intoPairs_ok hf (ps := ps) fun p hp => h p (List.mem_cons_of_mem _ hp)
    refine ⟨v :: vs, ?_, by simp [h2], ?_⟩
    · simp only [intoPairs, hf, hv, h1, obind_ok]; rfl
    · intro i p w hp hw
      cases i with
      | zero => simp at hp hw; rw [← hp, ← hw]; exact hv
      | succ i => simp at hp hw; exact h3 i p w hp hw

theorem readPairs_ok {f g : Value → Out RustVal} : ∀ {ks vs : List Value}, ks.length = vs.length →
    (∀ k ∈ ks, ∃ r, f k = .ok r) → (∀ v ∈ vs, ∃ r, g v = .ok r) →
    ∃ as bs, readPairs f g ks vs = .ok (as, bs) ∧ as.length = ks.length ∧ bs.length = vs.length ∧
      (∀ (i : Nat) k a, ks[i]? = some k → as[i]? = some a → f k = .ok a) ∧
      (∀ (i : Nat) v b, vs[i]? = some v → bs[i]? = some b → g v = .ok b)
  | [], [], _, _, _ => ⟨[], [], rfl, rfl, rfl, by simp, by simp⟩
  | k :: ks, v :: vs, hl, hf, hg => by
    obtain ⟨a, ha⟩ := hf k (by simp)
    obtain ⟨b, hb⟩ := hg v (by simp)
    obtain ⟨as, bs, h1, h2, h3, h4, h5⟩ := readPairs_ok (f := f) (g := g) (ks := ks) (vs := vs) (by simpa using hl)
      (fun k hk => hf k (by simp [hk])) (fun v hv => hg v (by simp [hv]))
    refine ⟨a :: as, b :: bs, ?_, by simp [h2], by simp [h3], ?_, ?_⟩
    · simp only [readPairs, ha, hb, h1, obind_ok]; rfl
    · intro i x y hx hy
      cases i with
      | zero => simp at hx hy; rw [← hx, ← hy]; exact ha
      | succ i => simp at hx hy; exact h4 i x y hx hy
    · intro i x y hx hy
      cases i with
      | zero => simp at hx hy; rw [← hx, ← hy]; exact hb
      | succ i => simp at hx hy; exact h5 i x y hx hy

theorem readAll_map {α : Type} {f : Value → Out RustVal} {g : α → Value} {r : α → RustVal} (h : ∀ a, f (g a) = .ok (r a)) :
    ∀ {xs : List α}, readAll f (xs.map g) = .ok (xs.map r)
  | [] => rfl
  | x :: xs => by
    simp only [List.map_cons, readAll, h, readAll_map h, obind_ok]; rfl

theorem nums_back (t : NumTy) (xs : List Nat) :
    fromSql (.vecNum t) (.array (.num t) (xs.map fun n => .num t n)) = .ok (.vec (xs.map fun n => .num n)) := by
  simp only [fromSql, readVec]
  rw [if_pos (by simp), readAll_map (g := fun n => .num t n) (r := fun n => .num n) (fun n => by simp [Value.intoNum])]
  rfl

theorem texts_back (xs : List String) :
    fromSql .vecText (.array .string (xs.map fun s => .str (strBytes s))) = .ok (.vec (xs.map fun s => .text s)) := by
  simp only [fromSql, readVec]
  rw [if_pos (by decide), readAll_map (g := fun s => .str (strBytes s)) (r := fun s => .text s) asStr_text]
  rfl

theorem map_back {k v : RustTy} {x : List (k.El × v.El)}
    (hk : k = .text ∨ ∃ t, k = .num t ∧ t ≠ .bool ∧ t ≠ .f32 ∧ t ≠ .f64) (hn : (x.map (·.1)).Nodup)
    (ih : ∀ p ∈ x, ∃ w r, toValue v p.2 = .ok w ∧ Borrowable w ∧ fromSql (askedFor v) w = .ok r ∧ Returns v p.2 r) :
    ∃ w r, toValue (.hmap k v) x = .ok w ∧ Borrowable w ∧ fromSql (askedFor (.hmap k v)) w = .ok r ∧
      Returns (.hmap k v) x r := by
  obtain ⟨vs, h1, h2, h3⟩ := intoPairs_ok (f := toValue k) (g := toValue v) (f' := keyValue k)
    (fun a => (key_facts hk a).1) (ps := x) fun p hp => by
      obtain ⟨w, _, h, _⟩ := ih p hp
      exact ⟨w, h⟩
  have hz1 : ((x.map fun p => keyValue k p.1).zip vs).map (·.1) = x.map fun p => keyValue k p.1 := by
    rw [List.map_fst_zip]; simp [h2]
  have hz2 : ((x.map fun p => keyValue k p.1).zip vs).map (·.2) = vs := by
    rw [List.map_snd_zip]; simp [h2]
  have hp1 : (x.map fun p => keyValue k p.1).Pairwise (fun a b => ownEq a b ≠ .ok true ∧ Value.keyEq a b = false) := by
    rw [show (x.map fun p => keyValue k p.1) = (x.map (·.1)).map (keyValue k) by simp, List.pairwise_map]
    exact List.Pairwise.imp (fun h => key_ne hk h) hn
  have hkeys : ∀ a ∈ x.map fun p => keyValue k p.1, a.refHashable = true ∧ ∃ r, fromSql (askedFor k) a = .ok r := by
    intro a ha
    obtain ⟨p, -, rfl⟩ := List.mem_map.mp ha
    obtain ⟨_, f1, r, f2, _⟩ := key_facts hk p.1
    exact ⟨f1, r, f2⟩
  have hvals : ∀ w ∈ vs, ∃ r, Borrowable w ∧ fromSql (askedFor v) w = .ok r := by
    intro w hw
    obtain ⟨i, hi, rfl⟩ := List.getElem_of_mem hw
    have hx : i < x.length := by omega
    obtain ⟨w', r, g1, g2, g3, _⟩ := ih x[i] (List.getElem_mem hx)
    have := h3 i x[i] vs[i] (by simp [hx]) (by simp [hi])
    rw [this] at g1
    cases g1
    exact ⟨r, g2, g3⟩
  have hfill : ownFill ([], []) ((x.map fun p => keyValue k p.1).zip vs) = .ok (x.map (fun p => keyValue k p.1), vs) := by
    rw [ownFill_new rfl, hz1, hz2]
    · simp
    · intro p hp
      have : p.1 ∈ x.map fun p => keyValue k p.1 := by rw [← hz1]; exact List.mem_map_of_mem hp
      exact ownHash_of_ref (hkeys _ this).1
    · rw [hz1]; simpa using hp1.imp fun h => h.1
  obtain ⟨as, bs, r1, r2, r3, r4, r5⟩ := readPairs_ok (f := fromSql (askedFor k)) (g := fromSql (askedFor v))
    (ks := x.map fun p => keyValue k p.1) (vs := vs) (by simp [h2]) (fun a ha => (hkeys a ha).2)
    (fun w hw => by obtain ⟨r, _, h⟩ := hvals w hw; exact ⟨r, h⟩)
  refine ⟨.map k.sqlType v.sqlType (x.map fun p => keyValue k p.1) vs, .hmap as bs, ?_, ?_, ?_, as, bs, rfl, ?_, ?_, ?_⟩
  · simp only [toValue]
    rw [h1, obind_ok, hfill, obind_ok]
    rfl
  · exact .map (by simp [h2]) (fun a ha => (hkeys a ha).1) (hp1.imp fun h => h.2) fun w hw => by
      obtain ⟨_, h, _⟩ := hvals w hw; exact h
  · simp only [askedFor, fromSql]
    rw [r1]; rfl
  · rw [r2, List.length_map]
  · rw [r3, h2]
  · intro i p a b hp ha hb
    have hi : x[i]? = some p := hp
    obtain ⟨hlt, rfl⟩ := List.getElem?_eq_some_iff.mp hi
    constructor
    · obtain ⟨_, _, r, f2, f3⟩ := key_facts hk x[i].1
      have := r4 i (keyValue k x[i].1) a (by simp [hlt]) ha
      rw [f2] at this
      cases this
      exact f3
    · obtain ⟨w, r, g1, g2, g3, g4⟩ := ih x[i] (List.getElem_mem hlt)
      have hv : i < vs.length := by omega
      have e := h3 i x[i] vs[i] hi (by simp [hv])
      rw [g1] at e
      cases e
      have := r5 i vs[i] b (by simp [hv]) hb
      rw [g3] at this
      cases this
      exact g4

/-- A value made from a Rust value can be borrowed, and read as the Rust value. -/
theorem made_back {t : RustTy} {x : t.El} (hb : Borrows t) (hh : Held t x) :
    ∃ v r, toValue t x = .ok v ∧ Borrowable v ∧ fromSql (askedFor t) v = .ok r ∧ Returns t x r := by
  induction t with
  | num t => exact ⟨_, .num x, rfl, .num, by simp [askedFor, fromSql], rfl⟩
  | decimal => exact ⟨_, .decimal x, rfl, .decimal, rfl, rfl⟩
  | enum w => exact ⟨_, .enum x, rfl, .enum, by simp [askedFor, fromSql], rfl⟩
  | text => exact ⟨_, .text x, rfl, .str, asStr_text x, rfl⟩
  | bytes => exact ⟨_, .bytes x, rfl, .str, rfl, rfl⟩
  | date => exact ⟨_, .date (getDays x), rfl, .date, rfl, _, rfl, (getDays_of hh).1⟩
  | time => exact hb.elim
  | utc =>
    obtain ⟨s, n⟩ := x
    obtain ⟨h1, h2, h3⟩ := hh
    dsimp only at h1 h2 h3
    subst h3
    refine ⟨_, .time (asU32 s) 0 "UTC".toList, rfl, .datetime, rfl, ?_⟩
    simp only [Returns]
    rw [(asU32_range ⟨h1, h2⟩).1]
  | octets4 => exact hb.elim
  | octets16 => exact ⟨_, .ip x, rfl, .ip, rfl, rfl⟩
  | uuid =>
    refine ⟨_, .ip x, rfl, .ip, ?_, rfl⟩
    have := ip_back (k := .uuid) (o := x) hh
    simp only [askedFor, fromSql]
    exact congrArg (fun o => Out.ok (RustVal.ip o)) this
  | vecNum t =>
    refine ⟨_, _, rfl, .array ?_, nums_back t x, rfl⟩
    intro v hv
    obtain ⟨n, -, rfl⟩ := List.mem_map.mp hv
    exact .num
  | vecText =>
    refine ⟨_, _, rfl, .array ?_, texts_back x, rfl⟩
    intro v hv
    obtain ⟨n, -, rfl⟩ := List.mem_map.mp hv
    exact .str
  | opt t ih =>
    cases x with
    | none => exact ⟨_, .none, rfl, .null, rfl, rfl⟩
    | some y =>
      obtain ⟨v, r, h1, h2, h3, h4⟩ := ih (x := y) hb (hh y rfl)
      refine ⟨.some v, .some r, ?_, .some h2, ?_, r, rfl, h4⟩
      · simp only [toValue, h1, obind_ok]; rfl
      · simp only [askedFor, fromSql, h3, obind_ok]; rfl
  | hmap k v _ ih =>
    obtain ⟨hk, hn, hv⟩ := hh
    exact map_back hk hn fun p hp => ih (x := p.2) hb (hv p hp)

end CH
