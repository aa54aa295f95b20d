import Verif.Spec.Values
import Verif.Lemmas.Fits
import Verif.Lemmas.Decimal

/-! Helper lemmas about value equality, hashing and conversion. -/

namespace CH
open Spec

/-- Induction over value trees. -/
theorem Value.ind {P : Value → Prop}
    (num : ∀ t x, P (.num t x)) (str : ∀ b, P (.str b)) (date : ∀ d, P (.date d)) (datetime : ∀ s z, P (.datetime s z))
    (dt64 : ∀ v p z, P (.dt64 v p z)) (chrono : ∀ s n z, P (.chrono s n z)) (ip : ∀ k b, P (.ip k b)) (null : ∀ t, P (.null t))
    (some : ∀ v, P v → P (.some v)) (array : ∀ t vs, (∀ v ∈ vs, P v) → P (.array t vs)) (decimal : ∀ d, P (.decimal d))
    (enum : ∀ w items x, P (.enum w items x))
    (map : ∀ k v ks vs, (∀ x ∈ ks, P x) → (∀ x ∈ vs, P x) → P (.map k v ks vs)) (v : Value) : P v :=
  Value.rec (motive_1 := P) (motive_2 := fun vs => ∀ v ∈ vs, P v) num str date datetime dt64 chrono ip null some array decimal enum
    map (fun _ h => absurd h (by simp)) (fun v vs hv hvs w hw => by
      rcases List.mem_cons.mp hw with h | h
      · exact h ▸ hv
      · exact hvs w h) v

theorem isNaN_iff (t : NumTy) (x : Nat) : isNaN t x = true ↔ NaN t x := by
  cases t <;> simp only [isNaN, NaN, decide_eq_true_eq, reduceCtorEq] <;> omega

theorem numEq_self {t : NumTy} {x : Nat} (h : ¬ NaN t x) : numEq t x x = true := by
  have : isNaN t x = false := by
    cases hb : isNaN t x
    · rfl
    · exact absurd ((isNaN_iff t x).mp hb) h
  simp [numEq, this]

theorem numEq_same {t : NumTy} {a b : Nat} (h : numEq t a b = true) : SameNum t a b := by
  have h : a = b ∨ (isZero t a = true ∧ isZero t b = true) := by
    simp only [numEq, Bool.and_eq_true, Bool.or_eq_true, beq_iff_eq] at h; exact h.2
  cases t <;> simp only [SameNum, isZero, beq_iff_eq] at h ⊢ <;> omega

theorem numEq_of_same {t : NumTy} {a b : Nat} (h : SameNum t a b) (ha : ¬ NaN t a) (hb : ¬ NaN t b) : numEq t a b = true := by
  have na : ∀ x, ¬ NaN t x → isNaN t x = false := fun x hx => by
    cases e : isNaN t x
    · rfl
    · exact absurd ((isNaN_iff t x).mp e) hx
  simp only [numEq, na a ha, na b hb, Bool.not_false, Bool.true_and, Bool.or_eq_true, Bool.and_eq_true, beq_iff_eq]
  cases t <;> simp only [SameNum, isZero, beq_iff_eq] at h ⊢ <;> omega

theorem keyEq_self {k : Value} (h : k.refHashable = true) : Value.keyEq k k = true := by
  cases k <;> simp_all [Value.refHashable, Value.keyEq]

theorem keyEq_eq {a b : Value} (h : Value.keyEq a b = true) : a = b := by
  cases a <;> cases b <;> simp_all [Value.keyEq]

theorem keyIndex_append {k : Value} (hk : k.refHashable = true) (pre post : List Value)
    (h : ∀ x ∈ pre, Value.keyEq x k = false) : keyIndex k (pre ++ k :: post) = some pre.length := by
  induction pre with
  | nil => simp [keyIndex, keyEq_self hk]
  | cons x pre ih =>
    simp [keyIndex, h x (by simp), ih (fun x hx => h x (by simp [hx]))]

theorem keyIndex_some {k : Value} : ∀ {xs : List Value} {j : Nat}, keyIndex k xs = some j → xs[j]? = some k := by
  intro xs
  induction xs with
  | nil => intro j h; simp [keyIndex] at h
  | cons x xs ih =>
    intro j h
    simp only [keyIndex] at h
    split at h
    · rename_i he; injection h with h; subst h; simp [keyEq_eq he]
    · cases hk : keyIndex k xs with
      | none => rw [hk] at h; simp at h
      | some i => rw [hk] at h; simp at h; subst h; simpa using ih hk

theorem decimal_eq_self (d : Decimal) : d.eq d = .ok true := by simp [Decimal.eq]

theorem toDatetime_ok {v : Int} {p : Nat} (hp : p ≤ 9) (h1 : -(2 ^ 63) ≤ v * 10 ^ (9 - p)) (h2 : v * 10 ^ (9 - p) ≤ 2 ^ 63 - 1)
    (h3 : 0 ≤ v ∨ v * 10 ^ (9 - p) % 1000000000 = 0) : ∃ s n, toDatetime v p = .ok (s, n) ∧ n < 1000000000 ∧
      s * 1000000000 + (n : Int) = v * 10 ^ (9 - p) := by
  have h4 : 0 ≤ v * 10 ^ (9 - p) ∨ v * 10 ^ (9 - p) % 1000000000 = 0 :=
    h3.imp_left fun h => Int.mul_nonneg h (Int.le_of_lt (Int.pow_pos (by omega)))
  have hc : checkI64 (v * 10 ^ (9 - p)) = .ok (v * 10 ^ (9 - p)) := by
    rw [checkI64, if_pos (by simpa [i64Min, i64Max] using ⟨h1, h2⟩)]
  unfold toDatetime
  rw [if_pos (show p < 19 by omega), if_pos hp, hc]
  generalize v * 10 ^ (9 - p) = x at *
  simp only [obind_ok]
  have hn : ¬ x - Int.tdiv x 1000000000 * 1000000000 < 0 := by
    rcases h4 with h | h
    · rw [Int.tdiv_eq_ediv_of_nonneg h]; omega
    · have : (1000000000 : Int) ∣ x := Int.dvd_of_emod_eq_zero h
      rw [Int.tdiv_mul_cancel this]; omega
  rw [if_neg hn]
  refine ⟨_, _, rfl, ?_, ?_⟩
  · have := Int.tmod_lt_of_pos x (show (0 : Int) < 1000000000 by omega)
    rw [Int.tmod_def] at this; omega
  · omega

theorem toDatetime_exact {v : Int} {p : Nat} {s : Int} {n : Nat} (hp : p ≤ 9) (h : toDatetime v p = .ok (s, n)) :
    n < 1000000000 ∧ s * 1000000000 + (n : Int) = v * 10 ^ (9 - p) := by
  unfold toDatetime at h
  rw [if_pos (show p < 19 by omega), if_pos hp] at h
  obtain ⟨x, hx, h⟩ := out_bind_ok.mp h
  have : x = v * 10 ^ (9 - p) := by
    unfold checkI64 at hx; split at hx
    · injection hx with hx; exact hx.symm
    · cases hx
  subst this
  generalize v * 10 ^ (9 - p) = x at *
  simp only at h
  split at h
  · cases h
  · injection h with h; injection h with h1 h2
    subst h1; subst h2
    constructor
    · have := Int.tmod_lt_of_pos x (show (0 : Int) < 1000000000 by omega)
      rw [Int.tmod_def] at this; omega
    · omega

theorem refEqs_refl {vs : List Value} (h : ∀ v ∈ vs, refEq v v = .ok true) : refEqs vs vs = .ok true := by
  induction vs with
  | nil => rfl
  | cons v vs ih =>
    simp only [refEqs, h v (by simp), obind_ok, if_true]
    exact ih fun w hw => h w (by simp [hw])

theorem refMapEq_refl {ks : List Value} : ∀ {vs pre pre' : List Value}, ks.length = vs.length → pre.length = pre'.length →
    (∀ k ∈ ks, k.refHashable = true) → (pre ++ ks).Pairwise (fun a b => Value.keyEq a b = false) →
    (∀ v ∈ vs, refEq v v = .ok true) → refMapEq ks vs (pre ++ ks) (pre' ++ vs) = .ok true := by
  induction ks with
  | nil => intro vs pre pre' _ _ _ _ _; cases vs <;> simp [refMapEq]
  | cons k ks ih =>
    intro vs pre pre' hl hpl hh hp hv
    cases vs with
    | nil => simp at hl
    | cons v vs =>
      have hk : keyIndex k (pre ++ k :: ks) = some pre.length :=
        keyIndex_append (hh k (by simp)) pre ks fun x hx => (List.pairwise_append.mp hp).2.2 x hx k (by simp)
      have hg : (pre' ++ v :: vs)[pre.length]? = some v := by rw [hpl]; simp
      rw [refMapEq, if_pos (hh k (by simp)), hk]
      simp only [hg, hv v (by simp), obind_ok, if_true]
      have := @ih vs (pre ++ [k]) (pre' ++ [v]) (by simpa using hl) (by simp [hpl]) (fun k hk => hh k (by simp [hk]))
        (by simpa using hp) (fun w hw => hv w (by simp [hw]))
      simpa using this

theorem ownEqs_refl {vs : List Value} (h : ∀ v ∈ vs, ownEq v v = .ok true) : ownEqs vs vs = .ok true := by
  induction vs with
  | nil => rfl
  | cons v vs ih =>
    simp only [ownEqs, h v (by simp), obind_ok, if_true]
    exact ih fun w hw => h w (by simp [hw])

theorem toRefs_ok {vs : List Value} (h : ∀ v ∈ vs, toRef v = .ok v) : toRefs vs = .ok vs := by
  induction vs with
  | nil => rfl
  | cons v vs ih =>
    simp only [toRefs, h v (by simp), obind_ok, ih fun w hw => h w (by simp [hw])]; rfl

theorem toOwneds_ok {vs : List Value} (h : ∀ v ∈ vs, toOwned v = .ok v) : toOwneds vs = .ok vs := by
  induction vs with
  | nil => rfl
  | cons v vs ih =>
    simp only [toOwneds, h v (by simp), obind_ok, ih fun w hw => h w (by simp [hw])]; rfl

theorem ownHash_of_ref {k : Value} (h : k.refHashable = true) : ∃ f, ownHash k = .ok f := by
  cases k <;> simp_all [Value.refHashable, ownHash]

theorem ownBuild_distinct {ks : List Value} : ∀ {vs a b : List Value}, ks.length = vs.length →
    (∀ k ∈ ks, k.refHashable = true) → (a ++ ks).Pairwise (fun a b => Value.keyEq a b = false) →
    ownBuild (a, b) ks vs = .ok (a ++ ks, b ++ vs) := by
  induction ks with
  | nil => intro vs a b hl _ _; cases vs with
    | nil => simp [ownBuild]
    | cons => simp at hl
  | cons k ks ih =>
    intro vs a b hl hh hp
    cases vs with
    | nil => simp at hl
    | cons v vs =>
      obtain ⟨f, hf⟩ := ownHash_of_ref (hh k (by simp))
      rw [ownBuild, hf]
      have hk : keyIndex k a = none := by
        apply keyIndex_none
        intro x hx
        exact (List.pairwise_append.mp hp).2.2 x hx k (by simp)
      simp only
      rw [mapInsert, hk]
      rw [ih (by simpa using hl) (fun k hk => hh k (by simp [hk])) (by simpa using hp)]
      simp

theorem hashable_plain {k : Value} (h : k.refHashable = true) : toRef k = .ok k ∧ toOwned k = .ok k := by
  cases k <;> simp_all [Value.refHashable, toRef, toOwned]

theorem borrow_id (v : Value) (h : Borrowable v) : toRef v = .ok v ∧ toOwned v = .ok v := by
  induction v using Value.ind with
  | some v ih =>
    cases h with
    | some h => simp [toRef, toOwned, ih h]
  | array t vs ih =>
    cases h with
    | array h =>
      simp only [toRef, toOwned, toRefs_ok fun v hv => (ih v hv (h v hv)).1, toOwneds_ok fun v hv => (ih v hv (h v hv)).2, obind_ok]
      exact ⟨rfl, rfl⟩
  | map k w ks vs _ ih =>
    cases h with
    | map hl hh hp h =>
      simp only [toRef, toOwned, toRefs_ok fun v hv => (ih v hv (h v hv)).1, toOwneds_ok fun v hv => (ih v hv (h v hv)).2,
        toRefs_ok fun k hk => (hashable_plain (hh k hk)).1, toOwneds_ok fun k hk => (hashable_plain (hh k hk)).2, obind_ok,
        mapBuild_distinct (a := []) (b := []) hl hh (by simpa using hp), ownBuild_distinct (a := []) (b := []) hl hh (by simpa using hp)]
      exact ⟨rfl, rfl⟩
  | chrono s n z => cases h
  | _ => exact ⟨rfl, rfl⟩

theorem refEqs_sound {Q : Value → Prop} {as : List Value} : ∀ {bs : List Value}, (∀ a ∈ as, ∀ b, Q b → refEq a b = .ok true → Same a b) → (∀ b ∈ bs, Q b) →
    refEqs as bs = .ok true → ∀ (i : Nat) a b, as[i]? = some a → bs[i]? = some b → Same a b := by
  induction as with
  | nil => intro bs _ _ _ i a b ha; simp at ha
  | cons x as ih =>
    intro bs h hq he i a b ha hb
    cases bs with
    | nil => simp at hb
    | cons y bs =>
      simp only [refEqs] at he
      obtain ⟨r, hr, he⟩ := out_bind_ok.mp he
      cases r with
      | false => simp at he
      | true =>
        cases i with
        | zero => simp at ha hb; subst ha; subst hb; exact h x List.mem_cons_self y (hq y List.mem_cons_self) hr
        | succ i => exact ih (bs := bs) (fun a ha => h a (by simp [ha])) (fun b hb => hq b (by simp [hb])) (by simpa using he) i a b (by simpa using ha) (by simpa using hb)

theorem ownEqs_sound {as : List Value} : ∀ {bs : List Value}, (∀ a ∈ as, ∀ b, ownEq a b = .ok true → Same a b) →
    ownEqs as bs = .ok true → ∀ (i : Nat) a b, as[i]? = some a → bs[i]? = some b → Same a b := by
  induction as with
  | nil => intro bs _ _ i a b ha; simp at ha
  | cons x as ih =>
    intro bs h he i a b ha hb
    cases bs with
    | nil => simp at hb
    | cons y bs =>
      simp only [ownEqs] at he
      obtain ⟨r, hr, he⟩ := out_bind_ok.mp he
      cases r with
      | false => simp at he
      | true =>
        cases i with
        | zero => simp at ha hb; subst ha; subst hb; exact h x (by simp) y hr
        | succ i => exact ih (fun a ha => h a (by simp [ha])) (by simpa using he) i a b (by simpa using ha) (by simpa using hb)

/-- The position of the i-th key among other keys (0 if absent). -/
def keyPos (ks ks' : List Value) (i : Nat) : Nat :=
  match ks[i]? with
  | some k => (keyIndex k ks').getD 0
  | none => 0

theorem refMapEq_sound {Q : Value → Prop} {ks : List Value} : ∀ {vs ks' vs' : List Value}, (∀ a ∈ vs, ∀ b, Q b → refEq a b = .ok true → Same a b) → (∀ b ∈ vs', Q b) →
    ks.length = vs.length → refMapEq ks vs ks' vs' = .ok true →
    ∀ (i : Nat) k a, ks[i]? = some k → vs[i]? = some a →
      ks'[keyPos ks ks' i]? = some k ∧ ∃ b, vs'[keyPos ks ks' i]? = some b ∧ Same a b := by
  induction ks with
  | nil => intro vs ks' vs' _ _ _ _ i k a hk; simp at hk
  | cons x ks ih =>
    intro vs ks' vs' h hq hl he i k a hk ha
    cases vs with
    | nil => simp at ha
    | cons v vs =>
      rw [refMapEq] at he
      split at he
      · rename_i hx
        cases hj : keyIndex x ks' with
        | none => rw [hj] at he; simp at he
        | some j =>
          rw [hj] at he
          simp only at he
          cases hw : vs'[j]? with
          | none => rw [hw] at he; simp at he
          | some w =>
            rw [hw] at he
            simp only at he
            obtain ⟨r, hr, he⟩ := out_bind_ok.mp he
            cases r with
            | false => simp at he
            | true =>
              cases i with
              | zero =>
                simp at hk ha
                subst hk; subst ha
                have : keyPos (x :: ks) ks' 0 = j := by simp [keyPos, hj]
                rw [this]
                exact ⟨keyIndex_some hj, w, hw, h v (by simp) w (hq w (List.mem_of_getElem? hw)) hr⟩
              | succ i =>
                have : keyPos (x :: ks) ks' (i + 1) = keyPos ks ks' i := by simp [keyPos]
                rw [this]
                exact ih (vs := vs) (fun a ha => h a (by simp [ha])) hq (by simpa using hl) (by simpa using he) i k a (by simpa using hk) (by simpa using ha)
      · cases he

end CH
