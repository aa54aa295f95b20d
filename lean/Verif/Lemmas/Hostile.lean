import Verif.Spec.Hostile
import Verif.Lemmas.Received
import Verif.Props.Wire

/-! Where panics of the readers come from. -/

namespace CH
open Spec

theorem Spec.Somewhere.here {P : Bytes → Prop} {bs : Bytes} (h : P bs) : Somewhere P bs := ⟨[], bs, rfl, h⟩

theorem Spec.Somewhere.later {P : Bytes → Prop} {c bs : Bytes} (h : Somewhere P bs) : Somewhere P (c ++ bs) := by
  obtain ⟨pre, rest, rfl, h⟩ := h
  exact ⟨c ++ pre, rest, by simp, h⟩

theorem Spec.Somewhere.mono {P Q : Bytes → Prop} {bs : Bytes} (h : Somewhere P bs) (hpq : ∀ bs, P bs → Q bs) : Somewhere Q bs := by
  obtain ⟨pre, rest, e, h⟩ := h
  exact ⟨pre, rest, e, hpq _ h⟩

/-- If `p` panics, `P` holds somewhere in what it was given. -/
def Blame (P : Bytes → Prop) (p : Reader α) : Prop := ∀ bs, p bs = .panic → Somewhere P bs

variable {P : Bytes → Prop}

theorem panic_bind {p : Reader α} {f : α → Reader β} {bs : Bytes} (h : (p >>= f) bs = .panic) :
    p bs = .panic ∨ ∃ a r, p bs = .ok a r ∧ f a r = .panic := by
  rw [bind_run] at h
  cases hp : p bs with
  | ok a r => rw [hp] at h; exact .inr ⟨a, r, rfl, h⟩
  | more => rw [hp] at h; cases h
  | err e r => rw [hp] at h; cases h
  | panic => exact .inl rfl

theorem Blame.bindOf {p : Reader α} {f : α → Reader β} (hp : Blame P p)
    (hf : ∀ bs a r, p bs = .ok a r → f a r = .panic → Somewhere P bs) : Blame P (p >>= f) := by
  intro bs h
  rcases panic_bind h with h | ⟨a, r, h1, h2⟩
  · exact hp bs h
  · exact hf bs a r h1 h2

theorem Blame.bind {p : Reader α} {f : α → Reader β} (hw : Fwd p) (hp : Blame P p) (hf : ∀ a, Blame P (f a)) : Blame P (p >>= f) :=
  hp.bindOf fun bs a r h1 h2 => by
    obtain ⟨c, rfl⟩ := hw.ok h1
    exact (hf a r h2).later

theorem Blame.pure (a : α) : Blame P (Reader.pure a) := fun _ h => by cases h
theorem Blame.fail (e : Err) : Blame P (Reader.fail e : Reader α) := fun _ h => by cases h
theorem Blame.ite {c : Prop} [Decidable c] {p q : Reader α} (hp : Blame P p) (hq : Blame P q) : Blame P (if c then p else q) := by
  split
  · exact hp
  · exact hq
theorem Blame.mono {Q : Bytes → Prop} {p : Reader α} (h : Blame P p) (hpq : ∀ bs, P bs → Q bs) : Blame Q p :=
  fun bs hb => (h bs hb).mono hpq

theorem Blame.loop {step : σ → Reader (σ ⊕ α)} (hw : ∀ s, Fwd (step s)) (hp : ∀ s, Blame P (step s)) (s : σ) :
    Blame P (Reader.loop step s) := by
  have key : ∀ k, ∀ (bs : Bytes), bs.length ≤ k → ∀ s, Reader.loop step s bs = .panic → Somewhere P bs := by
    intro k
    induction k with
    | zero =>
      intro bs hk s h
      rw [loop_run] at h
      cases hs : step s bs with
      | more => rw [hs] at h; cases h
      | panic => exact hp s bs hs
      | err e r => rw [hs] at h; cases h
      | ok x r =>
        rw [hs] at h
        cases x with
        | inr a => cases h
        | inl s' => simp only at h; rw [if_neg (by omega)] at h; cases h
    | succ k ih =>
      intro bs hk s h
      rw [loop_run] at h
      cases hs : step s bs with
      | more => rw [hs] at h; cases h
      | panic => exact hp s bs hs
      | err e r => rw [hs] at h; cases h
      | ok x r =>
        rw [hs] at h
        cases x with
        | inr a => cases h
        | inl s' =>
          simp only at h
          by_cases hr : r.length < bs.length
          · rw [if_pos hr] at h
            obtain ⟨c, hc⟩ := (hw s).ok hs
            have := ih r (by omega) s' h
            rw [hc]; exact this.later
          · rw [if_neg hr] at h; cases h
  intro bs h
  exact key _ bs (Nat.le_refl _) s h

theorem readN_blame (n : Nat) : Blame P (readN n) := by
  intro bs h
  unfold readN at h
  split at h <;> cases h

theorem readLE_blame (w : Nat) : Blame P (readLE w) := (readN_blame w).bind (readN_fwd w) fun _ => .pure _
theorem readBool_blame : Blame P readBool := (readN_blame 1).bind (readN_fwd 1) fun _ => .pure _

theorem readUvarintLoop_panic : ∀ (bs : Bytes) (x s i : Nat), s = 7 * i → i ≤ 10 → readUvarintLoop x s i bs = .panic →
    ∃ c r, bs = c ++ r ∧ c.length + i = 11 ∧ ∀ b ∈ c, isCont b := by
  intro bs
  induction bs with
  | nil => intro x s i _ _ h; simp [readUvarintLoop] at h
  | cons b bs ih =>
    intro x s i hs hi h
    simp only [readUvarintLoop] at h
    by_cases hb : b.toNat < 128
    · rw [if_pos hb] at h
      split at h <;> cases h
    · rw [if_neg hb] at h
      have hc : isCont b := by unfold isCont; omega
      split at h
      · exact ⟨[b], bs, rfl, by simp; omega, by simpa using hc⟩
      · obtain ⟨c, r, h1, h2, h3⟩ := ih _ (s + 7) (i + 1) (by omega) (by omega) h
        exact ⟨b :: c, r, by simp [h1], by simp; omega, by
          intro d hd
          rcases List.mem_cons.mp hd with rfl | hd
          · exact hc
          · exact h3 d hd⟩

theorem readUvarint_blame : Blame TooLong readUvarint := by
  intro bs h
  obtain ⟨c, r, h1, h2, h3⟩ := readUvarintLoop_panic bs 0 0 0 rfl (by omega) h
  exact .here ⟨c, r, h1, by omega, h3⟩

theorem readUvarint_announces {bs r : Bytes} {n m : Nat} (h : readUvarint bs = .ok n r) (hm : m ≤ n) : Announces m bs := by
  obtain ⟨c, l, h1, h2, h3, h4, _⟩ := Props.C02_uvarint_sound bs r n h
  exact ⟨c, l, r, h1, h2, h3, by omega⟩

theorem alloc_panic {n : Nat} {bs : Bytes} (h : alloc n bs = .panic) : 2 ^ 63 ≤ n := by
  unfold alloc at h
  split at h
  · cases h
  · unfold isizeMax at *; omega

theorem alloc_blame {n : Nat} (h : n < 2 ^ 63) : Blame P (alloc n) := fun bs hb => by
  have := alloc_panic hb; omega

/-! ### Messages without a block -/

theorem uvarint_wild : Blame Wild readUvarint := readUvarint_blame.mono fun _ => .inl

theorem readString_wild : Blame Wild readString := by
  refine uvarint_wild.bindOf fun bs n r h1 h2 => ?_
  rcases panic_bind h2 with h | ⟨_, r', h3, h4⟩
  · exact .here (.inr (readUvarint_announces h1 (alloc_panic h)))
  · have : Blame Wild (readN n >>= fun b => match strOfBytes? b with
      | some s => Reader.pure s
      | none => Reader.fail .utf8) := (readN_blame _).bind (readN_fwd _) fun b => by
        cases strOfBytes? b
        · exact .fail _
        · exact .pure _
    obtain ⟨c, rfl⟩ := readUvarint_fwd.ok h1
    obtain ⟨c', rfl⟩ := (alloc_fwd _).ok h3
    exact (this _ h4).later.later

theorem skipString_wild : Blame Wild skipString := by
  refine uvarint_wild.bindOf fun bs n r h1 h2 => ?_
  obtain ⟨c, hc⟩ := readUvarint_fwd.ok h1
  have hread : Blame Wild (readN n >>= fun _ => Reader.pure ()) := (readN_blame _).bind (readN_fwd _) fun _ => .pure _
  split at h2
  · rw [hc]; exact (hread _ h2).later
  · rcases panic_bind h2 with h | ⟨_, r', h3, h4⟩
    · exact .here (.inr (readUvarint_announces h1 (alloc_panic h)))
    · obtain ⟨c', rfl⟩ := (alloc_fwd _).ok h3
      rw [hc]; exact (hread _ h4).later.later

theorem since_blame {r m : Nat} {p : Reader α} {d : α} (h : Blame P p) : Blame P (since r m p d) := .ite h (.pure _)

theorem readTz_wild (env : Env) : Blame Wild (readTz env) := readString_wild.bind readString_fwd fun _ => .ite (.pure _) (.fail _)

theorem parseHello_wild (env : Env) : Blame Wild (parseHello env) :=
  readString_wild.bind readString_fwd fun _ => uvarint_wild.bind readUvarint_fwd fun _ => uvarint_wild.bind readUvarint_fwd fun _ =>
  uvarint_wild.bind readUvarint_fwd fun _ => (since_blame (readTz_wild env)).bind (since_fwd (readTz_fwd env)) fun _ =>
  (since_blame readString_wild).bind (since_fwd readString_fwd) fun _ => (since_blame uvarint_wild).bind (since_fwd readUvarint_fwd)
  fun _ => .pure _

theorem parseProgress_wild (r : Nat) : Blame Wild (parseProgress r) :=
  uvarint_wild.bind readUvarint_fwd fun _ => uvarint_wild.bind readUvarint_fwd fun _ =>
  (since_blame uvarint_wild).bind (since_fwd readUvarint_fwd) fun _ =>
  (since_blame (uvarint_wild.bind readUvarint_fwd fun _ => uvarint_wild.bind readUvarint_fwd fun _ => .pure _)).bind
    (since_fwd (readUvarint_fwd.bind fun _ => readUvarint_fwd.bind fun _ => Fwd.pure _)) fun _ => .pure _

theorem parseProfileInfo_wild : Blame Wild parseProfileInfo :=
  uvarint_wild.bind readUvarint_fwd fun _ => uvarint_wild.bind readUvarint_fwd fun _ => uvarint_wild.bind readUvarint_fwd fun _ =>
  readBool_blame.bind readBool_fwd fun _ => uvarint_wild.bind readUvarint_fwd fun _ => readBool_blame.bind readBool_fwd fun _ => .pure _

theorem parseTableColumns_wild : Blame Wild parseTableColumns :=
  readString_wild.bind readString_fwd fun _ => readString_wild.bind readString_fwd fun _ => .pure _

theorem parseException_wild : Blame Wild parseException :=
  (readLE_blame 4).bind (readLE_fwd 4) fun _ => readString_wild.bind readString_fwd fun _ => readString_wild.bind readString_fwd fun _ =>
  readString_wild.bind readString_fwd fun _ => .pure _

theorem parseBody_wild (env : Env) (info : TransportInfo) {k : Nat} (hk : k ≠ 1 ∧ k ≠ 7 ∧ k ≠ 8) : Blame Wild (parseBody env info k) := by
  unfold parseBody
  refine .ite (parseHello_wild env) (.ite (.pure _) (.ite (parseProgress_wild _) (.ite parseProfileInfo_wild
    (.ite parseTableColumns_wild (.ite parseException_wild ?_)))))
  rw [if_neg (by omega)]
  exact .ite (.pure _) (.fail _)

/-! ### Column data -/

theorem loadNums_blame {w n : Nat} (h : n * w < 2 ^ 63) : Blame P (loadNums w n) :=
  (alloc_blame h).bind (alloc_fwd _) fun _ => (readN_blame _).bind (readN_fwd _) fun _ => .pure _

theorem readN_ok {n : Nat} {bs b r : Bytes} (h : readN n bs = .ok b r) : bs = b ++ r ∧ b.length = n := by
  unfold readN at h
  split at h
  · injection h with h1 h2; subst h1; subst h2
    exact ⟨(List.take_append_drop n bs).symm, by simp; omega⟩
  · cases h

theorem splitLE_mem {w : Nat} : ∀ {n : Nat} {b : Bytes} {x : Nat}, b.length = n * w → x ∈ splitLE w n b →
    ∃ pre g rest, b = pre ++ (g ++ rest) ∧ g.length = w ∧ getLE g = x := by
  intro n
  induction n with
  | zero => intro b x _ hx; simp [splitLE] at hx
  | succ n ih =>
    intro b x hl hx
    rw [Nat.succ_mul] at hl
    simp only [splitLE, List.mem_cons] at hx
    rcases hx with rfl | hx
    · exact ⟨[], b.take w, b.drop w, by simp, by simp; omega, rfl⟩
    · obtain ⟨pre, g, rest, h1, h2, h3⟩ := ih (b := b.drop w) (by simp; omega) hx
      exact ⟨b.take w ++ pre, g, rest, by rw [List.append_assoc, ← h1, List.take_append_drop], h2, h3⟩

theorem lastOff_big {offs : List Nat} {m : Nat} (h : m ≤ lastOff offs) (hm : 0 < m) : lastOff offs ∈ offs := by
  rcases lastOff_spec offs with h1 | ⟨_, h1⟩
  · exact List.mem_of_getLast? h1
  · omega

theorem loadNums_big {n m : Nat} {bs r : Bytes} {offs : List Nat} (h : loadNums 8 n bs = .ok offs r) (hb : m ≤ lastOff offs) (hm : 0 < m) :
    Somewhere (BigWord m) bs := by
  obtain ⟨_, r1, h1, h⟩ := bind_eq_ok h
  obtain ⟨b, r2, h2, h⟩ := bind_eq_ok h
  injection h with h3 h4
  obtain ⟨c, rfl⟩ := (alloc_fwd _).ok h1
  obtain ⟨rfl, hl⟩ := readN_ok h2
  subst h3
  obtain ⟨pre, g, rest, e, e1, e2⟩ := splitLE_mem hl (lastOff_big hb hm)
  refine ⟨c ++ pre, g ++ (rest ++ r2), by rw [e]; simp, g, _, rfl, e1, ?_⟩
  rw [← getLE_eq_base256, e2]; exact hb

theorem readLE_ok {w n : Nat} {bs r : Bytes} (h : readLE w bs = .ok n r) : ∃ g, bs = g ++ r ∧ g.length = w ∧ base256 g = n := by
  obtain ⟨b, r1, h1, h⟩ := bind_eq_ok h
  injection h with h2 h3
  obtain ⟨e1, e2⟩ := readN_ok h1
  subst h3
  exact ⟨b, e1, e2, by rw [← getLE_eq_base256, h2]⟩

theorem readMany_blame {p : Reader α} (hw : Fwd p) (hp : Blame P p) : ∀ n, Blame P (readMany p n)
  | 0 => .pure _
  | n + 1 => hp.bind hw fun _ => (readMany_blame hw hp n).bind (readMany_fwd hw n) fun _ => .pure _

theorem wild_data {bs : Bytes} (h : Wild bs) : WildData bs := by
  rcases h with h | ⟨c, l, r, h1, h2, h3, h4⟩
  · exact .inl h
  · exact .inr (.inl ⟨c, l, r, h1, h2, h3, by omega⟩)

theorem readBytesLP_blame {k : Nat} (hk : k < 2 ^ 63) : Blame WildData (readBytesLP k) := by
  refine (readUvarint_blame.mono fun _ => .inl).bindOf fun bs n r h1 h2 => ?_
  rcases panic_bind h2 with h | ⟨_, r', h3, h4⟩
  · have := alloc_panic h
    exact .here (.inr (.inl (readUvarint_announces h1 (by omega))))
  · obtain ⟨c, rfl⟩ := readUvarint_fwd.ok h1
    obtain ⟨c', rfl⟩ := (alloc_fwd _).ok h3
    exact (readN_blame n _ h4).later.later

theorem lcFlags_mem (ity : IdxTy) : lcFlags ity ∈ [0x600, 0x601, 0x602, 0x603] := by cases ity <;> decide

theorem fromFlags_odd {flags : Nat} {ity : IdxTy} (h : IdxTy.fromFlags flags = some ity) (hne : flags ≠ lcFlags ity) :
    flags ∉ [0x600, 0x601, 0x602, 0x603] := by
  intro hm
  simp only [List.mem_cons, List.not_mem_nil, or_false] at hm
  rcases hm with rfl | rfl | rfl | rfl <;> (cases ity <;> revert h hne <;> decide)

theorem Plan.load_blame : ∀ (p : Plan), Parsed p → ∀ n, n < 2 ^ 56 → Blame WildData (p.load n) := by
  intro p
  have offsets : ∀ {n : Nat} {β : Type} {f : List Nat → Reader β}, n < 2 ^ 56 → (∀ offs, lastOff offs < 2 ^ 56 → Blame WildData (f offs)) →
      Blame WildData (loadNums 8 n >>= f) := by
    intro n β f hn hf
    refine (loadNums_blame (room hn (by decide))).bindOf fun bs offs r h1 h2 => ?_
    by_cases hb : lastOff offs < 2 ^ 56
    · obtain ⟨c, rfl⟩ := (loadNums_fwd _ _).ok h1
      exact (hf offs hb _ h2).later
    · exact (loadNums_big (m := 2 ^ 56) h1 (by omega) (by decide)).mono fun _ h => .inr (.inr (.inl h))
  induction p with
  | num t => intro _ n hn; exact (loadNums_blame (room hn (NumTy.width_le t))).bind (loadNums_fwd _ _) fun _ => .pure _
  | string =>
    intro _ n hn
    exact (alloc_blame (room hn (by decide))).bind (alloc_fwd _) fun _ =>
      (readMany_blame (readBytesLP_fwd _) (readBytesLP_blame (room hn (by decide))) n).bind (readMany_fwd (readBytesLP_fwd _) n) fun _ => .pure _
  | fixed k =>
    intro hk n hn
    refine (alloc_blame ?_).bind (alloc_fwd _) fun _ =>
      (readMany_blame (readN_fwd _) (readN_blame _) n).bind (readMany_fwd (readN_fwd _) n) fun _ => .pure _
    have := Nat.mul_le_mul_left n (show k ≤ 127 by have := hk.2; omega)
    omega
  | date tz => intro _ n hn; exact (loadNums_blame (room hn (by decide))).bind (loadNums_fwd _ _) fun _ => .pure _
  | datetime tz => intro _ n hn; exact (loadNums_blame (room hn (by decide))).bind (loadNums_fwd _ _) fun _ => .pure _
  | dt64 p tz => intro _ n hn; exact (loadNums_blame (room hn (by decide))).bind (loadNums_fwd _ _) fun _ => .pure _
  | ip k =>
    intro _ n hn
    exact (alloc_blame (room hn (by cases k <;> decide))).bind (alloc_fwd _) fun _ => (readN_blame _).bind (readN_fwd _) fun _ => .pure _
  | nullable p ih =>
    intro hp n hn
    exact (alloc_blame (by omega)).bind (alloc_fwd _) fun _ => (readN_blame _).bind (readN_fwd _) fun _ =>
      (ih hp n hn).bind (p.load_fwd n) fun _ => .pure _
  | array p ih =>
    intro hp n hn
    exact offsets hn fun offs ho => (ih hp _ ho).bind (p.load_fwd _) fun _ => .pure _
  | map k v ihk ihv =>
    intro hp n hn
    exact offsets hn fun offs ho => (ihk hp.1 _ ho).bind (k.load_fwd _) fun _ => (ihv hp.2 _ ho).bind (v.load_fwd _) fun _ => .pure _
  | decimal p s nb => intro _ n hn; exact (loadNums_blame (room hn (NoBits.width_le nb))).bind (loadNums_fwd _ _) fun _ => .pure _
  | enum w items => intro _ n hn; exact (loadNums_blame (room hn (EnumW.width_le w))).bind (loadNums_fwd _ _) fun _ => .pure _
  | simpleAgg f p ih => intro hp n hn; exact (ih hp n hn).bind (p.load_fwd n) fun _ => .pure _
  | lowCard p ih =>
    intro hp n hn
    unfold Plan.load
    refine .ite ((ih hp 0 (by omega)).bind (p.load_fwd 0) fun _ => (loadNums_blame (by omega)).bind (loadNums_fwd _ _) fun _ => .pure _) ?_
    refine (readLE_blame 8).bind (readLE_fwd 8) fun version => .ite (.fail _) ?_
    refine (readLE_blame 8).bindOf fun bs flags r h1 h2 => ?_
    obtain ⟨g, hg, hgl, hgv⟩ := readLE_ok h1
    cases hf : IdxTy.fromFlags flags with
    | none => simp only [hf] at h2; cases h2
    | some ity =>
      simp only [hf] at h2
      by_cases hfl : flags = lcFlags ity
      · have tail : Blame WildData (if flags / 2 ^ 8 % 2 ≠ 0 then Reader.fail (.other "Global dictionary is not supported.")
            else if flags / 2 ^ 9 % 2 = 0 then Reader.fail (.other "HasAdditionalKeysBit is missing.")
            else do
              let n ← readLE 8
              let d ← p.load n
              let rows ← readLE 8
              let ix ← loadNums ity.width rows
              if flags = lcFlags ity then Reader.pure (Col.lowCard ity ix d none) else Reader.panic) := by
          refine .ite (.fail _) (.ite (.fail _) ?_)
          refine (readLE_blame 8).bindOf fun bs m r h1 h2 => ?_
          obtain ⟨g, hg, hgl, hgv⟩ := readLE_ok h1
          by_cases hm : m < 2 ^ 56
          · rw [hg]
            refine Somewhere.later (Blame.bind (p.load_fwd m) (ih hp m hm) (fun d => ?_) r h2)
            refine (readLE_blame 8).bindOf fun bs rows r h1 h2 => ?_
            obtain ⟨g, hg, hgl, hgv⟩ := readLE_ok h1
            by_cases hr : rows < 2 ^ 56
            · rw [hg]
              refine Somewhere.later (Blame.bind (loadNums_fwd _ _) (loadNums_blame (room hr (IdxTy.width_le ity))) (fun ix => ?_) r h2)
              rw [if_pos hfl]; exact .pure _
            · exact .here (.inr (.inr (.inl ⟨g, r, hg, hgl, by omega⟩)))
          · exact .here (.inr (.inr (.inl ⟨g, r, hg, hgl, by omega⟩)))
        rw [hg]; exact (tail r h2).later
      · exact .here (.inr (.inr (.inr ⟨g, r, hg, hgl, by rw [hgv]; exact fromFlags_odd hf hfl⟩)))
  | bad e => intro _ n hn; exact .fail _
  | crash => intro hp; exact False.elim hp

/-! ### Blocks -/

theorem Plan.load_len : ∀ (p : Plan) {n : Nat} {bs r : Bytes} {c : Col}, Parsed p → OwnRows p → p.load n bs = .ok c r → c.len = .ok n := by
  intro p
  induction p with
  | num t => intro n bs r c _ _ h; obtain ⟨xs, r1, h1, h⟩ := bind_eq_ok h; injection h with h; subst h; rw [Col.len, loadNums_inv h1]
  | date tz => intro n bs r c _ _ h; obtain ⟨xs, r1, h1, h⟩ := bind_eq_ok h; injection h with h; subst h; rw [Col.len, loadNums_inv h1]
  | datetime tz => intro n bs r c _ _ h; obtain ⟨xs, r1, h1, h⟩ := bind_eq_ok h; injection h with h; subst h; rw [Col.len, loadNums_inv h1]
  | dt64 p tz => intro n bs r c _ _ h; obtain ⟨xs, r1, h1, h⟩ := bind_eq_ok h; injection h with h; subst h; rw [Col.len, loadNums_inv h1]
  | decimal p s nb => intro n bs r c _ _ h; obtain ⟨xs, r1, h1, h⟩ := bind_eq_ok h; injection h with h; subst h; rw [Col.len, loadNums_inv h1]
  | enum w items => intro n bs r c _ _ h; obtain ⟨xs, r1, h1, h⟩ := bind_eq_ok h; injection h with h; subst h; rw [Col.len, loadNums_inv h1]
  | string =>
    intro n bs r c _ _ h
    obtain ⟨_, _, _, h⟩ := bind_eq_ok h
    obtain ⟨xs, r1, h1, h⟩ := bind_eq_ok h
    injection h with h; subst h; rw [Col.len, (readMany_inv h1).1]
  | fixed k =>
    intro n bs r c hk _ h
    obtain ⟨_, _, _, h⟩ := bind_eq_ok h
    obtain ⟨xs, r1, h1, h⟩ := bind_eq_ok h
    injection h with h; subst h
    obtain ⟨e1, e2⟩ := readMany_inv h1
    have hk0 := hk.1
    rw [Col.len, if_neg (by omega), flatten_len xs (fun x hx => by obtain ⟨b, b', hb⟩ := e2 x hx; exact (readN_ok hb).2), e1,
      Nat.mul_div_cancel _ hk0]
  | ip k =>
    intro n bs r c _ _ h
    obtain ⟨_, _, _, h⟩ := bind_eq_ok h
    obtain ⟨b, r1, h1, h⟩ := bind_eq_ok h
    injection h with h; subst h
    rw [Col.len, (readN_ok h1).2, Nat.mul_div_cancel _ (by cases k <;> decide)]
  | nullable p ih =>
    intro n bs r c hp ho h
    obtain ⟨_, _, _, h⟩ := bind_eq_ok h
    obtain ⟨b, r1, h1, h⟩ := bind_eq_ok h
    obtain ⟨d, r2, h2, h⟩ := bind_eq_ok h
    injection h with h; subst h
    rw [Col.len, ih hp ho h2, obind_ok, if_pos (readN_ok h1).2]; rfl
  | array p ih =>
    intro n bs r c _ _ h
    obtain ⟨offs, r1, h1, h⟩ := bind_eq_ok h
    obtain ⟨d, r2, h2, h⟩ := bind_eq_ok h
    injection h with h; subst h; rw [Col.len, loadNums_inv h1]
  | map k v ihk ihv =>
    intro n bs r c _ _ h
    obtain ⟨offs, r1, h1, h⟩ := bind_eq_ok h
    obtain ⟨d, r2, h2, h⟩ := bind_eq_ok h
    obtain ⟨d', r3, h3, h⟩ := bind_eq_ok h
    injection h with h; subst h; rw [Col.len, loadNums_inv h1]
  | simpleAgg f p ih =>
    intro n bs r c hp ho h
    obtain ⟨d, r2, h2, h⟩ := bind_eq_ok h
    injection h with h; subst h; rw [Col.len, ih hp ho h2]
  | lowCard p ih => intro n bs r c _ ho; exact False.elim ho
  | bad e => intro n bs r c _ _ h; cases h
  | crash => intro n bs r c hp; exact False.elim hp

variable {known : Tz → Bool} {tz : Tz}

theorem oddType {bs r : Bytes} {name : String} (h : readString bs = .ok name r)
    (hp : ¬ (Parsed (resolve known tz name.toList) ∧ OwnRows (resolve known tz name.toList))) : OddType known tz bs := by
  obtain ⟨n, r1, h1, h⟩ := bind_eq_ok h
  obtain ⟨_, r2, h2, h⟩ := bind_eq_ok h
  obtain ⟨b, r3, h3, h⟩ := bind_eq_ok h
  obtain ⟨c, l, e1, e2, e3, e4, _⟩ := Props.C02_uvarint_sound _ _ _ h1
  have e5 : r2 = r1 := by unfold alloc at h2; split at h2 <;> cases h2; rfl
  obtain ⟨e6, e7⟩ := readN_ok h3
  cases hs : strOfBytes? b with
  | none => rw [hs] at h; cases h
  | some s =>
    rw [hs] at h
    injection h with g1 g2; subst g1; subst g2
    have := strOfBytes_some hs
    subst e5
    exact ⟨c, l, s, r3, by rw [e1, e6, this], e2, e3, by rw [this, e7]; omega, hp⟩

theorem wild_block {bs : Bytes} (h : Wild bs) : WildBlock known tz bs := .inl (wild_data h)

theorem readColumn_blame {n : Nat} (hn : n < 2 ^ 56) : Blame (WildBlock known tz) (readColumn known tz n) := by
  refine (readString_wild.mono fun _ => wild_block).bind readString_fwd fun name => ?_
  refine (readString_wild.mono fun _ => wild_block).bindOf fun bs tn r h1 h2 => ?_
  by_cases hp : Parsed (resolve known tz tn.toList) ∧ OwnRows (resolve known tz tn.toList)
  · obtain ⟨c, rfl⟩ := readString_fwd.ok h1
    refine Somewhere.later (Blame.bind (Plan.load_fwd _ n) (Blame.mono (Plan.load_blame _ hp.1 n hn) fun _ => .inl) (fun d => ?_) r h2)
    exact .pure _
  · exact .here (.inr (oddType h1 hp))

theorem readColumn_len {n : Nat} {bs r : Bytes} {c : NCol} (h : readColumn known tz n bs = .ok c r) :
    c.data.len = .ok n ∨ Somewhere (WildBlock known tz) bs := by
  obtain ⟨name, r1, h1, h⟩ := bind_eq_ok h
  obtain ⟨tn, r2, h2, h⟩ := bind_eq_ok h
  obtain ⟨d, r3, h3, h⟩ := bind_eq_ok h
  injection h with h; subst h
  by_cases hp : Parsed (resolve known tz tn.toList) ∧ OwnRows (resolve known tz tn.toList)
  · exact .inl (Plan.load_len _ hp.1 hp.2 h3)
  · obtain ⟨c, rfl⟩ := readString_fwd.ok h1
    exact .inr (Somewhere.later (.here (.inr (oddType h2 hp))))

theorem readColumns_blame {n : Nat} (hn : n < 2 ^ 56) : ∀ (k : Nat) (b : Block), (∀ c ∈ b.columns, c.data.len = .ok n) →
    Blame (WildBlock known tz) (readColumns known tz n k b) := by
  intro k
  induction k with
  | zero => intro b _; exact .pure _
  | succ k ih =>
    intro b hb
    refine (readColumn_blame hn).bindOf fun bs c r h1 h2 => ?_
    rcases readColumn_len h1 with hl | hw
    · have happ : b.append c = .ok { b with columns := b.columns ++ [c] } := append_arrived hb hl
      rw [happ] at h2
      obtain ⟨p, rfl⟩ := (readColumn_fwd known tz n).ok h1
      refine Somewhere.later (ih _ ?_ r h2)
      intro d hd
      simp only [List.mem_append, List.mem_singleton] at hd
      rcases hd with hd | rfl
      · exact hb d hd
      · exact hl
    · exact hw

theorem readBlockInfo_wild : Blame Wild readBlockInfo := by
  refine Blame.loop readBlockInfoStep_fwd (fun i => ?_) _
  exact uvarint_wild.bind readUvarint_fwd fun _ => .ite (readBool_blame.bind readBool_fwd fun _ => .pure _)
    (.ite ((readLE_blame 4).bind (readLE_fwd 4) fun _ => .pure _) (.ite (.pure _) (.fail _)))

theorem rawLoad_blame : Blame (WildBlock known tz) (rawLoad known tz) := by
  refine (readBlockInfo_wild.mono fun _ => wild_block).bind readBlockInfo_fwd fun info => ?_
  refine (uvarint_wild.mono fun _ => wild_block).bind readUvarint_fwd fun nc => ?_
  refine (uvarint_wild.mono fun _ => wild_block).bindOf fun bs nr r h1 h2 => ?_
  by_cases hn : nr < 2 ^ 56
  · obtain ⟨c, rfl⟩ := readUvarint_fwd.ok h1
    exact (readColumns_blame hn nc _ (by simp [Block.new]) r h2).later
  · exact .here (.inl (.inr (.inl (readUvarint_announces h1 (by omega)))))

theorem parseBlock_blame (env : Env) (info : TransportInfo) (tz : Tz) (htz : info.timezone = some tz) (hc : info.compress = false) :
    Blame (WildBlock env.known tz) (parseBlock env info) := by
  unfold parseBlock
  rw [htz, hc]
  refine (skipString_wild.mono fun _ => wild_block).bind skipString_fwd fun _ => ?_
  exact Blame.bind (rawLoad_fwd _ _) rawLoad_blame fun _ => .pure _

/-! ### Compressed blocks -/

theorem readLE_calm (n : Nat) (bs : Bytes) : readLE n bs ≠ .panic := by
  intro h
  rcases panic_bind h with h | ⟨_, _, _, h⟩
  · unfold readN at h; split at h <;> cases h
  · cases h

theorem decompressBuffer_panic {z : Codec} {bs : Bytes} (h : decompressBuffer z bs = .panic) : ShortFrame bs := by
  rcases panic_bind h with h | ⟨lo, r1, h1, h⟩
  · exact absurd h (readLE_calm _ _)
  rcases panic_bind h with h | ⟨hi, r2, h2, h⟩
  · exact absurd h (readLE_calm _ _)
  rcases panic_bind h with h | ⟨m, r3, h3, h⟩
  · exact absurd h (readLE_calm _ _)
  split at h
  · cases h
  rename_i hm
  rcases panic_bind h with h | ⟨cs, r4, h4, h⟩
  · exact absurd h (readLE_calm _ _)
  rcases panic_bind h with h | ⟨o, r5, h5, h⟩
  · exact absurd h (readLE_calm _ _)
  split at h
  · cases h
  rcases panic_bind h with h | ⟨body, r6, h6, h⟩
  · unfold readN at h; split at h <;> cases h
  split at h
  · cases h
  split at h
  · rename_i hlt
    obtain ⟨g1, e1, l1, _⟩ := readLE_ok h1
    obtain ⟨g2, e2, l2, _⟩ := readLE_ok h2
    obtain ⟨g3, e3, l3, v3⟩ := readLE_ok h3
    obtain ⟨g4, e4, l4, v4⟩ := readLE_ok h4
    match g3, l3 with
    | [b], _ =>
      have hb : b = 0x82 := by
        simp [base256] at v3
        apply UInt8.toNat.inj
        have := v3
        simp only [ne_eq, Decidable.not_not] at hm
        rw [this, hm]; rfl
      subst hb
      exact ⟨g1 ++ g2, g4, r4, by rw [e1, e2, e3, e4]; simp, by simp [l1, l2], l4, by omega⟩
  · cases hd : z.decompress body o <;> rw [hd] at h <;> cases h

theorem readCompressed_blame {z : Codec} {p : Reader α} {bs : Bytes} (h : readCompressed z p bs = .panic) :
    (∃ data, Inflates z bs data ∧ p data = .panic) ∨ Somewhere ShortFrame bs := by
  have key : ∀ k, ∀ (bs buf : Bytes), bs.length ≤ k → Reader.loop (refill z p) buf bs = .panic →
      (∃ data, Inflates z bs data ∧ p (buf ++ data) = .panic) ∨ Somewhere ShortFrame bs := by
    intro k
    induction k with
    | zero =>
      intro bs buf hk h
      rw [loop_run] at h
      unfold refill at h
      cases hp : p buf with
      | ok a r => simp [hp] at h
      | err e r => simp [hp] at h
      | panic => exact .inl ⟨[], .stop, by simpa using hp⟩
      | more =>
        simp only [hp] at h
        cases hs : (decompressBuffer z >>= fun d => if d = [] then Reader.wait else Reader.pure (Sum.inl (buf ++ d))) bs with
        | more => rw [hs] at h; cases h
        | err e r => rw [hs] at h; cases h
        | panic =>
          rcases panic_bind hs with h' | ⟨d, r, h1, h2⟩
          · exact .inr (.here (decompressBuffer_panic h'))
          · split at h2 <;> cases h2
        | ok x r =>
          rw [hs] at h
          obtain ⟨d, r', h1, h2⟩ := bind_eq_ok hs
          split at h2
          · cases h2
          · injection h2 with h2 h3; subst h2; subst h3
            simp only at h; rw [if_neg (by omega)] at h; cases h
    | succ k ih =>
      intro bs buf hk h
      rw [loop_run] at h
      unfold refill at h
      cases hp : p buf with
      | ok a r => simp [hp] at h
      | err e r => simp [hp] at h
      | panic => exact .inl ⟨[], .stop, by simpa using hp⟩
      | more =>
        simp only [hp] at h
        cases hs : (decompressBuffer z >>= fun d => if d = [] then Reader.wait else Reader.pure (Sum.inl (buf ++ d))) bs with
        | more => rw [hs] at h; cases h
        | err e r => rw [hs] at h; cases h
        | panic =>
          rcases panic_bind hs with h' | ⟨d, r, h1, h2⟩
          · exact .inr (.here (decompressBuffer_panic h'))
          · split at h2 <;> cases h2
        | ok x r =>
          rw [hs] at h
          obtain ⟨d, r', h1, h2⟩ := bind_eq_ok hs
          split at h2
          · cases h2
          · injection h2 with h2 h3; subst h2; subst h3
            simp only at h
            split at h
            · rcases ih r' (buf ++ d) (by omega) h with ⟨data, g1, g2⟩ | g
              · exact .inl ⟨d ++ data, .frame h1 g1, by rw [← List.append_assoc]; exact g2⟩
              · obtain ⟨c, rfl⟩ := (decompressBuffer_fwd z).ok h1
                exact .inr g.later
            · cases h
  rcases key _ bs [] (Nat.le_refl _) h with ⟨data, g1, g2⟩ | g
  · exact .inl ⟨data, g1, by simpa using g2⟩
  · exact .inr g

end CH
