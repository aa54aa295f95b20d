import Verif.Model.Wire

namespace CH

/-! Laws of incremental readers. -/

/-- `p` never changes its mind when more bytes arrive, and leaves the extra bytes untouched. -/
structure Mono (p : Reader α) : Prop where
  ok : ∀ {bs a r}, p bs = .ok a r → ∀ ext, p (bs ++ ext) = .ok a (r ++ ext)
  err : ∀ {bs e r}, p bs = .err e r → ∀ ext, p (bs ++ ext) = .err e (r ++ ext)
  panic : ∀ {bs}, p bs = .panic → ∀ ext, p (bs ++ ext) = .panic

/-- `p` only ever moves forward in its input. -/
structure Fwd (p : Reader α) : Prop where
  ok : ∀ {bs a r}, p bs = .ok a r → ∃ c, bs = c ++ r
  err : ∀ {bs e r}, p bs = .err e r → ∃ c, bs = c ++ r

@[simp] theorem pure_run (a : α) (bs : Bytes) : (Pure.pure a : Reader α) bs = .ok a bs := rfl
@[simp] theorem rpure_run (a : α) (bs : Bytes) : (Reader.pure a) bs = .ok a bs := rfl
@[simp] theorem fail_run (e : Err) (bs : Bytes) : (Reader.fail e : Reader α) bs = .err e bs := rfl
@[simp] theorem panic_run (bs : Bytes) : (Reader.panic : Reader α) bs = .panic := rfl

theorem bind_run (p : Reader α) (f : α → Reader β) (bs : Bytes) :
    (p >>= f) bs = match p bs with
      | .ok a rest => f a rest
      | .more => .more
      | .err e rest => .err e rest
      | .panic => .panic := rfl

theorem bind_ok {p : Reader α} {f : α → Reader β} {bs : Bytes} {a r} (h : p bs = .ok a r) :
    (p >>= f) bs = f a r := by simp [bind_run, h]
theorem bind_more {p : Reader α} {f : α → Reader β} {bs : Bytes} (h : p bs = .more) :
    (p >>= f) bs = .more := by simp [bind_run, h]
theorem bind_err {p : Reader α} {f : α → Reader β} {bs : Bytes} {e r} (h : p bs = .err e r) :
    (p >>= f) bs = .err e r := by simp [bind_run, h]
theorem bind_panic {p : Reader α} {f : α → Reader β} {bs : Bytes} (h : p bs = .panic) :
    (p >>= f) bs = .panic := by simp [bind_run, h]

theorem bind_eq_ok {p : Reader α} {f : α → Reader β} {bs : Bytes} {b r}
    (h : (p >>= f) bs = .ok b r) : ∃ a r', p bs = .ok a r' ∧ f a r' = .ok b r := by
  rw [bind_run] at h
  cases hp : p bs with
  | ok a r' => rw [hp] at h; exact ⟨a, r', rfl, h⟩
  | more => simp [hp] at h
  | err => simp [hp] at h
  | panic => simp [hp] at h

theorem Mono.pure (a : α) : Mono (Reader.pure a) :=
  ⟨by intro bs a' r h ext; simp at h; simp [h], by simp, by simp⟩
theorem Mono.pure' (a : α) : Mono (Pure.pure a : Reader α) := Mono.pure a
theorem Mono.fail (e : Err) : Mono (Reader.fail e : Reader α) :=
  ⟨by simp, by intro bs a' r h ext; simp at h; simp [h], by simp⟩
theorem Mono.panic' : Mono (Reader.panic : Reader α) := ⟨by simp, by simp, by simp⟩

theorem Mono.bind {p : Reader α} {f : α → Reader β} (hp : Mono p) (hf : ∀ a, Mono (f a)) :
    Mono (p >>= f) := by
  constructor
  · intro bs b r h ext
    rw [bind_run] at h ⊢
    cases hpb : p bs with
    | ok a r' => rw [hpb] at h; rw [hp.ok hpb ext]; exact (hf a).ok h ext
    | more => simp [hpb] at h
    | err => simp [hpb] at h
    | panic => simp [hpb] at h
  · intro bs b r h ext
    rw [bind_run] at h ⊢
    cases hpb : p bs with
    | ok a r' => rw [hpb] at h; rw [hp.ok hpb ext]; exact (hf a).err h ext
    | more => simp [hpb] at h
    | err => simp [hpb] at h; rw [hp.err hpb ext]; simp [h]
    | panic => simp [hpb] at h
  · intro bs h ext
    rw [bind_run] at h ⊢
    cases hpb : p bs with
    | ok a r' => rw [hpb] at h; rw [hp.ok hpb ext]; exact (hf a).panic h ext
    | more => simp [hpb] at h
    | err => simp [hpb] at h
    | panic => rw [hp.panic hpb ext]

theorem Mono.ite {c : Prop} [Decidable c] {p q : Reader α} (hp : Mono p) (hq : Mono q) :
    Mono (if c then p else q) := by split <;> assumption

theorem loop_run (step : σ → Reader (σ ⊕ α)) (s : σ) (bs : Bytes) :
    Reader.loop step s bs = match step s bs with
      | .ok (.inr a) r => .ok a r
      | .ok (.inl s') r => if r.length < bs.length then Reader.loop step s' r else .more
      | .more => .more
      | .err e r => .err e r
      | .panic => .panic := by
  rw [Reader.loop]
  cases step s bs with
  | ok x r => cases x <;> rfl
  | _ => rfl

theorem Mono.loop {step : σ → Reader (σ ⊕ α)} (hm : ∀ s, Mono (step s)) (s : σ) : Mono (Reader.loop step s) := by
  have key : ∀ k, ∀ (bs : Bytes), bs.length ≤ k → ∀ s ext, Reader.loop step s bs = .more ∨
      Reader.loop step s (bs ++ ext) = match Reader.loop step s bs with
        | .ok a r => .ok a (r ++ ext)
        | .more => .more
        | .err e r => .err e (r ++ ext)
        | .panic => .panic := by
    intro k
    induction k with
    | zero =>
      intro bs hk s ext
      rw [loop_run, loop_run step s (bs ++ ext)]
      cases h : step s bs with
      | more => simp
      | panic => right; rw [(hm s).panic h ext]
      | err e r => right; rw [(hm s).err h ext]
      | ok x r =>
        cases x with
        | inr a => right; rw [(hm s).ok h ext]
        | inl s' => left; simp only; rw [if_neg (by omega)]
    | succ k ih =>
      intro bs hk s ext
      rw [loop_run, loop_run step s (bs ++ ext)]
      cases h : step s bs with
      | more => simp
      | panic => right; rw [(hm s).panic h ext]
      | err e r => right; rw [(hm s).err h ext]
      | ok x r =>
        rw [(hm s).ok h ext]
        cases x with
        | inr a => right; rfl
        | inl s' =>
          by_cases hr : r.length < bs.length
          · simp only [if_pos hr]
            rw [if_pos (by simp; omega)]
            exact ih r (by omega) s' ext
          · left; simp [hr]
  constructor
  · intro bs a r h ext; have := key _ bs (Nat.le_refl _) s ext; rw [h] at this; simpa using this
  · intro bs a r h ext; have := key _ bs (Nat.le_refl _) s ext; rw [h] at this; simpa using this
  · intro bs h ext; have := key _ bs (Nat.le_refl _) s ext; rw [h] at this; simpa using this

theorem Fwd.loop {step : σ → Reader (σ ⊕ α)} (hm : ∀ s, Fwd (step s)) (s : σ) : Fwd (Reader.loop step s) := by
  have key : ∀ k, ∀ (bs : Bytes), bs.length ≤ k → ∀ s, match Reader.loop step s bs with
        | .ok _ r => ∃ c, bs = c ++ r
        | .err _ r => ∃ c, bs = c ++ r
        | _ => True := by
    intro k
    induction k with
    | zero =>
      intro bs hk s
      rw [loop_run]
      cases h : step s bs with
      | more => trivial
      | panic => trivial
      | err e r => exact (hm s).err h
      | ok x r =>
        cases x with
        | inr a => exact (hm s).ok h
        | inl s' => simp only; rw [if_neg (by omega)]; trivial
    | succ k ih =>
      intro bs hk s
      rw [loop_run]
      cases h : step s bs with
      | more => trivial
      | panic => trivial
      | err e r => exact (hm s).err h
      | ok x r =>
        cases x with
        | inr a => exact (hm s).ok h
        | inl s' =>
          simp only
          by_cases hr : r.length < bs.length
          · rw [if_pos hr]
            obtain ⟨c, hc⟩ := (hm s).ok h
            have := ih r (by omega) s'
            cases hl : Reader.loop step s' r with
            | more => trivial
            | panic => trivial
            | err e r' => rw [hl] at this; obtain ⟨d, hd⟩ := this; exact ⟨c ++ d, by simp [hc, hd]⟩
            | ok e r' => rw [hl] at this; obtain ⟨d, hd⟩ := this; exact ⟨c ++ d, by simp [hc, hd]⟩
          · rw [if_neg hr]; trivial
  constructor
  · intro bs a r h; have := key _ bs (Nat.le_refl _) s; rw [h] at this; exact this
  · intro bs a r h; have := key _ bs (Nat.le_refl _) s; rw [h] at this; exact this

theorem Mono.lift (x : Out α) : Mono (Reader.lift x) := by
  cases x with
  | ok a => exact Mono.pure a
  | err e => exact Mono.fail e
  | panic => exact Mono.panic'

theorem Fwd.pure (a : α) : Fwd (Reader.pure a) :=
  ⟨by intro bs a' r h; simp at h; exact ⟨[], by simp [h]⟩, by simp⟩
theorem Fwd.pure' (a : α) : Fwd (Pure.pure a : Reader α) := Fwd.pure a
theorem Fwd.fail (e : Err) : Fwd (Reader.fail e : Reader α) :=
  ⟨by simp, by intro bs a' r h; simp at h; exact ⟨[], by simp [h]⟩⟩
theorem Fwd.panic' : Fwd (Reader.panic : Reader α) := ⟨by simp, by simp⟩

theorem Fwd.bind {p : Reader α} {f : α → Reader β} (hp : Fwd p) (hf : ∀ a, Fwd (f a)) :
    Fwd (p >>= f) := by
  constructor
  · intro bs b r h
    rw [bind_run] at h
    cases hpb : p bs with
    | ok a r' =>
      rw [hpb] at h
      obtain ⟨c1, h1⟩ := hp.ok hpb
      obtain ⟨c2, h2⟩ := (hf a).ok h
      exact ⟨c1 ++ c2, by simp [h1, h2]⟩
    | more => simp [hpb] at h
    | err => simp [hpb] at h
    | panic => simp [hpb] at h
  · intro bs b r h
    rw [bind_run] at h
    cases hpb : p bs with
    | ok a r' =>
      rw [hpb] at h
      obtain ⟨c1, h1⟩ := hp.ok hpb
      obtain ⟨c2, h2⟩ := (hf a).err h
      exact ⟨c1 ++ c2, by simp [h1, h2]⟩
    | more => simp [hpb] at h
    | err => simp [hpb] at h; obtain ⟨c, hc⟩ := hp.err hpb; exact ⟨c, by rw [hc, h.2]⟩
    | panic => simp [hpb] at h

theorem Fwd.ite {c : Prop} [Decidable c] {p q : Reader α} (hp : Fwd p) (hq : Fwd q) :
    Fwd (if c then p else q) := by split <;> assumption

theorem Fwd.lift (x : Out α) : Fwd (Reader.lift x) := by
  cases x with
  | ok a => exact Fwd.pure a
  | err e => exact Fwd.fail e
  | panic => exact Fwd.panic'

theorem readN_mono (n : Nat) : Mono (readN n) := by
  constructor
  · intro bs a r h ext
    simp only [readN] at h ⊢
    split at h
    · next hn =>
      simp only [Res.ok.injEq] at h
      rw [if_pos (by simp; omega), List.take_append_of_le_length hn, List.drop_append_of_le_length hn, h.1, h.2]
    · simp at h
  · intro bs e r h; simp only [readN] at h; split at h <;> simp at h
  · intro bs h; simp only [readN] at h; split at h <;> simp at h

theorem readN_fwd (n : Nat) : Fwd (readN n) := by
  constructor
  · intro bs a r h
    simp only [readN] at h
    split at h
    · simp only [Res.ok.injEq] at h; exact ⟨bs.take n, by rw [← h.2]; simp⟩
    · simp at h
  · intro bs e r h; simp only [readN] at h; split at h <;> simp at h

theorem readN_append (b rest : Bytes) : readN b.length (b ++ rest) = .ok b rest := by
  simp [readN]

theorem readN_append' {n : Nat} (b rest : Bytes) (h : b.length = n) : readN n (b ++ rest) = .ok b rest := by
  subst h; exact readN_append b rest

theorem readUvarintLoop_mono (x s i : Nat) : Mono (readUvarintLoop x s i) := by
  constructor
  · intro bs
    induction bs generalizing x s i with
    | nil => intro a r h; simp [readUvarintLoop] at h
    | cons b bs ih =>
      intro a r h ext
      simp only [readUvarintLoop, List.cons_append] at h ⊢
      split at h
      · rename_i hb
        rw [if_pos hb]
        split at h
        · simp at h
        · rename_i hi; rw [if_neg hi]; simp only [Res.ok.injEq] at h; simp [h]
      · rename_i hb
        rw [if_neg hb]
        split at h
        · simp at h
        · rename_i hs; rw [if_neg hs]; exact ih _ _ _ h ext
  · intro bs
    induction bs generalizing x s i with
    | nil => intro a r h; simp [readUvarintLoop] at h
    | cons b bs ih =>
      intro a r h ext
      simp only [readUvarintLoop, List.cons_append] at h ⊢
      split at h
      · rename_i hb
        rw [if_pos hb]
        split at h
        · rename_i hi; rw [if_pos hi]; simp only [Res.err.injEq] at h; simp [h]
        · simp at h
      · rename_i hb
        rw [if_neg hb]
        split at h
        · simp at h
        · rename_i hs; rw [if_neg hs]; exact ih _ _ _ h ext
  · intro bs
    induction bs generalizing x s i with
    | nil => intro h; simp [readUvarintLoop] at h
    | cons b bs ih =>
      intro h ext
      simp only [readUvarintLoop, List.cons_append] at h ⊢
      split at h
      · rename_i hb
        split at h <;> simp at h
      · rename_i hb
        rw [if_neg hb]
        split at h
        · rename_i hs; rw [if_pos hs]
        · rename_i hs; rw [if_neg hs]; exact ih _ _ _ h ext

theorem readUvarint_mono : Mono readUvarint := readUvarintLoop_mono 0 0 0

theorem readUvarintLoop_fwd (x s i : Nat) : Fwd (readUvarintLoop x s i) := by
  constructor
  · intro bs
    induction bs generalizing x s i with
    | nil => intro a r h; simp [readUvarintLoop] at h
    | cons b bs ih =>
      intro a r h
      simp only [readUvarintLoop] at h
      split at h
      · split at h
        · simp at h
        · simp only [Res.ok.injEq] at h; exact ⟨[b], by simp [h]⟩
      · split at h
        · simp at h
        · obtain ⟨c, hc⟩ := ih _ _ _ h; exact ⟨b :: c, by simp [hc]⟩
  · intro bs
    induction bs generalizing x s i with
    | nil => intro a r h; simp [readUvarintLoop] at h
    | cons b bs ih =>
      intro a r h
      simp only [readUvarintLoop] at h
      split at h
      · split at h
        · simp only [Res.err.injEq] at h; exact ⟨[b], by simp [h]⟩
        · simp at h
      · split at h
        · simp at h
        · obtain ⟨c, hc⟩ := ih _ _ _ h; exact ⟨b :: c, by simp [hc]⟩

theorem readUvarint_fwd : Fwd readUvarint := readUvarintLoop_fwd 0 0 0

/-- Reading a varint consumes at least one byte. -/
theorem readUvarintLoop_progress (x s i : Nat) {bs v r} (h : readUvarintLoop x s i bs = .ok v r) :
    r.length < bs.length := by
  induction bs generalizing x s i with
  | nil => simp [readUvarintLoop] at h
  | cons b bs ih =>
    simp only [readUvarintLoop] at h
    split at h
    · split at h
      · simp at h
      · simp only [Res.ok.injEq] at h; simp [h]
    · split at h
      · simp at h
      · have := ih _ _ _ h; simp; omega

theorem readUvarint_progress {bs v r} (h : readUvarint bs = .ok v r) : r.length < bs.length :=
  readUvarintLoop_progress 0 0 0 h

theorem readLE_mono (w : Nat) : Mono (readLE w) := (readN_mono w).bind fun _ => Mono.pure _
theorem readLE_fwd (w : Nat) : Fwd (readLE w) := (readN_fwd w).bind fun _ => Fwd.pure _
theorem readBool_mono : Mono readBool := (readN_mono 1).bind fun _ => Mono.pure _
theorem readBool_fwd : Fwd readBool := (readN_fwd 1).bind fun _ => Fwd.pure _
theorem alloc_mono (n : Nat) : Mono (alloc n) := by
  constructor
  · intro bs a r h ext
    simp only [alloc] at h ⊢
    split at h
    · next hn => simp only [Res.ok.injEq] at h; rw [if_pos hn, h.2]
    · simp at h
  · intro bs e r h; simp only [alloc] at h; split at h <;> simp at h
  · intro bs h ext
    simp only [alloc] at h ⊢
    split at h
    · simp at h
    · next hn => rw [if_neg hn]
theorem alloc_fwd (n : Nat) : Fwd (alloc n) := by
  constructor
  · intro bs a r h
    simp only [alloc] at h
    split at h
    · simp only [Res.ok.injEq] at h; exact ⟨[], by simp [h.2]⟩
    · simp at h
  · intro bs e r h; simp only [alloc] at h; split at h <;> simp at h

theorem alloc_ok {n : Nat} (h : n < 2 ^ 63) (bs : Bytes) : alloc n bs = .ok () bs := by
  rw [alloc, if_pos (by unfold isizeMax; omega)]

theorem readBytesLP_mono (k : Nat) : Mono (readBytesLP k) := readUvarint_mono.bind fun _ => (alloc_mono _).bind fun _ => readN_mono _
theorem readBytesLP_fwd (k : Nat) : Fwd (readBytesLP k) := readUvarint_fwd.bind fun _ => (alloc_fwd _).bind fun _ => readN_fwd _

theorem readString_mono : Mono readString :=
  readUvarint_mono.bind fun _ => (alloc_mono _).bind fun _ => (readN_mono _).bind fun b => by
    cases strOfBytes? b with
    | some s => exact Mono.pure s
    | none => exact Mono.fail _
theorem readString_fwd : Fwd readString :=
  readUvarint_fwd.bind fun _ => (alloc_fwd _).bind fun _ => (readN_fwd _).bind fun b => by
    cases strOfBytes? b with
    | some s => exact Fwd.pure s
    | none => exact Fwd.fail _

theorem skipString_mono : Mono skipString :=
  readUvarint_mono.bind fun _ =>
    Mono.ite ((readN_mono _).bind fun _ => Mono.pure _) ((alloc_mono _).bind fun _ => (readN_mono _).bind fun _ => Mono.pure _)
theorem skipString_fwd : Fwd skipString :=
  readUvarint_fwd.bind fun _ =>
    Fwd.ite ((readN_fwd _).bind fun _ => Fwd.pure _) ((alloc_fwd _).bind fun _ => (readN_fwd _).bind fun _ => Fwd.pure _)

/-- A strict prefix of a message that is decoded completely only ever asks for more. -/
theorem Mono.prefix_more {p : Reader α} (hp : Mono p) {bs ext : Bytes} {a : α}
    (h : p (bs ++ ext) = .ok a []) (hext : ext ≠ []) : p bs = .more := by
  cases hb : p bs with
  | ok a' r => have := hp.ok hb ext; rw [h] at this; simp at this; exact absurd this.2.2 hext
  | more => rfl
  | err e r => have := hp.err hb ext; rw [h] at this; simp at this
  | panic => have := hp.panic hb ext; rw [h] at this; simp at this

end CH
