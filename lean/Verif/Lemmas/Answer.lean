import Verif.Spec.Answer
import Verif.Props.Native
import Verif.Props.Protocol
import Verif.Props.Fetch
import Verif.Lemmas.Refine

/-! Lemmas about the bytes of an answer. -/

namespace CH

open Spec Props

theorem frame_isFrame {z : Codec} {data f : Bytes} (h : FrameLaid z data f) (hl : f.length ≤ 16 + 2 ^ 30) : IsFrame z f data := by
  obtain ⟨lo, hi, size, orig, body, rfl, h1, h2, h3, h4, h5⟩ := h
  obtain ⟨e3, h3⟩ := word_eq h3
  obtain ⟨e4, h4⟩ := word_eq h4
  subst e3 e4
  have e : [0x82] ++ putLE 4 (1 + 4 + 4 + body.length) ++ putLE 4 data.length ++ body =
      frameHeader (9 + body.length) data.length ++ body := by
    rw [show 1 + 4 + 4 + body.length = 9 + body.length by omega]; rfl
  rw [e] at h1 h2 hl ⊢
  obtain ⟨rfl, -⟩ := word_eq h1
  obtain ⟨rfl, -⟩ := word_eq h2
  intro rest
  have hb : 9 + body.length ≤ 0x40000000 := by
    simp only [List.length_append, putLE_length, frameHeader, List.length_cons] at hl
    omega
  have := decompressBuffer_put (z := z) (compressed := 9 + body.length) (original := data.length)
    (body := body) (d := data) (by omega) hb (by omega) (by omega) h5 rest
  rw [this]
  simp [resizeB]

theorem frames_split {z : Codec} {ds : List Bytes} {b : Bytes} (h : InTurn (fun d f => FrameLaid z d f ∧ f.length ≤ 16 + 2 ^ 30) ds b)
    (hne : ∀ d ∈ ds, d ≠ []) : ∃ fs : List (Bytes × Bytes), (∀ f ∈ fs, IsFrame z f.1 f.2 ∧ f.2 ≠ []) ∧ (fs.map Prod.snd) = ds ∧
      (fs.map Prod.fst).flatten = b := by
  induction h with
  | nil => exact ⟨[], by simp, rfl, rfl⟩
  | @cons d ds f b h _ ih =>
    obtain ⟨fs, h1, h2, h3⟩ := ih fun d hd => hne d (by simp [hd])
    refine ⟨(f, d) :: fs, ?_, by simp [h2], by simp [h3]⟩
    intro g hg
    rcases List.mem_cons.mp hg with rfl | hg
    · exact ⟨frame_isFrame h.1 h.2, hne d (by simp)⟩
    · exact h1 g hg

theorem carried_load {known : Tz → Bool} {z : Codec} {tz : Tz} {compress : Bool} {raw body : Bytes} {b : Block}
    (h : Carried z compress raw body) (hl : ∀ rest, rawLoad known tz (raw ++ rest) = .ok b rest) (rest : Bytes) :
    blockLoad known z tz compress (body ++ rest) = .ok b rest := by
  cases compress with
  | false =>
    simp only [Carried, Bool.false_eq_true, if_false] at h
    subst h
    exact hl rest
  | true =>
    simp only [Carried, if_true] at h
    obtain ⟨ds, rfl, h2, h3⟩ := h
    obtain ⟨fs, g1, rfl, rfl⟩ := frames_split h3 h2
    exact C13_framing_transparent known z tz fs g1 b (by simpa using hl []) rest

theorem said_parse {env : Env} {info : TransportInfo} {tz : Tz} (htz : info.timezone = some tz) {m : Said} {b : Bytes}
    (h : SaidLaid env.codec tz info.revision info.compress m b) (hr : Readable env.known m) :
    ∃ p m', (∀ rest, parsePacket env info (b ++ rest) = .ok p rest) ∧ Means m' p ∧ ReorderedSaid m m' ∧ (Mapless m → m' = m) ∧
      SaidLaid env.codec tz info.revision info.compress m' b := by
  cases m with
  | progress p =>
    obtain ⟨h1, rfl⟩ := h
    exact ⟨_, .progress p, fun rest => C07_progress env info p h1 rest, rfl, rfl, fun _ => rfl, h1, rfl⟩
  | profile p =>
    obtain ⟨h1, rfl⟩ := h
    exact ⟨_, .profile p, fun rest => C07_profile_info env info p h1 rest, rfl, rfl, fun _ => rfl, h1, rfl⟩
  | block i rows cols =>
    obtain ⟨code, table, t, raw, body, hc, ht, hb, hz, hcar, hlen, htl, rfl⟩ := h
    obtain ⟨hrows, hcols⟩ := hr
    obtain ⟨cs, fs', k1, k2, kl, k3, k4, k5⟩ := C76_block_load_partial env.known tz i rows cols raw hb hcols hrows hlen
    have key : ∀ (j : Nat) f f', cols[j]? = some f → fs'[j]? = some f' → f'.name = f.name ∧ f'.type = f.type ∧
        (MapFree f.type → f'.cells = f.cells) ∧ ReorderedCells f.cells f'.cells := by
      intro j f f' hf hf'
      have hj : j < cs.length := by
        have := (List.getElem?_eq_some_iff.mp hf).1
        omega
      exact (k5 j _ f f' (List.getElem?_eq_getElem hj) hf hf').2
    refine ⟨.block ⟨i, cs⟩, .block i rows fs', fun rest => ?_, ⟨cs, rfl, by omega, k3, fun j c f hc hf => ?_⟩,
      ⟨rfl, rfl, k4, fun j f f' hf hf' => ?_⟩, fun hm => ?_, code, table, t, raw, body, hc, ht, kl, fun e => ?_, hcar, hlen, htl, rfl⟩
    · have ht' : (strBytes table).length < 2 ^ 63 := by
        obtain ⟨l, -, rfl⟩ := ht
        simp only [List.length_append] at htl
        omega
      have e : [code] = putUvarint code.toNat := leb_eq (.last rfl (by rcases hc with rfl | rfl | rfl <;> decide))
      have := C07_data env info tz htz code.toNat (by rcases hc with rfl | rfl | rfl <;> decide) (strBytes table) ht' body rest ⟨i, cs⟩
        (carried_load hcar k1 rest)
      rw [lettered_eq ht, e]
      exact this
    · have hj : j < cols.length := by
        have := (List.getElem?_eq_some_iff.mp hf).1
        omega
      exact (k5 j c _ f hc (List.getElem?_eq_getElem hj) hf).1
    · obtain ⟨g1, g2, -, g3⟩ := key j f f' hf hf'
      exact ⟨g1, g2, g3⟩
    · congr 1
      refine List.ext_getElem k4 fun j h1 h2 => ?_
      obtain ⟨g1, g2, g3, -⟩ := key j _ _ (List.getElem?_eq_getElem h2) (List.getElem?_eq_getElem h1)
      have g3 := g3 (hm _ (List.getElem_mem h2))
      generalize fs'[j] = x at *
      generalize cols[j] = y at *
      cases x; cases y
      simp_all
    · apply hz
      rw [e] at k4
      exact List.length_eq_zero_iff.mp k4.symm

theorem means_hello {m : Said} {p : Packet} (h : Means m p) : ∀ s, p ≠ .hello s := by
  intro s e
  subst e
  cases m <;> simp [Means] at h

theorem said_decodes {env : Env} {info : TransportInfo} {tz : Tz} (htz : info.timezone = some tz) {said : List Said} {b : Bytes}
    (h : InTurn (SaidLaid env.codec tz info.revision info.compress) said b) (hr : ∀ m ∈ said, Readable env.known m) :
    ∃ (ps : List Packet) (said' : List Said), ps.length = said'.length ∧ ReorderedAnswer said said' ∧
      InTurn (SaidLaid env.codec tz info.revision info.compress) said' b ∧
      (∀ (i : Nat) m p, said'[i]? = some m → ps[i]? = some p → Means m p) ∧
      ∀ rest, Decodes env info (b ++ rest) (ps.map .inl) info rest := by
  induction h with
  | nil => exact ⟨[], [], rfl, ⟨rfl, by simp, fun _ => rfl⟩, .nil, by simp, fun rest => .done⟩
  | @cons m said b bs h _ ih =>
    obtain ⟨p, m0, h1, h2, a1, a2, a3⟩ := said_parse htz h (hr m (by simp))
    obtain ⟨ps, said', g1, ⟨b1, b2, b3⟩, g4, g2, g3⟩ := ih fun m hm => hr m (by simp [hm])
    refine ⟨p :: ps, m0 :: said', by simp [g1], ⟨by simp [b1], ?_, fun hm => ?_⟩, .cons a3 g4, ?_, fun rest => ?_⟩
    · intro i m' p' hm hp
      cases i with
      | zero =>
        simp only [List.getElem?_cons_zero, Option.some.injEq] at hm hp
        subst hm hp
        exact a1
      | succ i =>
        simp only [List.getElem?_cons_succ] at hm hp
        exact b2 i m' p' hm hp
    · rw [a2 (hm m (by simp)), b3 fun m h => hm m (by simp [h])]
    · intro i m' p' hm hp
      cases i with
      | zero =>
        simp only [List.getElem?_cons_zero, Option.some.injEq] at hm hp
        subst hm hp
        exact h2
      | succ i =>
        simp only [List.getElem?_cons_succ] at hm hp
        exact g2 i m' p' hm hp
    · rw [List.append_assoc]
      exact .packet (h1 _) (.other (means_hello h2)) (g3 rest)

theorem means_rows {m : Said} {p : Packet} (h : Means m p) (hw : ∀ i r c, m = .block i r c → (c = [] → r = 0) ∧ ∀ f ∈ c, f.cells.length = r) :
    answerRows (blocksOf [.packet p]) = (saidRows m).map (·.map .ok) := by
  cases m with
  | progress q => rw [Means] at h; subst h; rfl
  | profile q => rw [Means] at h; subst h; rfl
  | block i r c =>
    obtain ⟨cs, rfl, h1, h2, h3⟩ := h
    obtain ⟨w1, w2⟩ := hw i r c rfl
    simp only [answerRows, blocksOf, List.filterMap_cons, List.filterMap_nil, List.flatMap_cons, List.flatMap_nil, List.append_nil, saidRows]
    have hrow : Block.rowCount ⟨i, cs⟩ = .ok r := by
      cases cs with
      | nil => rw [w1 (List.length_eq_zero_iff.mp h1.symm)]; rfl
      | cons c cs => exact h2 c (by simp)
    rw [rowsOf, hrow]
    simp only [List.map_map]
    apply List.map_congr_left
    intro j hj
    rw [List.mem_range] at hj
    simp only [rowOf, Function.comp_apply]
    clear hrow w1 hw
    induction c generalizing cs with
    | nil => rw [List.length_eq_zero_iff.mp h1]; rfl
    | cons f fs ih =>
      cases cs with
      | nil => simp at h1
      | cons d ds =>
        have hl := w2 f (by simp)
        have e := List.getElem?_eq_getElem (l := f.cells) (i := j) (by omega)
        have := (h3 0 d f rfl rfl).2.2 j _ e
        rw [Nat.zero_add] at this
        rw [List.map_cons, this, List.filterMap_cons, e, List.map_cons]
        congr 1
        exact ih ds (by simpa using h1) (fun c hc => h2 c (by simp [hc])) (fun i c f hc hf => h3 (i + 1) c f hc hf)
          (fun f hf => w2 f (by simp [hf]))

/-- The messages of a complete answer, in order, with what each block is made of. -/
theorem answer_decodes {env : Env} {info : TransportInfo} {tz : Tz} (htz : info.timezone = some tz) {said : List Said} {b : Bytes}
    (h : AnswerLaid env.codec tz info.revision info.compress said b) (hr : ∀ m ∈ said, Readable env.known m) :
    ∃ (ps : List Packet) (said' : List Said), ps.length = said'.length ∧ ReorderedAnswer said said' ∧
      AnswerLaid env.codec tz info.revision info.compress said' b ∧
      (∀ (i : Nat) m p, said'[i]? = some m → ps[i]? = some p → Means m p) ∧
      ∀ rest, Decodes env info (b ++ rest) (ps.map .inl ++ [.inl .eof]) info rest := by
  obtain ⟨x, hx, rfl⟩ := h
  obtain ⟨ps, said', h1, ha, hl, h2, h3⟩ := said_decodes htz hx hr
  refine ⟨ps, said', h1, ha, ⟨x, hl, rfl⟩, h2, fun rest => ?_⟩
  have e : [5] = putUvarint 5 := leb_eq (.last rfl (by decide))
  have h4 := h3 []
  rw [List.append_nil] at h4
  rw [List.append_assoc]
  refine h4.append (ext := [5] ++ rest) ?_
  exact .packet (by rw [e]; exact (C07_pong_eof env info rest).2) (.other nofun) .done

/-- What holds of every block of the answer on the wire. -/
theorem laid_block {z : Codec} {tz : Tz} {rev : Nat} {compress : Bool} {said : List Said} {x : Bytes}
    (h : InTurn (SaidLaid z tz rev compress) said x) : ∀ m ∈ said, ∀ i r c, m = .block i r c →
      (c = [] → r = 0) ∧ ∀ f ∈ c, f.cells.length = r := by
  induction h with
  | nil => simp
  | @cons m said b bs h _ ih =>
    intro m' hm i r c e
    rcases List.mem_cons.mp hm with rfl | hm
    · subst e
      obtain ⟨_, _, _, _, _, _, _, ⟨_, _, _, _, _, _, _, _, _, hl⟩, hz, _⟩ := h
      exact ⟨hz, hl⟩
    · exact ih m' hm i r c e

theorem means_middle {m : Said} {p : Packet} (h : Means m p) : Middle (.packet p) := by
  cases m with
  | progress q => rw [Means] at h; subst h; exact .progress _
  | profile q => rw [Means] at h; subst h; exact .profileInfo _
  | block i r c =>
    obtain ⟨cs, rfl, -⟩ := h
    exact .block _

theorem all_means_rows : ∀ {said : List Said} {ps : List Packet}, ps.length = said.length →
    (∀ (i : Nat) m p, said[i]? = some m → ps[i]? = some p → Means m p) →
    (∀ m ∈ said, ∀ i r c, m = .block i r c → (c = [] → r = 0) ∧ ∀ f ∈ c, f.cells.length = r) →
    answerRows (blocksOf (ps.map .packet)) = (said.flatMap saidRows).map (·.map .ok)
  | [], ps, hl, _, _ => by rw [List.length_eq_zero_iff.mp hl]; rfl
  | m :: said, [], hl, _, _ => by simp at hl
  | m :: said, p :: ps, hl, hm, hw => by
    have ih := all_means_rows (said := said) (ps := ps) (by simpa using hl) (fun i m p h1 h2 => hm (i + 1) m p h1 h2)
      fun m h => hw m (by simp [h])
    have h0 := means_rows (hm 0 m p rfl rfl) (hw m (by simp))
    have e : blocksOf ((p :: ps).map .packet) = blocksOf [.packet p] ++ blocksOf (ps.map .packet) := by
      rw [List.map_cons, ← List.singleton_append, blocksOf, List.filterMap_append]; rfl
    rw [e, answerRows, List.flatMap_append, List.flatMap_cons, List.map_append, ← ih, ← h0]
    rfl

/-- A block of the answer is one that was said. -/
theorem block_said {said : List Said} {ps : List Packet} (hl : ps.length = said.length)
    (hm : ∀ (i : Nat) m p, said[i]? = some m → ps[i]? = some p → Means m p) {b : Block} (hb : b ∈ blocksOf (ps.map .packet)) :
    ∃ i r c, .block i r c ∈ said ∧ Means (.block i r c) (.block b) := by
  rw [blocksOf, List.mem_filterMap] at hb
  obtain ⟨x, hx, hb⟩ := hb
  obtain ⟨p, hp, rfl⟩ := List.mem_map.mp hx
  obtain ⟨k, hk⟩ := List.mem_iff_getElem?.mp hp
  have hk' := (List.getElem?_eq_some_iff.mp hk).1
  have e := List.getElem?_eq_getElem (l := said) (i := k) (by omega)
  have h := hm k _ _ e hk
  have hp' : p = .block b := by
    cases p <;> simp at hb
    rw [hb]
  subst hp'
  have hmem := List.mem_of_getElem? e
  generalize said[k]'(by omega) = m at h hmem
  cases m with
  | progress q => simp [Means] at h
  | profile q => simp [Means] at h
  | block i r c => exact ⟨i, r, c, hmem, h⟩

theorem said_block {said : List Said} {ps : List Packet} (hl : ps.length = said.length)
    (hm : ∀ (i : Nat) m p, said[i]? = some m → ps[i]? = some p → Means m p) {i : BlockInfo} {r : Nat} {c : List Field}
    (hs : .block i r c ∈ said) : ∃ b ∈ blocksOf (ps.map .packet), Means (.block i r c) (.block b) := by
  obtain ⟨k, hk⟩ := List.mem_iff_getElem?.mp hs
  have hk' := (List.getElem?_eq_some_iff.mp hk).1
  have e := List.getElem?_eq_getElem (l := ps) (i := k) (by omega)
  have h := hm k _ _ hk e
  obtain ⟨cs, hp, h'⟩ := h
  refine ⟨⟨i, cs⟩, ?_, cs, rfl, h'⟩
  rw [blocksOf, List.mem_filterMap]
  exact ⟨_, List.mem_map.mpr ⟨_, List.mem_of_getElem? e, rfl⟩, by rw [hp]⟩

theorem means_types {i : BlockInfo} {r : Nat} {c : List Field} {b : Block} (h : Means (.block i r c) (.block b)) :
    b.columns.map (·.data.sqlType) = c.map (·.type) ∧ b.columns.map (·.name) = c.map (·.name) ∧ Rect b r := by
  obtain ⟨cs, hb, h1, h2, h3⟩ := h
  cases hb
  refine ⟨?_, ?_, h2⟩ <;>
  · apply List.ext_getElem?
    intro k
    rw [List.getElem?_map, List.getElem?_map]
    by_cases hk : k < cs.length
    · have hk' : k < c.length := by rw [← h1]; exact hk
      have e1 := List.getElem?_eq_getElem hk
      have e2 := List.getElem?_eq_getElem hk'
      have := h3 k _ _ e1 e2
      rw [e1, e2, Option.map_some, Option.map_some]
      first | rw [this.2.1] | rw [this.1]
    · rw [List.getElem?_eq_none (by simpa using hk), List.getElem?_eq_none (by omega)]; rfl

/-- What the client operations see of an answer whose bytes are in the buffer and on the socket. -/
theorem answer_incoming {env : Env} {t : Transport} {revs : List ReadEv} {c : Conn} {tz : Tz} {said : List Said} (hc : Carries env t revs c)
    (htz : t.info.timezone = some tz) (h : AnswerLaid env.codec tz t.info.revision t.info.compress said (t.rd ++ received revs))
    (hr : ∀ m ∈ said, Readable env.known m) :
    ∃ (ps : List Packet) (said' : List Said), ps.length = said'.length ∧ ReorderedAnswer said said' ∧
      AnswerLaid env.codec tz t.info.revision t.info.compress said' (t.rd ++ received revs) ∧
      (∀ (i : Nat) m p, said'[i]? = some m → ps[i]? = some p → Means m p) ∧
      c.incoming = ps.map .packet ++ .packet .eof :: [] ∧ ∀ x ∈ ps.map Inc.packet, Middle x := by
  obtain ⟨ps, said', h1, ha, hl, h2, h3⟩ := answer_decodes htz h hr
  obtain ⟨xs, i, rest, g1, g2, g3⟩ := hc.coming
  have := h3 []
  rw [List.append_nil] at this
  obtain ⟨rfl, -, -⟩ := g2.unique this g3 (parsePacket_nil _ _)
  refine ⟨ps, said', h1, ha, hl, h2, ?_, fun x hx => ?_⟩
  · rw [g1, List.map_append, List.map_map]; rfl
  · obtain ⟨p, hp, rfl⟩ := List.mem_map.mp hx
    obtain ⟨k, hk⟩ := List.mem_iff_getElem?.mp hp
    have hk' := (List.getElem?_eq_some_iff.mp hk).1
    exact means_middle (h2 k _ _ (List.getElem?_eq_getElem (by omega)) hk)

theorem reordered_types {said said' : List Said} (h : ReorderedAnswer said said') {i : BlockInfo} {r : Nat} {c' : List Field}
    (hm : .block i r c' ∈ said') : ∃ c, .block i r c ∈ said ∧ c.map (fun f => (f.name, f.type)) = c'.map (fun f => (f.name, f.type)) := by
  obtain ⟨k, hk⟩ := List.mem_iff_getElem?.mp hm
  have hk' := (List.getElem?_eq_some_iff.mp hk).1
  have e := List.getElem?_eq_getElem (l := said) (i := k) (by rw [← h.1]; exact hk')
  have ha := h.2.1 k _ _ e hk
  have hmem := List.mem_of_getElem? e
  generalize said[k]'(by rw [← h.1]; exact hk') = m at ha hmem
  cases m with
  | progress => exact ha.elim
  | profile => exact ha.elim
  | block i' r' c =>
    obtain ⟨rfl, rfl, hl, hc⟩ := ha
    refine ⟨c, hmem, List.ext_getElem (by simp [hl]) fun j h1 h2 => ?_⟩
    rw [List.length_map] at h1 h2
    obtain ⟨g1, g2, -⟩ := hc j _ _ (List.getElem?_eq_getElem h1) (List.getElem?_eq_getElem h2)
    simp only [List.getElem_map, g1, g2]

theorem reordered_block {said said' : List Said} (h : ReorderedAnswer said said') {i : BlockInfo} {r : Nat} {c : List Field}
    (hm : .block i r c ∈ said) : ∃ c', .block i r c' ∈ said' ∧ c'.length = c.length := by
  obtain ⟨k, hk⟩ := List.mem_iff_getElem?.mp hm
  have hk' := (List.getElem?_eq_some_iff.mp hk).1
  have e := List.getElem?_eq_getElem (l := said') (i := k) (by rw [h.1]; exact hk')
  have ha := h.2.1 k _ _ hk e
  have hmem := List.mem_of_getElem? e
  generalize said'[k]'(by rw [h.1]; exact hk') = m at ha hmem
  cases m with
  | progress => exact ha.elim
  | profile => exact ha.elim
  | block i' r' c' =>
    obtain ⟨rfl, rfl, hl, -⟩ := ha
    exact ⟨c', hmem, hl⟩

theorem reordered_split {said said' before' after' : List Said} (h : ReorderedAnswer said said') {i : BlockInfo} {r : Nat} {c' : List Field}
    (hs : said' = before' ++ .block i r c' :: after') : ∃ before c after, said = before ++ .block i r c :: after ∧
      c.map (·.name) = c'.map (·.name) ∧ before.length = before'.length ∧
      ∀ (k : Nat) m m', before[k]? = some m → before'[k]? = some m' → ReorderedSaid m m' := by
  have hl : before'.length < said.length := by rw [← h.1, hs]; simp
  have e := List.getElem?_eq_getElem hl
  have ha := h.2.1 before'.length _ (.block i r c') e (by rw [hs]; simp)
  have hd := List.take_append_drop before'.length said
  rw [List.drop_eq_getElem_cons hl] at hd
  generalize said[before'.length] = m at ha hd
  cases m with
  | progress => exact ha.elim
  | profile => exact ha.elim
  | block i' r' c =>
    obtain ⟨rfl, rfl, h1, hc⟩ := ha
    refine ⟨_, c, _, hd.symm, List.ext_getElem (by simp [h1]) fun j h1 h2 => ?_, by rw [List.length_take]; omega, fun k m m' hm hm' => ?_⟩
    · rw [List.length_map] at h1 h2
      obtain ⟨g1, -, -⟩ := hc j _ _ (List.getElem?_eq_getElem h1) (List.getElem?_eq_getElem h2)
      simp only [List.getElem_map, g1]
    · have hk := (List.getElem?_eq_some_iff.mp hm').1
      rw [List.getElem?_take_of_lt hk] at hm
      exact h.2.1 k m m' hm (by rw [hs, List.getElem?_append_left hk]; exact hm')

theorem reordered_head {said said' before after : List Said} (h : ReorderedAnswer said said') {i : BlockInfo} {r : Nat} {c : List Field}
    (hs : said = before ++ .block i r c :: after) (hq : ∀ m ∈ before, ∀ i r c, m ≠ .block i r c) :
    ∃ before' c' after', said' = before' ++ .block i r c' :: after' ∧ ∀ m ∈ before', ∀ i r c, m ≠ .block i r c := by
  have hl : before.length < said'.length := by rw [h.1, hs]; simp
  have e := List.getElem?_eq_getElem hl
  have ha := h.2.1 before.length (.block i r c) _ (by rw [hs]; simp) e
  have hd := List.take_append_drop before.length said'
  rw [List.drop_eq_getElem_cons hl] at hd
  generalize said'[before.length] = m at ha hd
  cases m with
  | progress => exact ha.elim
  | profile => exact ha.elim
  | block i' r' c' =>
    obtain ⟨rfl, rfl, -, -⟩ := ha
    refine ⟨_, c', _, hd.symm, fun m hm i r d e => ?_⟩
    subst e
    obtain ⟨k, hk⟩ := List.mem_iff_getElem?.mp hm
    have hk' := (List.getElem?_eq_some_iff.mp hk).1
    rw [List.length_take] at hk'
    rw [List.getElem?_take_of_lt (by omega)] at hk
    have e := List.getElem?_eq_getElem (l := before) (i := k) (by omega)
    have ha := h.2.1 k _ _ (by rw [hs, List.getElem?_append_left (by omega)]; exact e) hk
    have hn := hq _ (List.mem_of_getElem? e)
    generalize before[k]'(by omega) = m at ha hn
    cases m with
    | progress => exact ha.elim
    | profile => exact ha.elim
    | block i' r' d => exact hn _ _ _ rfl

theorem alike_rows {said said' : List Said} (h1 : said'.length = said.length)
    (h2 : ∀ (i : Nat) m m', said[i]? = some m → said'[i]? = some m' → ReorderedSaid m m') :
    (said'.flatMap saidRows).length = (said.flatMap saidRows).length := by
  induction said generalizing said' with
  | nil => rw [List.length_eq_zero_iff.mp h1]
  | cons m said ih =>
    cases said' with
    | nil => simp at h1
    | cons m' said' =>
      rw [List.flatMap_cons, List.flatMap_cons, List.length_append, List.length_append,
        ih (by simpa using h1) fun i a b ha hb => h2 (i + 1) a b ha hb]
      congr 1
      have := h2 0 m m' rfl rfl
      cases m <;> cases m' <;> simp only [ReorderedSaid] at this
      · simp [saidRows, this.2.1]
      · rfl
      · rfl

theorem reordered_rows {said said' : List Said} (h : ReorderedAnswer said said') :
    (said'.flatMap saidRows).length = (said.flatMap saidRows).length := alike_rows h.1 h.2.1

theorem filterMap_cells {cols : List Field} {j : Nat} (h : ∀ f ∈ cols, j < f.cells.length) :
    (cols.filterMap fun f => f.cells[j]?).length = cols.length ∧
    ∀ i : Nat, (cols.filterMap fun f => f.cells[j]?)[i]? = cols[i]?.bind fun f => f.cells[j]? := by
  induction cols with
  | nil => exact ⟨rfl, fun i => rfl⟩
  | cons f fs ih =>
    obtain ⟨h1, h2⟩ := ih fun g hg => h g (by simp [hg])
    have e := List.getElem?_eq_getElem (l := f.cells) (i := j) (h f (by simp))
    rw [List.filterMap_cons, e]
    refine ⟨by simp [h1], fun i => ?_⟩
    cases i with
    | zero => simp [e]
    | succ i => simpa using h2 i

/-- Row by row the same cells, but for the order of the entries of maps. -/
theorem alike_cells {said said' : List Said} (h1 : said'.length = said.length)
    (h2 : ∀ (i : Nat) m m', said[i]? = some m → said'[i]? = some m' → ReorderedSaid m m')
    (hw : ∀ m ∈ said, ∀ i r c, m = .block i r c → (c = [] → r = 0) ∧ ∀ f ∈ c, f.cells.length = r) {j : Nat} {row' : List Value}
    (hj : (said'.flatMap saidRows)[j]? = some row') : ∃ row, (said.flatMap saidRows)[j]? = some row ∧ ReorderedCells row row' := by
  induction said generalizing said' j with
  | nil => rw [List.length_eq_zero_iff.mp h1] at hj; cases hj
  | cons m said ih =>
    cases said' with
    | nil => simp at h1
    | cons m' said' =>
      have hm := h2 0 m m' rfl rfl
      have hlen : (saidRows m').length = (saidRows m).length := by
        cases m <;> cases m' <;> simp only [ReorderedSaid] at hm
        · simp [saidRows, hm.2.1]
        · rfl
        · rfl
      rw [List.flatMap_cons] at hj ⊢
      by_cases hlt : j < (saidRows m').length
      · rw [List.getElem?_append_left hlt] at hj
        rw [List.getElem?_append_left (by omega)]
        cases m <;> cases m' <;> simp only [ReorderedSaid] at hm
        · rename_i i r c i' r' c'
          obtain ⟨rfl, rfl, q1, q2⟩ := hm
          obtain ⟨w1, w2⟩ := hw _ List.mem_cons_self _ _ _ rfl
          simp only [saidRows, List.length_map, List.length_range] at hlt
          simp only [saidRows, List.getElem?_map, List.getElem?_range hlt, Option.map_some, Option.some.injEq] at hj ⊢
          subst hj
          refine ⟨_, rfl, ?_⟩
          have c1 := filterMap_cells (cols := c) (j := j) fun f hf => by rw [w2 f hf]; exact hlt
          have c2 := filterMap_cells (cols := c') (j := j) fun f hf => by
            obtain ⟨k, hk⟩ := List.mem_iff_getElem?.mp hf
            have hk' := (List.getElem?_eq_some_iff.mp hk).1
            have e := List.getElem?_eq_getElem (l := c) (i := k) (by omega)
            have := (q2 k _ f e hk).2.2.1
            rw [← this, w2 _ (List.mem_of_getElem? e)]; exact hlt
          refine ⟨by rw [c1.1, c2.1, q1], fun k v w hv hw => ?_⟩
          rw [c1.2 k] at hv
          rw [c2.2 k] at hw
          obtain ⟨f, hf, hv⟩ := Option.bind_eq_some_iff.mp hv
          obtain ⟨f', hf', hw⟩ := Option.bind_eq_some_iff.mp hw
          exact (q2 k f f' hf hf').2.2.2 j v w hv hw
        · cases hj
        · cases hj
      · rw [List.getElem?_append_right (by omega)] at hj ⊢
        rw [← hlen]
        exact ih (by simpa using h1) (fun i a b ha hb => h2 (i + 1) a b ha hb) (fun m hm => hw m (List.mem_cons_of_mem _ hm)) hj

theorem reordered_cells {said said' : List Said} (h : ReorderedAnswer said said')
    (hw : ∀ m ∈ said, ∀ i r c, m = .block i r c → (c = [] → r = 0) ∧ ∀ f ∈ c, f.cells.length = r) {j : Nat} {row' : List Value}
    (hj : (said'.flatMap saidRows)[j]? = some row') : ∃ row, (said.flatMap saidRows)[j]? = some row ∧ ReorderedCells row row' :=
  alike_cells h.1 h.2.1 hw hj

/-- When the first block is a header without rows, leaving the first block out leaves no row out. -/
theorem first_header {said before after : List Said} {ps : List Packet} {i : BlockInfo} {cols : List Field} (hl : ps.length = said.length)
    (hm : ∀ (i : Nat) m p, said[i]? = some m → ps[i]? = some p → Means m p) (hh : said = before ++ .block i 0 cols :: after)
    (hq : ∀ m ∈ before, ∀ i r c, m ≠ .block i r c) :
    answerRows ((blocksOf (ps.map .packet)).drop 1) = answerRows (blocksOf (ps.map .packet)) := by
  subst hh
  induction before generalizing ps with
  | nil =>
    cases ps with
    | nil => simp at hl
    | cons p ps =>
      obtain ⟨cs, rfl, h1, h2, -⟩ := hm 0 _ p rfl rfl
      have e : blocksOf ((Packet.block ⟨i, cs⟩ :: ps).map .packet) = ⟨i, cs⟩ :: blocksOf (ps.map .packet) := rfl
      rw [e, List.drop_one, List.tail_cons, answerRows, answerRows, List.flatMap_cons]
      have : Block.rowCount ⟨i, cs⟩ = .ok 0 := by
        cases cs with
        | nil => rfl
        | cons c cs => exact h2 c (by simp)
      rw [rowsOf, this]
      rfl
  | cons m before ih =>
    cases ps with
    | nil => simp at hl
    | cons p ps =>
      have h0 := hm 0 m p rfl rfl
      have e : blocksOf ((p :: ps).map .packet) = blocksOf (ps.map .packet) := by
        cases m with
        | block i r c => exact absurd rfl (hq _ (by simp) i r c)
        | progress q => rw [Means] at h0; subst h0; rfl
        | profile q => rw [Means] at h0; subst h0; rfl
      rw [e]
      exact ih (fun m hm => hq m (by simp [hm])) (by simpa using hl) fun i m p h1 h2 => hm (i + 1) m p h1 h2

/-- The first block with columns is the first that was said with columns. -/
theorem first_block : ∀ {said : List Said} {ps : List Packet}, ps.length = said.length →
    (∀ (i : Nat) m p, said[i]? = some m → ps[i]? = some p → Means m p) → ∀ {b0 : Block},
    (resultBlocks false (ps.map .packet)).head? = some b0 →
    ∃ before i r cols after, said = before ++ .block i r cols :: after ∧ cols ≠ [] ∧ (∀ m ∈ before, ∀ i r c, m = .block i r c → c = []) ∧
      Means (.block i r cols) (.block b0)
  | [], ps, hl, _, b0, h => by rw [List.length_eq_zero_iff.mp hl] at h; cases h
  | m :: said, [], hl, _, _, _ => by simp at hl
  | m :: said, p :: ps, hl, hm, b0, h => by
    have h0 := hm 0 m p rfl rfl
    have ih := first_block (said := said) (ps := ps) (by simpa using hl) (fun i m p h1 h2 => hm (i + 1) m p h1 h2) (b0 := b0)
    have skip : (∀ i r c, m = .block i r c → c = []) → resultBlocks false ((p :: ps).map .packet) = resultBlocks false (ps.map .packet) →
        ∃ before i r cols after, m :: said = before ++ .block i r cols :: after ∧ cols ≠ [] ∧
          (∀ m ∈ before, ∀ i r c, m = .block i r c → c = []) ∧ Means (.block i r cols) (.block b0) := by
      intro hn e
      rw [e] at h
      obtain ⟨before, i, r, cols, after, h1, h2, h3, h4⟩ := ih h
      refine ⟨m :: before, i, r, cols, after, by rw [h1]; rfl, h2, fun m' hm' => ?_, h4⟩
      rcases List.mem_cons.mp hm' with rfl | hm'
      · exact hn
      · exact h3 m' hm'
    cases m with
    | progress q => rw [Means] at h0; subst h0; exact skip nofun rfl
    | profile q => rw [Means] at h0; subst h0; exact skip nofun rfl
    | block i r cols =>
      have hk := h0
      obtain ⟨cs, rfl, h1, -⟩ := h0
      cases cs with
      | nil => exact skip (fun _ _ _ e => by cases e; exact List.length_eq_zero_iff.mp h1.symm) rfl
      | cons c cs =>
        have e : b0 = ⟨i, c :: cs⟩ := by
          have : (resultBlocks false ((Packet.block ⟨i, c :: cs⟩ :: ps).map .packet)).head? = some ⟨i, c :: cs⟩ := rfl
          rw [this] at h
          exact (Option.some.inj h).symm
        subst e
        exact ⟨[], i, r, cols, said, rfl, by rintro rfl; simp at h1, by simp, hk⟩

theorem write_nonempty {b : Block} {raw : Bytes} (h : b.write = .ok raw) : raw ≠ [] := by
  rw [Block.write] at h
  obtain ⟨n, -, h⟩ := obind_eq_ok h
  obtain ⟨cs, -, h⟩ := obind_eq_ok h
  injection h with h
  subst h
  rw [putBlockInfo, uvarint_one]
  simp

theorem frame_put {z : Codec} {data : Bytes} (hz : z.decompress (z.compress data) data.length = some data) (hl : data.length < 2 ^ 32)
    (hf : 9 + (z.compress data).length < 2 ^ 32) : FrameLaid z data (putFrame z data) := by
  have e : [0x82] ++ putLE 4 (9 + (z.compress data).length) ++ putLE 4 data.length ++ z.compress data =
      frameHeader (9 + (z.compress data).length) data.length ++ z.compress data := rfl
  refine ⟨putLE 8 (z.hash (frameHeader (9 + (z.compress data).length) data.length ++ z.compress data)).1.toNat,
    putLE 8 (z.hash (frameHeader (9 + (z.compress data).length) data.length ++ z.compress data)).2.toNat, putLE 4 (9 + (z.compress data).length), putLE 4 data.length, z.compress data, by rw [e]; rfl, ?_, ?_, ?_, ?_, hz⟩
  · rw [e]; exact word_put (by rw [pow256]; exact UInt64.toNat_lt _)
  · rw [e]; exact word_put (by rw [pow256]; exact UInt64.toNat_lt _)
  · rw [show 1 + 4 + 4 + (z.compress data).length = 9 + (z.compress data).length by omega]
    exact word_put hf
  · exact word_put hl

end CH
