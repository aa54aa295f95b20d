import Verif.Spec.Transport
import Verif.Lemmas.Parser

/-! Lemmas about the transport, for C40–C44. -/

namespace CH
open CH.Spec

theorem received_append (a b : List ReadEv) : received (a ++ b) = received a ++ received b := by
  simp [received]

@[simp] theorem received_nil : received [] = [] := rfl

theorem received_ready (b : Bytes) (r : List ReadEv) : received (.ready b :: r) = b ++ received r := by
  simp [received]

/-- What `read_to_end` does: it consumes a part of the script and appends the bytes delivered. -/
theorem readToEnd_spec {start : Nat} {evs evs' : List ReadEv} {rd rd' : Bytes} {f : Fill} (hs : start ≤ rd.length)
    (h : readToEnd start evs rd = (f, rd', evs')) :
    ∃ used, evs = used ++ evs' ∧ rd' = rd ++ received used ∧
      (∀ n, f = .ready n → n = rd'.length - start) ∧
      (f = .pending → .pending ∈ evs → ∃ u, evs = u ++ .pending :: evs') := by
  fun_induction readToEnd start evs rd with
  | case1 rd =>
    simp only [Prod.mk.injEq] at h
    obtain ⟨rfl, rfl, rfl⟩ := h
    exact ⟨[], by simp⟩
  | case2 evs rd =>
    simp only [Prod.mk.injEq] at h
    obtain ⟨rfl, rfl, rfl⟩ := h
    exact ⟨[.pending], by simp [received], by simp [received], by simp, fun _ _ => ⟨[], rfl⟩⟩
  | case3 evs rd =>
    simp only [Prod.mk.injEq] at h
    obtain ⟨rfl, rfl, rfl⟩ := h
    exact ⟨[.fail], by simp [received], by simp [received], by simp, by simp⟩
  | case4 evs rd =>
    simp only [Prod.mk.injEq] at h
    obtain ⟨rfl, rfl, rfl⟩ := h
    exact ⟨[.ready []], by simp [received], by simp [received], by simp, by simp⟩
  | case5 b evs rd hb ih =>
    obtain ⟨used, h1, h2, h3, h4⟩ := ih (by simp only [List.length_append]; omega) h
    refine ⟨.ready b :: used, by simp [h1], by simp [h2, received_ready], h3, fun hf hm => ?_⟩
    obtain ⟨u, hu⟩ := h4 hf (by simpa using hm)
    exact ⟨.ready b :: u, by simp [hu]⟩

/-- `read_to_end` only comes to an end of the stream without having met "not ready". -/
theorem readToEnd_noPending {start n : Nat} {evs evs' used : List ReadEv} {rd rd' : Bytes}
    (h : readToEnd start evs rd = (.ready n, rd', evs')) (hu : evs = used ++ evs') : ReadEv.pending ∉ used := by
  fun_induction readToEnd start evs rd generalizing used with
  | case1 => simp at h
  | case2 => simp at h
  | case3 => simp at h
  | case4 evs rd =>
    simp only [Prod.mk.injEq] at h
    obtain ⟨_, _, rfl⟩ := h
    have : used = [.ready []] := List.append_cancel_right (hu.symm.trans (List.singleton_append (l := evs)).symm)
    subst this; simp
  | case5 b evs rd hb ih =>
    cases used with
    | nil => simp
    | cons u used =>
      simp only [List.cons_append, List.cons.injEq] at hu
      have := ih h hu.2
      simp [← hu.1, this]

/-- What filling the buffer does. -/
theorem fillLoop_spec {evs evs' : List ReadEv} {rd rd' : Bytes} {f : FillEnd} (h : fillLoop evs rd = (f, rd', evs')) :
    ∃ used, evs = used ++ evs' ∧ rd' = rd ++ received used ∧ (f = .waiting → .pending ∈ evs → ∃ u, evs = u ++ .pending :: evs') := by
  fun_induction fillLoop evs rd with
  | case1 evs rd rd1 evs1 hr =>
    simp only [Prod.mk.injEq] at h
    obtain ⟨rfl, rfl, rfl⟩ := h
    obtain ⟨used, h1, h2, _, _⟩ := readToEnd_spec (Nat.le_refl _) hr
    exact ⟨used, h1, h2, by simp⟩
  | case2 evs rd n rd1 evs1 hr ih =>
    obtain ⟨used, h1, h2, _, _⟩ := readToEnd_spec (Nat.le_refl _) hr
    obtain ⟨used', h3, h4, h5⟩ := ih h
    refine ⟨used ++ used', by rw [h1, h3, List.append_assoc], by rw [h4, h2, received_append, List.append_assoc], fun hf hm => ?_⟩
    rw [h1] at hm
    have : ReadEv.pending ∈ evs1 := by
      rcases List.mem_append.mp hm with hu | hu
      · exact False.elim (readToEnd_noPending hr h1 hu)
      · exact hu
    obtain ⟨u, hu⟩ := h5 hf this
    exact ⟨used ++ u, by rw [h1, hu, List.append_assoc]⟩
  | case3 evs rd rd1 evs1 hr =>
    simp only [Prod.mk.injEq] at h
    obtain ⟨rfl, rfl, rfl⟩ := h
    obtain ⟨used, h1, h2, _, _⟩ := readToEnd_spec (Nat.le_refl _) hr
    exact ⟨used, h1, h2, by simp⟩
  | case4 evs rd rd1 evs1 hr =>
    simp only [Prod.mk.injEq] at h
    obtain ⟨rfl, rfl, rfl⟩ := h
    obtain ⟨used, h1, h2, _, h4⟩ := readToEnd_spec (Nat.le_refl _) hr
    exact ⟨used, h1, h2, fun _ hm => h4 rfl hm⟩

theorem learn_knows (i : TransportInfo) (p : Packet) : Knows i p (i.learn p) := by
  cases p
  case hello s => exact .hello
  all_goals exact .other (by simp)

theorem knows_unique {i j k : TransportInfo} {p : Packet} (h1 : Knows i p j) (h2 : Knows i p k) : j = k := by
  cases h1 with
  | hello => cases h2 with
    | hello => rfl
    | other h => exact absurd rfl (h _)
  | other h => cases h2 with
    | hello => exact absurd rfl (h _)
    | other _ => rfl

theorem Spec.Decodes.extend {env : Env} {i j : TransportInfo} {bs r : Bytes} {xs : List (Packet ⊕ Err)}
    (h : Decodes env i bs xs j r) (ext : Bytes) : Decodes env i (bs ++ ext) xs j (r ++ ext) := by
  induction h with
  | done => exact .done
  | packet h hk _ ih => exact .packet ((parsePacket_mono _ _).ok h ext) hk ih
  | error h _ ih => exact .error ((parsePacket_mono _ _).err h ext) ih

theorem Spec.Decodes.append {env : Env} {i j k : TransportInfo} {bs r r' ext : Bytes} {xs ys : List (Packet ⊕ Err)}
    (h1 : Decodes env i bs xs j r) (h2 : Decodes env j (r ++ ext) ys k r') : Decodes env i (bs ++ ext) (xs ++ ys) k r' := by
  induction h1 with
  | done => exact h2
  | packet h hk _ ih => exact .packet ((parsePacket_mono _ _).ok h ext) hk (ih h2)
  | error h _ ih => exact .error ((parsePacket_mono _ _).err h ext) (ih h2)

/-- Decoding is deterministic: two decodings that cannot go on are the same. -/
theorem Spec.Decodes.unique {env : Env} {i j k : TransportInfo} {bs r r' : Bytes} {xs ys : List (Packet ⊕ Err)}
    (h1 : Decodes env i bs xs j r) (h2 : Decodes env i bs ys k r') (m1 : parsePacket env j r = .more)
    (m2 : parsePacket env k r' = .more) : xs = ys ∧ j = k ∧ r = r' := by
  induction h1 generalizing ys with
  | done =>
    cases h2 with
    | done => exact ⟨rfl, rfl, rfl⟩
    | packet h _ _ => rw [m1] at h; simp at h
    | error h _ => rw [m1] at h; simp at h
  | packet h hk _ ih =>
    cases h2 with
    | done => rw [m2] at h; simp at h
    | packet h' hk' t' =>
      rw [h] at h'
      simp only [Res.ok.injEq] at h'
      obtain ⟨rfl, rfl⟩ := h'
      obtain rfl := knows_unique hk hk'
      obtain ⟨rfl, rfl, rfl⟩ := ih t' m1
      exact ⟨rfl, rfl, rfl⟩
    | error h' _ => rw [h] at h'; simp at h'
  | error h _ ih =>
    cases h2 with
    | done => rw [m2] at h; simp at h
    | packet h' _ _ => rw [h] at h'; simp at h'
    | error h' t' =>
      rw [h] at h'
      simp only [Res.err.injEq] at h'
      obtain ⟨rfl, rfl⟩ := h'
      obtain ⟨rfl, rfl, rfl⟩ := ih t' m1
      exact ⟨rfl, rfl, rfl⟩

theorem parsePacket_nil (env : Env) (info : TransportInfo) : parsePacket env info [] = .more := rfl

/-- One attempt at parsing. -/
theorem tryParse_spec {env : Env} {t t' : Transport} {r : TPoll} (h : t.tryParse env = (r, t')) :
    Decodes env t.info t.rd (given r) t'.info t'.rd ∧ t'.wr = t.wr ∧ t'.cmds = t.cmds ∧ t'.bufIsIncomplete = t.bufIsIncomplete ∧
      t'.done = t.done ∧ (r = .pending → t' = t ∧ parsePacket env t.info t.rd = .more) ∧ r ≠ .closed := by
  rw [Transport.tryParse] at h
  split at h
  all_goals
    simp only [Prod.mk.injEq] at h
    obtain ⟨rfl, rfl⟩ := h
  · next p rest hp => exact ⟨.packet hp (learn_knows _ _) .done, rfl, rfl, rfl, rfl, by simp, by simp⟩
  · next hp => exact ⟨.done, rfl, rfl, rfl, rfl, fun _ => ⟨rfl, hp⟩, by simp⟩
  · next e rest hp => exact ⟨.error hp .done, rfl, rfl, rfl, rfl, by simp, by simp⟩
  · next hp => exact ⟨.done, rfl, rfl, rfl, rfl, by simp, by simp⟩

/-- What filling the buffer and parsing does. -/
theorem fillAndParse_spec {env : Env} {t t' : Transport} {r : TPoll} {evs left : List ReadEv}
    (h : t.fillAndParse env evs = (r, t', left)) :
    ∃ used, evs = used ++ left ∧ Decodes env t.info (t.rd ++ received used) (given r) t'.info t'.rd ∧
      t'.wr = t.wr ∧ t'.cmds = t.cmds ∧
      (r = .pending → parsePacket env t'.info t'.rd = .more ∧ (.pending ∈ evs → NotReady evs left)) ∧
      (r = .closed → t'.info = t.info ∧ t'.rd = t.rd ++ received used) := by
  rw [Transport.fillAndParse] at h
  split at h
  · simp only [Prod.mk.injEq] at h
    obtain ⟨rfl, rfl, rfl⟩ := h
    exact ⟨[], by simp, by simpa [given] using .done, rfl, rfl, by simp, by simp⟩
  · split at h
    · next rd evs' hf =>
      simp only [Prod.mk.injEq] at h
      obtain ⟨rfl, rfl, rfl⟩ := h
      obtain ⟨used, h1, h2, _⟩ := fillLoop_spec hf
      exact ⟨used, h1, by rw [← h2]; exact .done, rfl, rfl, by simp, by simp⟩
    · next rd evs' hf =>
      simp only [Prod.mk.injEq] at h
      obtain ⟨rfl, rfl, rfl⟩ := h
      obtain ⟨used, h1, h2, _⟩ := fillLoop_spec hf
      exact ⟨used, h1, by rw [← h2]; exact .done, rfl, rfl, by simp, fun _ => ⟨rfl, h2⟩⟩
    · next rd evs' hf =>
      obtain ⟨used, h1, h2, h3⟩ := fillLoop_spec hf
      split at h
      · next t1 ht =>
        simp only [Prod.mk.injEq] at h
        obtain ⟨rfl, rfl, rfl⟩ := h
        obtain ⟨hd, hw, hc, _, _, hp, _⟩ := tryParse_spec ht
        have hq := hp rfl
        have he := hq.1
        have hm := hq.2
        subst he
        exact ⟨used, h1, by rw [← h2]; exact hd, hw, hc, fun _ => ⟨hm, fun hm => h3 rfl hm⟩, by simp⟩
      · next r1 t1 hne ht =>
        simp only [Prod.mk.injEq] at h
        obtain ⟨rfl, rfl, rfl⟩ := h
        obtain ⟨hd, hw, hc, _, _, hp, hcl⟩ := tryParse_spec ht
        exact ⟨used, h1, by rw [← h2]; exact hd, hw, hc, fun e => False.elim (hne e), fun e => absurd e hcl⟩

/-- What a poll does. -/
theorem pollNext_spec {env : Env} {t t' : Transport} {r : TPoll} {evs left : List ReadEv}
    (h : t.pollNext env evs = (r, t', left)) :
    ∃ used, evs = used ++ left ∧ Decodes env t.info (t.rd ++ received used) (given r) t'.info t'.rd ∧
      t'.wr = t.wr ∧ t'.cmds = t.cmds ∧
      (r = .pending → parsePacket env t'.info t'.rd = .more ∧ (.pending ∈ evs → NotReady evs left)) ∧
      (r = .closed → t'.info = t.info ∧ t'.rd = t.rd ++ received used ∧
        (t.bufIsIncomplete = false → parsePacket env t.info t.rd = .more)) := by
  rw [Transport.pollNext] at h
  split at h
  · next hb =>
    simp only [Bool.and_eq_true, Bool.not_eq_eq_eq_not, Bool.not_true] at hb
    split at h
    · next t1 ht =>
      obtain ⟨_, _, _, _, _, hp, _⟩ := tryParse_spec ht
      have hq := hp rfl
      have he := hq.1
      subst he
      obtain ⟨used, h1, h2, h3, h4, h5, h6⟩ := fillAndParse_spec h
      exact ⟨used, h1, h2, h3, h4, h5, fun e => ⟨(h6 e).1, (h6 e).2, fun _ => hq.2⟩⟩
    · next r1 t1 hne ht =>
      simp only [Prod.mk.injEq] at h
      obtain ⟨rfl, rfl, rfl⟩ := h
      obtain ⟨hd, hw, hc, _, _, _, hcl⟩ := tryParse_spec ht
      exact ⟨[], rfl, by rw [received_nil, List.append_nil]; exact hd, hw, hc, fun e => False.elim (hne e), fun e => absurd e hcl⟩
  · next hb =>
    obtain ⟨used, h1, h2, h3, h4, h5, h6⟩ := fillAndParse_spec h
    refine ⟨used, h1, h2, h3, h4, h5, fun e => ⟨(h6 e).1, (h6 e).2, fun hi => ?_⟩⟩
    rw [hi] at hb
    have : t.rd = [] := by simpa using hb
    rw [this]
    exact parsePacket_nil _ _

/-- After a poll that gave something or said "wait", the flag "the buffer is known to be incomplete" tells the truth. -/
theorem pollNext_settled {env : Env} {t t' : Transport} {r : TPoll} {evs left : List ReadEv}
    (h : t.pollNext env evs = (r, t', left)) (h1 : r ≠ .broken) (h2 : r ≠ .closed) :
    t'.bufIsIncomplete = true → parsePacket env t'.info t'.rd = .more := by
  have hf : ∀ t : Transport, t.fillAndParse env evs = (r, t', left) →
      t'.bufIsIncomplete = true → parsePacket env t'.info t'.rd = .more := by
    intro t h
    cases hr : r with
    | pending =>
      obtain ⟨_, _, _, _, _, h5, _⟩ := fillAndParse_spec h
      exact fun _ => (h5 hr).1
    | broken => exact absurd hr h1
    | closed => exact absurd hr h2
    | _ =>
      subst hr
      rw [Transport.fillAndParse] at h
      split at h
      · simp at h
      · split at h
        · simp at h
        · simp at h
        · split at h
          · simp at h
          · simp only [Prod.mk.injEq] at h
            obtain ⟨_, rfl, _⟩ := h
            simp
  rw [Transport.pollNext] at h
  split at h
  · next hb =>
    simp only [Bool.and_eq_true, Bool.not_eq_eq_eq_not, Bool.not_true] at hb
    split at h
    · exact hf _ h
    · next r1 t1 hne ht =>
      simp only [Prod.mk.injEq] at h
      obtain ⟨rfl, rfl, rfl⟩ := h
      obtain ⟨_, _, _, hi, _⟩ := tryParse_spec ht
      rw [hi, hb.1]
      simp
  · exact hf _ h

/-! ### Sending -/

theorem cmdBytes_cons (z : Codec) (c : Cmd) (cs : List Cmd) :
    cmdBytes z (c :: cs) = (match c.encode z with | .ok b => b | _ => []) ++ cmdBytes z cs := rfl

theorem cmdBytes_append (z : Codec) (a b : List Cmd) : cmdBytes z (a ++ b) = cmdBytes z a ++ cmdBytes z b := by
  simp [cmdBytes]

/-- What `flush` and the rounds behind it do. -/
theorem flush_spec {z : Codec} {t t' : Transport} {r : SPoll} {out : Bytes} {evs left : List WriteEv}
    (h : Transport.send.flush z t evs = (r, out, t', left)) :
    out ++ t'.wr ++ cmdBytes z t'.cmds = t.wr ++ cmdBytes z t.cmds ∧ (r = .sent → t'.wr = [] ∧ t'.cmds = []) ∧
      (r = .pending → .pending ∈ evs → NotReadyW evs left) ∧ t'.rd = t.rd ∧ t'.info = t.info ∧
      t'.bufIsIncomplete = t.bufIsIncomplete ∧ t'.done = t.done ∧ t'.inconsistent = t.inconsistent := by
  induction evs generalizing t out with
  | nil =>
    simp only [Transport.send.flush, Prod.mk.injEq] at h
    obtain ⟨rfl, rfl, rfl, rfl⟩ := h
    simp
  | cons e evs ih =>
    cases e with
    | pending =>
      simp only [Transport.send.flush, Prod.mk.injEq] at h
      obtain ⟨rfl, rfl, rfl, rfl⟩ := h
      exact ⟨by simp, by simp, fun _ _ => ⟨[], rfl⟩, by simp⟩
    | fail =>
      simp only [Transport.send.flush, Prod.mk.injEq] at h
      obtain ⟨rfl, rfl, rfl, rfl⟩ := h
      simp
    | wrote n =>
      have grow : ∀ {left : List WriteEv}, (WriteEv.pending ∈ WriteEv.wrote n :: evs) → (.pending ∈ evs → NotReadyW evs left) →
          NotReadyW (.wrote n :: evs) left := by
        intro left hm hk
        obtain ⟨u, hu⟩ := hk (by simpa using hm)
        exact ⟨.wrote n :: u, by rw [hu]; rfl⟩
      have hsplit : t.wr.take n ++ t.wr.drop n = t.wr := List.take_append_drop n t.wr
      simp only [Transport.send.flush] at h
      split at h
      · next hw =>
        split at h
        · next hc =>
          simp only [Prod.mk.injEq] at h
          obtain ⟨rfl, rfl, rfl, rfl⟩ := h
          refine ⟨?_, fun _ => ⟨hw, hc⟩, by simp, rfl, rfl, rfl, rfl, rfl⟩
          rw [hsplit]
        · next c cs hc =>
          split at h
          · next b hb =>
            simp only [Prod.mk.injEq] at h
            obtain ⟨hr, ho, ht⟩ := h
            rcases hfl : Transport.send.flush z { t with wr := b, cmds := cs } evs with ⟨r1, o1, t1, l1⟩
            rw [hfl] at hr ho ht
            simp only [Prod.mk.injEq] at ht
            obtain ⟨rfl, rfl⟩ := ht
            simp only at hr ho
            subst hr ho
            obtain ⟨i1, i2, i3, i4⟩ := ih hfl
            refine ⟨?_, i2, fun hp hm => grow hm (i3 hp), i4⟩
            rw [hc, cmdBytes_cons, hb]
            simp only [List.append_assoc] at i1 ⊢
            rw [i1]
            simp only [hw, List.append_nil] at hsplit
            rw [hsplit]
          · next e he =>
            simp only [Prod.mk.injEq] at h
            obtain ⟨rfl, rfl, rfl, rfl⟩ := h
            refine ⟨?_, by simp, by simp, rfl, rfl, rfl, rfl, rfl⟩
            simp only [hc, cmdBytes_cons, he, List.nil_append, hsplit]
          · next he =>
            simp only [Prod.mk.injEq] at h
            obtain ⟨rfl, rfl, rfl, rfl⟩ := h
            refine ⟨?_, by simp, by simp, rfl, rfl, rfl, rfl, rfl⟩
            simp only [hc, cmdBytes_cons, he, List.nil_append, hsplit]
      · next hw =>
        simp only [Prod.mk.injEq] at h
        obtain ⟨hr, ho, ht⟩ := h
        rcases hfl : Transport.send.flush z { t with wr := t.wr.drop n } evs with ⟨r1, o1, t1, l1⟩
        rw [hfl] at hr ho ht
        simp only [Prod.mk.injEq] at ht
        obtain ⟨rfl, rfl⟩ := ht
        simp only at hr ho
        subst hr ho
        obtain ⟨i1, i2, i3, i4⟩ := ih hfl
        refine ⟨?_, i2, fun hp hm => grow hm (i3 hp), i4⟩
        simp only [List.append_assoc] at i1 ⊢
        rw [i1, ← List.append_assoc, hsplit]

/-- What `send` does. -/
theorem send_spec {z : Codec} {t t' : Transport} {r : SPoll} {out : Bytes} {evs left : List WriteEv}
    (h : t.send z evs = (r, out, t', left)) :
    out ++ t'.wr ++ cmdBytes z t'.cmds = t.wr ++ cmdBytes z t.cmds ∧ (r = .sent → t'.wr = [] ∧ t'.cmds = []) ∧
      (r = .pending → .pending ∈ evs → NotReadyW evs left) ∧ t'.rd = t.rd ∧ t'.info = t.info ∧
      t'.bufIsIncomplete = t.bufIsIncomplete ∧ t'.done = t.done ∧ t'.inconsistent = t.inconsistent := by
  rw [Transport.send] at h
  split at h
  · next hw =>
    split at h
    · next hc =>
      simp only [Prod.mk.injEq] at h
      obtain ⟨rfl, rfl, rfl, rfl⟩ := h
      exact ⟨by simp, fun _ => ⟨hw, hc⟩, by simp, rfl, rfl, rfl, rfl, rfl⟩
    · next c cs hc =>
      split at h
      · next b hb =>
        obtain ⟨i1, i2, i3, i4⟩ := flush_spec h
        refine ⟨?_, i2, i3, i4⟩
        rw [i1, hc, cmdBytes_cons, hb, hw]
        rfl
      · next e he =>
        simp only [Prod.mk.injEq] at h
        obtain ⟨rfl, rfl, rfl, rfl⟩ := h
        exact ⟨by simp only [hc, cmdBytes_cons, he, List.nil_append], by simp, by simp, rfl, rfl, rfl, rfl, rfl⟩
      · next he =>
        simp only [Prod.mk.injEq] at h
        obtain ⟨rfl, rfl, rfl, rfl⟩ := h
        exact ⟨by simp only [hc, cmdBytes_cons, he, List.nil_append], by simp, by simp, rfl, rfl, rfl, rfl, rfl⟩
  · exact flush_spec h

/-! ### Packet streams -/

theorem takesConn_iff (p : Packet) : p.takesConn = true ↔ EndsExchange p := by
  constructor
  · intro h
    cases p <;> simp [Packet.takesConn] at h
    · exact .hello
    · exact .pong
    · exact .eof
  · intro h
    cases h <;> rfl

/-- What receiving does while the stream has the connection. -/
theorem receive_spec {env : Env} {s s' : PStream} {t : Transport} {r : PPoll} {revs left : List ReadEv}
    (hi : s.inner = some t) (h : s.receive env revs = (r, s', left)) :
    ∃ used t', revs = used ++ left ∧ Decodes env t.info (t.rd ++ received used) (packets r) t'.info t'.rd ∧
      t'.wr = t.wr ∧ t'.cmds = t.cmds ∧ s'.readBlock = s.readBlock ∧
      (r = .pending → (.pending ∈ revs → NotReady revs left) ∧ parsePacket env t'.info t'.rd = .more) ∧
      ((s'.inner = some t' ∧ handedBack r = none ∧ s'.state ≠ .ask ∧ (∀ p c, r = .item p c → ¬ EndsExchange p) ∧
        (s'.state = .done ↔ s.readBlock = true ∧ ∃ b c, r = .item (.block b) c)) ∨
       (s'.inner = none ∧ s'.state = .yield ∧ ∃ p, r = .item p (some t') ∧ EndsExchange p)) := by
  rw [PStream.receive, hi] at h
  simp only at h
  split at h
  · next p t1 evs hp =>
    obtain ⟨used, h1, h2, h3, h4, h5, h6⟩ := pollNext_spec hp
    split at h
    · next hc =>
      simp only [Prod.mk.injEq] at h
      obtain ⟨rfl, rfl, rfl⟩ := h
      exact ⟨used, t1, h1, h2, h3, h4, rfl, by simp, .inr ⟨rfl, rfl, p, rfl, (takesConn_iff p).mp hc⟩⟩
    · next hc =>
      have hc' : ¬ EndsExchange p := fun e => hc ((takesConn_iff p).mpr e)
      split at h
      · next hb =>
        simp only [Prod.mk.injEq] at h
        obtain ⟨rfl, rfl, rfl⟩ := h
        simp only [Bool.and_eq_true] at hb
        refine ⟨used, t1, h1, h2, h3, h4, rfl, by simp, .inl ⟨rfl, rfl, by simp, ?_, ?_⟩⟩
        · intro q c e; simp only [PPoll.item.injEq] at e; rw [← e.1]; exact hc'
        · refine ⟨fun _ => ⟨hb.1, ?_⟩, fun _ => rfl⟩
          cases p <;> simp [Packet.isBlock] at hb
          exact ⟨_, _, rfl⟩
      · next hb =>
        simp only [Prod.mk.injEq] at h
        obtain ⟨rfl, rfl, rfl⟩ := h
        refine ⟨used, t1, h1, h2, h3, h4, rfl, by simp, .inl ⟨rfl, rfl, by simp, ?_, ?_⟩⟩
        · intro q c e; simp only [PPoll.item.injEq] at e; rw [← e.1]; exact hc'
        · refine ⟨by simp, fun hx => ?_⟩
          obtain ⟨hx, b, c, e⟩ := hx
          simp only [PPoll.item.injEq] at e
          rw [hx, e.1] at hb
          exact absurd rfl hb
  all_goals
    rename_i t1 evs hp
    obtain ⟨used, h1, h2, h3, h4, h5, h6⟩ := pollNext_spec hp
    simp only [Prod.mk.injEq] at h
    obtain ⟨rfl, rfl, rfl⟩ := h
    refine ⟨used, t1, h1, h2, h3, h4, rfl, ?_, .inl ⟨rfl, rfl, by simp, by simp, by simp⟩⟩
    first
    | exact fun e => ⟨(h5 rfl).2, (h5 rfl).1⟩
    | simp

/-- What a poll does while the stream has the connection and has not finished. -/
theorem pstream_poll_spec {env : Env} {s s' : PStream} {t : Transport} {r : PPoll} {out : Bytes} {revs left : List ReadEv}
    {wevs wleft : List WriteEv} (hi : s.inner = some t) (hd : s.state ≠ .done)
    (h : s.pollNext env revs wevs = (r, out, s', left, wleft)) :
    ∃ used t', revs = used ++ left ∧ Decodes env t.info (t.rd ++ received used) (packets r) t'.info t'.rd ∧
      s'.readBlock = s.readBlock ∧
      out ++ t'.wr ++ cmdBytes env.codec t'.cmds = t.wr ++ cmdBytes env.codec t.cmds ∧
      (s.state ≠ .ask → out = []) ∧
      (s.state = .ask → s'.state ≠ .ask → t'.wr = [] ∧ t'.cmds = []) ∧
      (s.state ≠ .ask → s'.state ≠ .ask) ∧
      (s'.state = .ask → packets r = [] ∧ handedBack r = none) ∧
      (r = .pending → (s'.state = .ask ∧ (.pending ∈ wevs → NotReadyW wevs wleft)) ∨
        ((.pending ∈ revs → NotReady revs left) ∧ parsePacket env t'.info t'.rd = .more)) ∧
      ((s'.inner = some t' ∧ handedBack r = none ∧ (∀ p c, r = .item p c → ¬ EndsExchange p) ∧
        (s'.state = .done ↔ s.readBlock = true ∧ ∃ b c, r = .item (.block b) c)) ∨
       (s'.inner = none ∧ s'.state = .yield ∧ ∃ p, r = .item p (some t') ∧ EndsExchange p)) := by
  have recv : ∀ s : PStream, s.inner = some t → s.state = .receive ∨ s.state = .yield →
      s.pollNext env revs wevs = (r, out, s', left, wleft) →
      s.receive env revs = (r, s', left) ∧ out = [] := by
    intro s _ hs h
    rw [PStream.pollNext] at h
    rcases hs with hs | hs
    all_goals
      rw [hs] at h
      simp only [Prod.mk.injEq] at h
      obtain ⟨e1, e2, e3, e4, e5⟩ := h
      exact ⟨by rw [← e1, ← e3, ← e4], e2.symm⟩
  cases hs : s.state with
  | done => exact absurd hs hd
  | receive =>
    obtain ⟨hr, rfl⟩ := recv s hi (.inl hs) h
    obtain ⟨used, t', h1, h2, h3, h4, h5, h6, h7⟩ := receive_spec hi hr
    refine ⟨used, t', h1, h2, h5, by rw [h3, h4]; rfl, fun _ => rfl, by simp, ?_, ?_, fun e => .inr (h6 e), ?_⟩
    · intro _; rcases h7 with h7 | h7
      · exact h7.2.2.1
      · rw [h7.2.1]; simp
    · intro e; rcases h7 with h7 | h7
      · exact absurd e h7.2.2.1
      · rw [h7.2.1] at e; simp at e
    · rcases h7 with h7 | h7
      · exact .inl ⟨h7.1, h7.2.1, h7.2.2.2⟩
      · exact .inr h7
  | yield =>
    obtain ⟨hr, rfl⟩ := recv s hi (.inr hs) h
    obtain ⟨used, t', h1, h2, h3, h4, h5, h6, h7⟩ := receive_spec hi hr
    refine ⟨used, t', h1, h2, h5, by rw [h3, h4]; rfl, fun _ => rfl, by simp, ?_, ?_, fun e => .inr (h6 e), ?_⟩
    · intro _; rcases h7 with h7 | h7
      · exact h7.2.2.1
      · rw [h7.2.1]; simp
    · intro e; rcases h7 with h7 | h7
      · exact absurd e h7.2.2.1
      · rw [h7.2.1] at e; simp at e
    · rcases h7 with h7 | h7
      · exact .inl ⟨h7.1, h7.2.1, h7.2.2.2⟩
      · exact .inr h7
  | ask =>
    rw [PStream.pollNext, hs, hi] at h
    simp only at h
    split at h
    · next o1 t1 w1 hsend =>
      obtain ⟨g1, g2, g3, g4, g5, _⟩ := send_spec hsend
      simp only [Prod.mk.injEq] at h
      obtain ⟨e1, rfl, e3, e4, rfl⟩ := h
      have hr : PStream.receive env { s with inner := some t1, state := .receive } revs = (r, s', left) := by
        rw [← e1, ← e3, ← e4]
      obtain ⟨used, t', h1, h2, h3, h4, h5, h6, h7⟩ := receive_spec rfl hr
      rw [g4, g5] at h2
      have hne : s'.state ≠ .ask := by
        rcases h7 with h7 | h7
        · exact h7.2.2.1
        · rw [h7.2.1]; simp
      refine ⟨used, t', h1, h2, h5, by rw [h3, h4]; exact g1, by simp, fun _ _ => by rw [h3, h4]; exact g2 rfl, by simp,
        fun e => absurd e hne, fun e => .inr (h6 e), ?_⟩
      rcases h7 with h7 | h7
      · exact .inl ⟨h7.1, h7.2.1, h7.2.2.2⟩
      · exact .inr h7
    all_goals
      rename_i o1 t1 w1 hsend
      obtain ⟨g1, g2, g3, g4, g5, _⟩ := send_spec hsend
      simp only [Prod.mk.injEq] at h
      obtain ⟨rfl, rfl, rfl, rfl, rfl⟩ := h
      refine ⟨[], t1, rfl, by rw [g4, g5, received_nil, List.append_nil]; exact .done, rfl, g1, by simp,
        fun _ e => absurd rfl e, by simp, fun _ => ⟨rfl, rfl⟩, ?_, .inl ⟨rfl, rfl, by simp, by simp⟩⟩
      first
      | exact fun _ => .inl ⟨rfl, g3 rfl⟩
      | simp

/-- A stream without its connection only says "ended", reads nothing and writes nothing. -/
theorem pstream_poll_none {env : Env} {s : PStream} (hi : s.inner = none) (revs : List ReadEv) (wevs : List WriteEv) :
    ∃ s', s.pollNext env revs wevs = (.ended, [], s', revs, wevs) ∧ s'.inner = none := by
  refine ⟨{ s with state := .done }, ?_, hi⟩
  rw [PStream.pollNext]
  cases hs : s.state <;> simp [PStream.receive, PStream.finish, hi]

end CH
