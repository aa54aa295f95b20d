import Verif.Lemmas.Transport
import Verif.Props.Protocol

/-! Properties C40–C44: the connection's line transport, for every socket behaviour and every schedule. -/

namespace CH.Props
open CH CH.Spec

/-- The pong packet of a server, for the examples. -/
theorem pong_parse (env : Env) (i : TransportInfo) (rest : Bytes) : parsePacket env i (4 :: rest) = .ok .pong rest := by
  simp [parsePacket, parseBody, bind_run, readUvarint, readUvarintLoop, Reader.pure]

/-- A ping sent, and answered in the middle of a poll, then a poll that finds nothing (for the examples). -/
theorem exHistory : ∃ t t', History sampleEnv false t [4] [.inl .pong] [.ping] [4] ∧
    t.pollNext sampleEnv ([.pending] ++ []) = (.pending, t', []) := by
  have h1 := History.call (cmd := .ping) (History.start (env := sampleEnv) (c := false)) rfl
  have h2 : History sampleEnv false _ _ _ _ _ := History.send (evs := [.wrote 1]) (r := .sent) (out := [4])
    (t' := Transport.new false) (left := []) h1 (by
      simp [Transport.new, Transport.send, Transport.send.flush, Cmd.encode, encodePing, putUvarint])
  have h3 := History.poll (used := [.ready [4], .pending]) (left := []) (r := .item .pong) (t' := Transport.new false) h2 (by
      simp [Transport.pollNext, Transport.new, Transport.fillAndParse, fillLoop, readToEnd, Transport.tryParse, pong_parse]
      rfl)
  exact ⟨_, _, h3, by
      simp [Transport.pollNext, Transport.new, Transport.fillAndParse, fillLoop, readToEnd, Transport.tryParse, parsePacket,
        bind_run, readUvarint, readUvarintLoop]
      rfl⟩

/-- C40. At every point of every history the bytes written, those still buffered and those of the waiting commands are together
exactly the bytes of the commands issued, in order. -/
theorem C40_sent_in_order (env : Env) (c : Bool) (t : Transport) (recv sent : Bytes) (got : List (Packet ⊕ Err))
    (issued : List Cmd) (h : History env c t recv got issued sent) :
    sent ++ t.wr ++ cmdBytes env.codec t.cmds = cmdBytes env.codec issued := by
  induction h with
  | start => rfl
  | poll h hp ih =>
    obtain ⟨_, _, _, h3, h4, _, _⟩ := pollNext_spec hp
    rw [h3, h4]; exact ih
  | send h hs ih =>
    obtain ⟨h1, _⟩ := send_spec hs
    rw [← ih]
    simp only [List.append_assoc] at h1 ⊢
    rw [h1]
  | call h hc ih =>
    simp only [Transport.call, Option.some.injEq] at hc
    subst hc
    simp only [cmdBytes_append]
    rw [← ih]
    simp only [List.append_assoc]
  | mark b h ih => exact ih

example : ∃ t, History sampleEnv false t [4] [.inl .pong] [.ping] [4] ∧
    [4] ++ t.wr ++ cmdBytes sampleEnv.codec t.cmds = cmdBytes sampleEnv.codec [.ping] :=
  let ⟨t, _, h, _⟩ := exHistory
  ⟨t, h, C40_sent_in_order sampleEnv false t [4] [4] [.inl .pong] [.ping] h⟩

/-- C40. What was handed to the socket is a prefix of the encoded commands. -/
theorem C40_sent_prefix (env : Env) (c : Bool) (t : Transport) (recv sent : Bytes) (got : List (Packet ⊕ Err))
    (issued : List Cmd) (h : History env c t recv got issued sent) : sent <+: cmdBytes env.codec issued :=
  ⟨t.wr ++ cmdBytes env.codec t.cmds, by rw [← C40_sent_in_order env c t recv sent got issued h, List.append_assoc]⟩

example : [4] <+: cmdBytes sampleEnv.codec [.ping] :=
  let ⟨t, _, h, _⟩ := exHistory
  C40_sent_prefix sampleEnv false t [4] [4] [.inl .pong] [.ping] h

/-- C40. When sending reports completion, everything issued has been handed to the socket. -/
theorem C40_complete (env : Env) (c : Bool) (t t' : Transport) (recv sent out : Bytes) (got : List (Packet ⊕ Err))
    (issued : List Cmd) (evs left : List WriteEv) (h : History env c t recv got issued sent)
    (hs : t.send env.codec evs = (.sent, out, t', left)) : sent ++ out = cmdBytes env.codec issued := by
  have h1 := C40_sent_in_order env c t' recv (sent ++ out) got issued (.send h hs)
  obtain ⟨_, h2, _⟩ := send_spec hs
  rw [(h2 rfl).1, (h2 rfl).2] at h1
  simpa [cmdBytes] using h1

/-- A ping written in two parts, with a wait between them (for the examples): the fourth command byte is 4. -/
example : cmdBytes sampleEnv.codec [.ping, .cancel] = [4, 3] ∧
    ((Transport.new false).call .ping).inner.map (fun t => (t.send sampleEnv.codec [.wrote 0, .pending, .wrote 1]).1) = some .pending ∧
    ((Transport.new false).call .ping).inner.map (fun t => (t.send sampleEnv.codec [.wrote 0, .wrote 1, .pending]).1) = some .sent := by
  refine ⟨?_, ?_, ?_⟩ <;> simp [cmdBytes, Cmd.encode, encodePing, encodeCancel, putUvarint, Transport.new, Transport.call,
    Transport.send, Transport.send.flush]

/-- C41. At every point of every history, what the user was given is what decoding all received bytes from the front gives,
in order, and the buffer holds the bytes not decoded yet. -/
theorem C41_decodes (env : Env) (c : Bool) (t : Transport) (recv sent : Bytes) (got : List (Packet ⊕ Err))
    (issued : List Cmd) (h : History env c t recv got issued sent) :
    Decodes env { timezone := none, revision := 0, compress := c } recv got t.info t.rd := by
  induction h with
  | start => exact .done
  | poll h hp ih =>
    obtain ⟨used, h1, h2, _⟩ := pollNext_spec hp
    obtain rfl := List.append_cancel_right h1
    exact ih.append h2
  | send h hs ih =>
    obtain ⟨_, _, _, h4, h5, _⟩ := send_spec hs
    rw [h4, h5]; exact ih
  | call h hc ih =>
    simp only [Transport.call, Option.some.injEq] at hc
    subst hc
    exact ih
  | mark b h ih => exact ih

example : ∃ i rest, Decodes sampleEnv { timezone := none, revision := 0, compress := false } [4] [.inl .pong] i rest :=
  let ⟨t, _, h, _⟩ := exHistory
  ⟨_, _, C41_decodes sampleEnv false t [4] [4] [.inl .pong] [.ping] h⟩

/-- C41. When a poll says "wait", decoding cannot go on: everything decodable has been given. -/
theorem C41_nothing_held_back (env : Env) (t t' : Transport) (evs left : List ReadEv)
    (h : t.pollNext env evs = (.pending, t', left)) : parsePacket env t'.info t'.rd = .more :=
  (pollNext_spec h).choose_spec.2.2.2.2.1 rfl |>.1

example : ∃ t t' : Transport, t.pollNext sampleEnv [.pending] = (.pending, t', []) ∧ parsePacket sampleEnv t'.info t'.rd = .more :=
  let ⟨t, t', _, h⟩ := exHistory
  ⟨t, t', h, C41_nothing_held_back sampleEnv t t' _ _ h⟩

/-- C41. Two connections that received the same bytes, in whatever pieces and however they were polled, have given the same
packets when both wait for more. -/
theorem C41_schedule_independent (env : Env) (c : Bool) (t u t' u' : Transport) (recv sent1 sent2 : Bytes)
    (got1 got2 : List (Packet ⊕ Err)) (issued1 issued2 : List Cmd) (used1 left1 used2 left2 : List ReadEv) (recv1 recv2 : Bytes)
    (h1 : History env c t recv1 got1 issued1 sent1) (h2 : History env c u recv2 got2 issued2 sent2)
    (p1 : t.pollNext env (used1 ++ left1) = (.pending, t', left1)) (p2 : u.pollNext env (used2 ++ left2) = (.pending, u', left2))
    (e1 : recv1 ++ received used1 = recv) (e2 : recv2 ++ received used2 = recv) : got1 = got2 := by
  have d1 := C41_decodes env c _ _ _ _ _ (.poll h1 p1)
  have d2 := C41_decodes env c _ _ _ _ _ (.poll h2 p2)
  rw [e1] at d1
  rw [e2] at d2
  have := (d1.unique d2 (C41_nothing_held_back _ _ _ _ _ p1) (C41_nothing_held_back _ _ _ _ _ p2)).1
  simpa [given] using this

/-- The same byte received otherwise: nothing was asked for, the first poll finds nothing, the second one the pong. -/
example : ∃ t t' u u', History sampleEnv false t [4] [.inl .pong] [.ping] [4] ∧
    History sampleEnv false u [4] [.inl .pong] [] [] ∧
    t.pollNext sampleEnv ([.pending] ++ []) = (.pending, t', []) ∧ u.pollNext sampleEnv ([.pending] ++ []) = (.pending, u', []) := by
  obtain ⟨t, t', h1, h2⟩ := exHistory
  have g1 := History.poll (used := [.pending]) (left := []) (r := .pending) (t' := { Transport.new false with bufIsIncomplete := true })
    (History.start (env := sampleEnv) (c := false)) (by
      simp [Transport.pollNext, Transport.new, Transport.fillAndParse, fillLoop, readToEnd, Transport.tryParse, parsePacket,
        bind_run, readUvarint, readUvarintLoop])
  have g2 := History.poll (used := [.ready [4], .pending]) (left := []) (r := .item .pong) (t' := Transport.new false) g1 (by
      simp [Transport.pollNext, Transport.new, Transport.fillAndParse, fillLoop, readToEnd, Transport.tryParse, pong_parse]
      rfl)
  exact ⟨t, t', _, _, h1, g2, h2, by
      simp [Transport.pollNext, Transport.new, Transport.fillAndParse, fillLoop, readToEnd, Transport.tryParse, parsePacket,
        bind_run, readUvarint, readUvarintLoop]
      rfl⟩

example : ∃ t' left, (Transport.new false).pollNext sampleEnv ([.ready [4, 5], .pending] ++ [.pending]) = (.item .pong, t', left) :=
  ⟨_, _, by
    simp [Transport.pollNext, Transport.new, Transport.fillAndParse, fillLoop, readToEnd, Transport.tryParse, pong_parse]
    exact ⟨rfl, rfl⟩⟩

/-- C42, the part that holds: if a poll gave something or said "wait", and the next poll reports the end of the stream without
having read further bytes, then no complete message is left undelivered. (Missing: messages read by the same poll that sees the
end of the stream; see `C42_lost_at_end_violated`.) -/
theorem C42_delivered_partial (env : Env) (t t1 t2 : Transport) (r : TPoll) (evs left used left2 : List ReadEv)
    (h1 : t.pollNext env evs = (r, t1, left)) (hb : r ≠ .broken) (hc : r ≠ .closed)
    (h2 : t1.pollNext env (used ++ left2) = (.closed, t2, left2)) (hu : received used = []) :
    parsePacket env t2.info t2.rd = .more := by
  have hs := pollNext_settled h1 hb hc
  obtain ⟨used', e, _, _, _, _, h6⟩ := pollNext_spec h2
  obtain rfl := List.append_cancel_right e
  obtain ⟨g1, g2, g3⟩ := h6 rfl
  rw [g1, g2, hu, List.append_nil]
  cases hi : t1.bufIsIncomplete with
  | true => exact hs hi
  | false => exact g3 hi

example : ∃ t1 left t2, ((Transport.new false).pollNext sampleEnv [.ready [4], .pending, .ready []] = (.item .pong, t1, left)) ∧
    t1.pollNext sampleEnv ([.ready []] ++ []) = (.closed, t2, []) :=
  ⟨_, _, _, by
    simp [Transport.pollNext, Transport.new, Transport.fillAndParse, fillLoop, readToEnd, Transport.tryParse, pong_parse]
    exact ⟨rfl, rfl⟩, by
    simp [Transport.pollNext, Transport.fillAndParse, fillLoop, readToEnd]; rfl⟩

/-- C42 fails when the end of the stream is seen by the poll that reads the last message: whatever complete message `msg` the
server sends right before closing, a poll that finds both on the socket reports the end and does not deliver it. -/
theorem C42_lost_at_end_violated (env : Env) (c : Bool) (msg : Bytes) (hne : msg ≠ []) :
    ∃ t', (Transport.new c).pollNext env [.ready msg, .ready [], .ready []] = (.closed, t', []) ∧ t'.rd = msg := by
  refine ⟨{ Transport.new c with rd := msg, done := true }, ?_, rfl⟩
  have hl : msg.length ≠ 0 := by simpa using hne
  obtain ⟨n, hn⟩ := Nat.exists_eq_succ_of_ne_zero hl
  have h1 : readToEnd 0 [.ready msg, .ready [], .ready []] [] = (.ready (n + 1), msg, [.ready []]) := by
    simp [readToEnd, hne, hn]
  have h2 : fillLoop [.ready msg, .ready [], .ready []] [] = (.closed, msg, []) := by
    rw [fillLoop]
    split
    all_goals
      rename_i h
      rw [List.length_nil, h1] at h
      simp only [Prod.mk.injEq, reduceCtorEq, false_and, Fill.ready.injEq] at h
    obtain ⟨_, rfl, rfl⟩ := h
    have h3 : readToEnd msg.length [.ready []] msg = (.ready 0, msg, []) := by simp [readToEnd]
    rw [fillLoop]
    split
    all_goals
      rename_i h
      rw [h3] at h
      simp only [Prod.mk.injEq, reduceCtorEq, false_and, Fill.ready.injEq] at h
    · obtain ⟨_, rfl, rfl⟩ := h
      rfl
  simp only [Transport.pollNext, Transport.new, Transport.fillAndParse, h2]
  simp

/-- For instance the end-of-stream packet of a query: it is complete, and lost. -/
example (env : Env) (c : Bool) : parsePacket env { timezone := none, revision := 0, compress := c } [5] = .ok .eof [] := by
  simp [parsePacket, parseBody, bind_run, readUvarint, readUvarintLoop, Reader.pure]

/-- C43. When the transport says "wait" while reading, the socket's last answer in this poll was "not ready" (for every script
long enough to hold such an answer), and no complete message is in the buffer. -/
theorem C43_read_wakeup (env : Env) (t t' : Transport) (evs left : List ReadEv) (hm : .pending ∈ evs)
    (h : t.pollNext env evs = (.pending, t', left)) : NotReady evs left ∧ parsePacket env t'.info t'.rd = .more :=
  have hs := (pollNext_spec h).choose_spec.2.2.2.2.1 rfl
  ⟨hs.2 hm, hs.1⟩

/-- C43. The same for sending: the socket has just refused bytes. -/
theorem C43_write_wakeup (z : Codec) (t t' : Transport) (out : Bytes) (evs left : List WriteEv) (hm : .pending ∈ evs)
    (h : t.send z evs = (.pending, out, t', left)) : NotReadyW evs left :=
  (send_spec h).2.2.1 rfl hm

/-- C43. When a packet stream says "wait", the socket has just answered "not ready", to a read or to a write, and when it was
reading no complete message is in the buffer. -/
theorem C43_stream_wakeup (env : Env) (s s' : PStream) (t : Transport) (out : Bytes) (revs left : List ReadEv)
    (wevs wleft : List WriteEv) (hi : s.inner = some t) (hd : s.state ≠ .done) (hr : .pending ∈ revs) (hw : .pending ∈ wevs)
    (h : s.pollNext env revs wevs = (.pending, out, s', left, wleft)) :
    NotReadyW wevs wleft ∨ (NotReady revs left ∧ ∃ t', s'.inner = some t' ∧ parsePacket env t'.info t'.rd = .more) := by
  obtain ⟨used, t', _, _, _, _, _, _, _, _, hp, hx⟩ := pstream_poll_spec hi hd h
  rcases hp rfl with h | h
  · exact .inl (h.2 hw)
  · refine .inr ⟨h.1 hr, t', ?_, h.2⟩
    rcases hx with hx | hx
    · exact hx.1
    · obtain ⟨_, _, p, e, _⟩ := hx
      simp at e

example : ∃ s' out left wleft, ((Transport.new false).call .ping).pollNext sampleEnv [.ready [2], .pending] [.wrote 1, .pending] =
    (.pending, out, s', left, wleft) :=
  ⟨_, _, _, _, by
    simp [PStream.pollNext, Transport.call, Transport.new, Transport.send, Transport.send.flush, Cmd.encode, encodePing, putUvarint,
      PStream.receive, Transport.pollNext, Transport.fillAndParse, fillLoop, readToEnd, Transport.tryParse, parsePacket, parseBody,
      bind_run, readUvarint, readUvarintLoop, parseException, readLE, readN]
    exact ⟨rfl, rfl, rfl, rfl⟩⟩

/-- C44. Polling a stream made by issuing a command gives the server's packets in order, decoded from the bytes that were in the
buffer and those received since; as long as no packet has ended the exchange the stream keeps the connection, and a packet comes
with the connection exactly if it ends the exchange. -/
theorem C44_in_order (env : Env) (t : Transport) (c : Cmd) (n : Nat) (revs left : List ReadEv) (wevs wleft : List WriteEv)
    (rs : List PPoll) (out : Bytes) (s' : PStream) (h : polls env n (t.call c) revs wevs = (rs, out, s', left, wleft)) :
    ∃ used t', revs = used ++ left ∧ Decodes env t.info (t.rd ++ received used) (rs.flatMap packets) t'.info t'.rd ∧
      (s'.inner = some t' ∧ (∀ r ∈ rs, handedBack r = none) ∨
       s'.inner = none ∧ (∃ r ∈ rs, handedBack r = some t')) ∧
      (∀ r ∈ rs, ∀ p conn, r = .item p conn → (conn.isSome ↔ EndsExchange p)) := by
  have aux : ∀ (n : Nat) (s : PStream) (t : Transport) (revs : List ReadEv) (wevs : List WriteEv) (rs : List PPoll) (out : Bytes),
      s.inner = some t → s.state ≠ .done → s.readBlock = false → polls env n s revs wevs = (rs, out, s', left, wleft) →
      ∃ used t', revs = used ++ left ∧ Decodes env t.info (t.rd ++ received used) (rs.flatMap packets) t'.info t'.rd ∧
      (s'.inner = some t' ∧ (∀ r ∈ rs, handedBack r = none) ∨
       s'.inner = none ∧ (∃ r ∈ rs, handedBack r = some t')) ∧
      (∀ r ∈ rs, ∀ p conn, r = .item p conn → (conn.isSome ↔ EndsExchange p)) := by
    intro n
    induction n with
    | zero =>
      intro s t revs wevs rs out hi _ _ h
      simp only [polls, Prod.mk.injEq] at h
      obtain ⟨rfl, rfl, rfl, rfl, rfl⟩ := h
      exact ⟨[], t, rfl, by rw [received_nil, List.append_nil]; exact .done, .inl ⟨hi, by simp⟩, by simp⟩
    | succ n ih =>
      intro s t revs wevs rs out hi hd hb h
      rcases hp : s.pollNext env revs wevs with ⟨r, o, s1, l1, w1⟩
      rw [polls, hp] at h
      simp only at h
      rcases hq : polls env n s1 l1 w1 with ⟨rs1, o1, s2, l2, w2⟩
      rw [hq] at h
      simp only [Prod.mk.injEq] at h
      obtain ⟨rfl, rfl, rfl, rfl, rfl⟩ := h
      obtain ⟨used, t1, h1, h2, h3, _, _, _, _, _, _, h4⟩ := pstream_poll_spec hi hd hp
      rcases h4 with ⟨h5, h6, h7, h8⟩ | ⟨h5, h6, p, h7, h8⟩
      · have hd1 : s1.state ≠ .done := fun e => by have := (h8.mp e).1; rw [hb] at this; simp at this
        obtain ⟨used', t2, g1, g2, g3, g4⟩ := ih s1 t1 l1 w1 rs1 o1 h5 hd1 (h3.trans hb) hq
        refine ⟨used ++ used', t2, by rw [h1, g1, List.append_assoc], ?_, ?_, ?_⟩
        · rw [received_append, ← List.append_assoc, List.flatMap_cons]
          exact h2.append g2
        · rcases g3 with ⟨g3, g5⟩ | ⟨g3, r', hr', g5⟩
          · refine .inl ⟨g3, fun r' hr' => ?_⟩
            rcases List.mem_cons.mp hr' with rfl | hr'
            · exact h6
            · exact g5 r' hr'
          · exact .inr ⟨g3, r', List.mem_cons_of_mem _ hr', g5⟩
        · intro r' hr' p conn e
          rcases List.mem_cons.mp hr' with rfl | hr'
          · rw [e] at h6
            simp only [handedBack] at h6
            rw [h6]
            exact ⟨by simp, fun he => absurd he (h7 p conn e)⟩
          · exact g4 r' hr' p conn e
      · have rest : ∀ (n : Nat) (s : PStream) (revs : List ReadEv) (wevs : List WriteEv), s.inner = none →
            ∃ s2, polls env n s revs wevs = (List.replicate n .ended, [], s2, revs, wevs) ∧ s2.inner = none := by
          intro n
          induction n with
          | zero => intro s revs wevs hs; exact ⟨s, rfl, hs⟩
          | succ n ih =>
            intro s revs wevs hs
            obtain ⟨s1, e1, e2⟩ := pstream_poll_none (env := env) hs revs wevs
            obtain ⟨s2, e3, e4⟩ := ih s1 revs wevs e2
            exact ⟨s2, by rw [polls, e1]; simp only [e3]; rfl, e4⟩
        obtain ⟨s3, e3, e4⟩ := rest n s1 l1 w1 h5
        rw [e3] at hq
        simp only [Prod.mk.injEq] at hq
        obtain ⟨rfl, rfl, rfl, rfl, rfl⟩ := hq
        subst h7
        refine ⟨used, t1, h1, ?_, .inr ⟨e4, _, List.mem_cons_self, rfl⟩, ?_⟩
        · have : (List.replicate n PPoll.ended).flatMap packets = [] := by
            rw [List.flatMap_eq_nil_iff]
            intro x hx
            rw [List.eq_of_mem_replicate hx]; rfl
          rw [List.flatMap_cons, this, List.append_nil]
          exact h2
        · intro r' hr' q conn e
          rcases List.mem_cons.mp hr' with rfl | hr'
          · simp only [PPoll.item.injEq] at e
            rw [← e.1, ← e.2]
            exact ⟨fun _ => h8, fun _ => rfl⟩
          · rw [List.eq_of_mem_replicate hr'] at e
            simp at e
  exact aux n (t.call c) { t with cmds := t.cmds ++ [c] } revs wevs rs out rfl (by simp [Transport.call]) rfl h

/-- C44. Once a packet has handed the connection back, the stream only says "ended", however often it is polled: it reads
nothing and writes nothing. -/
theorem C44_handed_back_once (env : Env) (s s' : PStream) (t : Transport) (p : Packet) (out : Bytes) (revs left : List ReadEv)
    (wevs wleft : List WriteEv) (h : s.pollNext env revs wevs = (.item p (some t), out, s', left, wleft)) (n : Nat)
    (revs2 : List ReadEv) (wevs2 : List WriteEv) :
    ∃ s2, polls env n s' revs2 wevs2 = (List.replicate n .ended, [], s2, revs2, wevs2) := by
  have hi : s'.inner = none := by
    cases hs : s.inner with
    | none =>
      obtain ⟨s1, e1, e2⟩ := pstream_poll_none (env := env) hs revs wevs
      rw [e1] at h
      simp at h
    | some t0 =>
      by_cases hd : s.state = .done
      · rw [PStream.pollNext, hd] at h
        simp only [PStream.finish, hs, Prod.mk.injEq] at h
        rw [← h.2.2.1]
      · obtain ⟨_, _, _, _, _, _, _, _, _, _, _, hx⟩ := pstream_poll_spec hs hd h
        rcases hx with hx | hx
        · have := hx.2.1; simp [handedBack] at this
        · exact hx.1
  clear h
  induction n generalizing s' with
  | zero => exact ⟨s', rfl⟩
  | succ n ih =>
    obtain ⟨s1, e1, e2⟩ := pstream_poll_none (env := env) hi revs2 wevs2
    obtain ⟨s2, e3⟩ := ih s1 e2
    exact ⟨s2, by rw [polls, e1]; simp only [e3]; rfl⟩

/-- C44. Nothing is given to the user before all queued commands have been handed to the socket. -/
theorem C44_sends_first (env : Env) (t : Transport) (c : Cmd) (r : PPoll) (out : Bytes) (s' : PStream) (revs left : List ReadEv)
    (wevs wleft : List WriteEv) (h : (t.call c).pollNext env revs wevs = (r, out, s', left, wleft)) (hr : packets r ≠ []) :
    out = t.wr ++ cmdBytes env.codec (t.cmds ++ [c]) := by
  obtain ⟨used, t', _, _, _, h4, _, h6, _, h8, _, _⟩ := pstream_poll_spec (s := t.call c) rfl (by simp [Transport.call]) h
  have hne : s'.state ≠ .ask := fun e => hr (h8 e).1
  obtain ⟨e1, e2⟩ := h6 rfl hne
  rw [e1, e2] at h4
  simpa [cmdBytes] using h4

/-- C44. A stream asked for one block (as in an INSERT) hands the connection back with the poll after the block, without
touching the socket in between. -/
theorem C44_read_block (env : Env) (s s' : PStream) (t : Transport) (b : Block) (conn : Option Transport) (out : Bytes)
    (revs left : List ReadEv) (wevs wleft : List WriteEv) (hi : s.inner = some t) (hd : s.state ≠ .done) (hb : s.readBlock = true)
    (h : s.pollNext env revs wevs = (.item (.block b) conn, out, s', left, wleft)) (revs2 : List ReadEv) (wevs2 : List WriteEv) :
    ∃ t' s2, conn = none ∧ s'.inner = some t' ∧ s'.pollNext env revs2 wevs2 = (.item .eof (some t'), [], s2, revs2, wevs2) := by
  obtain ⟨used, t', _, _, _, _, _, _, _, _, _, hx⟩ := pstream_poll_spec hi hd h
  rcases hx with ⟨h1, h2, _, h4⟩ | ⟨_, _, p, h3, h4⟩
  · have hs : s'.state = .done := h4.mpr ⟨hb, b, conn, rfl⟩
    refine ⟨t', { s' with inner := none, state := .done }, h2, h1, ?_⟩
    rw [PStream.pollNext, hs]
    simp only [PStream.finish, h1]
  · simp only [PPoll.item.injEq] at h3
    rw [← h3.1] at h4
    cases h4

/-- A ping answered by a pong: the command goes out, the pong comes with the connection, then the stream has ended. -/
example : ∃ t s' left wleft, polls sampleEnv 3 ((Transport.new false).call .ping) [.ready [4], .pending] [.wrote 1] =
    ([.item .pong (some t), .ended, .ended], [4], s', left, wleft) :=
  ⟨_, _, _, _, by
    simp [polls, PStream.pollNext, Transport.call, Transport.new, Transport.send, Transport.send.flush, Cmd.encode, encodePing,
      putUvarint, PStream.receive, Transport.pollNext, Transport.fillAndParse, fillLoop, readToEnd, Transport.tryParse, pong_parse,
      Packet.takesConn, PStream.finish]
    exact ⟨rfl, rfl, rfl, rfl⟩⟩

end CH.Props
