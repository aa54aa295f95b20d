import Verif.Lemmas.Refine
import Verif.Props.Transport

/-!
C70: the connection the client operations are modelled over (`Conn`, `CStream`) is the connection over the socket
(`Transport`, `PStream`), as long as the socket does not fail or end.
-/

namespace CH.Props
open CH CH.Spec

/-- C70. A new connection is, to the operations, a connection on which the messages of all bytes the socket will deliver are on
their way. -/
theorem C70_new (env : Env) (compress : Bool) (revs : List ReadEv) (xs : List (Packet ⊕ Err)) (i : TransportInfo) (rest : Bytes)
    (server : List Cmd → List Inc) (sent : List Cmd)
    (hd : Decodes env { timezone := none, revision := 0, compress := compress } (received revs) xs i rest)
    (hm : parsePacket env i rest = .more) :
    Carries env (Transport.new compress) revs ⟨xs.map incOf, server, false, sent⟩ :=
  ⟨rfl, rfl, xs, i, rest, rfl, hd, hm⟩

/-- Two pongs in three parts, the second behind a wait (for the examples). -/
def exReads : List ReadEv := [.ready [4], .pending, .ready [4], .pending]

theorem exReads_lasting : Lasting exReads := by
  intro e he
  simp only [exReads, List.mem_cons, List.not_mem_nil, or_false] at he
  rcases he with rfl | rfl | rfl | rfl
  · exact .inr ⟨[4], by simp, rfl⟩
  · exact .inl rfl
  · exact .inr ⟨[4], by simp, rfl⟩
  · exact .inl rfl

theorem exReads_decodes (env : Env) (i : TransportInfo) : Decodes env i (received exReads) [.inl .pong, .inl .pong] i [] :=
  .packet (pong_parse env i [4]) (.other (by simp)) (.packet (pong_parse env i []) (.other (by simp)) .done)

/-- The hypotheses of `C70_new` can be met. -/
theorem exCarries (env : Env) (server : List Cmd → List Inc) :
    Carries env (Transport.new false) exReads ⟨[.packet .pong, .packet .pong], server, false, []⟩ :=
  C70_new env false exReads [.inl .pong, .inl .pong] _ [] server [] (exReads_decodes env _) (parsePacket_nil _ _)

/-- C70. Issuing a command: if the server's answer to it, as the operations see it, are the messages of the bytes the socket
delivers after those already counted on, then the stream made by `call` over the socket is the one the operations see. -/
theorem C70_call (env : Env) (t : Transport) (c : Conn) (cmd : Cmd) (revs more : List ReadEv) (he : Encodable env t)
    (hb : ∃ b, cmd.encode env.codec = .ok b) (hd : t.done = false) (hi : c.inconsistent = t.inconsistent)
    (xs ys : List (Packet ⊕ Err)) (i j : TransportInfo) (rest rest' : Bytes)
    (hx : c.incoming = xs.map incOf) (h1 : Decodes env t.info (t.rd ++ received revs) xs i rest)
    (hy : c.server (c.sent ++ [cmd]) = ys.map incOf) (h2 : Decodes env i (rest ++ received more) ys j rest')
    (hm : parsePacket env j rest' = .more) : Tracks env (revs ++ more) (t.call cmd) (c.call cmd) := by
  refine .has ⟨hd, hi, xs ++ ys, j, rest', ?_, ?_, hm⟩ ?_ (by simp)
  · simp only [hx, hy, List.map_append]
  · have := h1.append h2
    rw [List.append_assoc, ← received_append] at this
    exact this
  · intro d hd
    rcases List.mem_append.mp hd with hd | hd
    · exact he d hd
    · simp only [List.mem_singleton] at hd; rw [hd]; exact hb

/-- A server that answers every command with a pong. -/
def pongServer : List Cmd → List Inc := fun _ => [.packet .pong]

theorem exCall (env : Env) : Tracks env [.pending, .ready [4]] ((Transport.new false).call .ping)
    (Conn.call ⟨[], pongServer, false, []⟩ .ping) :=
  C70_call env (Transport.new false) ⟨[], pongServer, false, []⟩ .ping [] [.pending, .ready [4]] (by intro d hd; simp [Transport.new] at hd)
    ⟨_, rfl⟩ rfl rfl [] [.inl .pong] _ _ [] [] rfl .done rfl
    (.packet (pong_parse env _ []) (.other (by simp)) .done) (parsePacket_nil _ _)

/-- C70. Awaiting an item: whatever the packet stream over the socket gives once it is ready, after however many "not ready" polls
and however the bytes were cut into pieces, is what the operations' stream gives (the same packet or error, a connection exactly
if the other has one, and then the same connection), and the two streams go on agreeing. -/
theorem C70_next (env : Env) (s s' : PStream) (cs : CStream) (revs left : List ReadEv) (wevs wleft : List WriteEv) (r : PPoll)
    (ht : Tracks env revs s cs) (hl : Lasting revs) (hw : LastingW wevs) (h : Awaits env s revs wevs r s' left wleft) :
    Agree env left r cs.next.1 ∧ Tracks env left s' cs.next.2 ∧ Lasting left ∧ LastingW wleft := by
  induction h with
  | ready h hr =>
    obtain ⟨g1, g2, g3⟩ := poll_tracks hl hw ht h
    rcases g3 with ⟨g3, _⟩ | ⟨_, g3, g4⟩
    · exact absurd g3 hr
    · exact ⟨g3, g4, g1, g2⟩
  | again h _ ih =>
    obtain ⟨g1, g2, g3⟩ := poll_tracks hl hw ht h
    rcases g3 with ⟨_, g3, _⟩ | ⟨g3, _⟩
    · exact ih g3 g1 g2
    · exact absurd rfl g3

/-- C70. The same for any number of items awaited one after the other: in number, order and content they are those of the
operations' stream. -/
theorem C70_items (env : Env) (n : Nat) (s s' : PStream) (cs : CStream) (revs left : List ReadEv) (wevs wleft : List WriteEv)
    (rs : List (PPoll × List ReadEv)) (ht : Tracks env revs s cs) (hl : Lasting revs) (hw : LastingW wevs)
    (h : Consumes env n s revs wevs rs s' left wleft) :
    AllAgree env rs (nexts n cs).1 ∧ Tracks env left s' (nexts n cs).2 := by
  induction h generalizing cs with
  | none => exact ⟨.nil, ht⟩
  | some h _ ih =>
    obtain ⟨g1, g2, g3, g4⟩ := C70_next env _ _ cs _ _ _ _ _ ht hl hw h
    obtain ⟨i1, i2⟩ := ih _ g2 g3 g4
    exact ⟨.cons g1 i1, i2⟩

/-- C70. When the operations' stream has nothing to give, awaiting the stream over the socket does not come to an end. -/
theorem C70_waits (env : Env) (s s' : PStream) (cs : CStream) (revs left : List ReadEv) (wevs wleft : List WriteEv) (r : PPoll)
    (ht : Tracks env revs s cs) (hl : Lasting revs) (hw : LastingW wevs) (hn : cs.next.1 = .waits) :
    ¬ Awaits env s revs wevs r s' left wleft := by
  intro h
  have := (C70_next env s s' cs revs left wevs wleft r ht hl hw h).1
  rw [hn] at this
  cases this

/-- A server that never answers. -/
example (env : Env) : Tracks env [.pending] ((Transport.new false).call .ping) (Conn.call ⟨[], fun _ => [], false, []⟩ .ping) ∧
    (Conn.call ⟨[], fun _ => [], false, []⟩ .ping).next.1 = .waits :=
  ⟨C70_call env (Transport.new false) ⟨[], fun _ => [], false, []⟩ .ping [] [.pending] (by intro d hd; simp [Transport.new] at hd)
    ⟨_, rfl⟩ rfl rfl [] [] _ _ [] [] rfl .done rfl .done (parsePacket_nil _ _), rfl⟩

theorem progress_recv (env : Env) (n : Nat) : ∀ (s : PStream) (cs : CStream) (revs : List ReadEv) (wevs : List WriteEv),
    revs.length = n → Tracks env revs s cs → Lasting revs → LastingW wevs → s.state ≠ .ask → cs.next.1 ≠ .waits →
    ∃ r s' left wleft, Awaits env s revs wevs r s' left wleft := by
  induction n using Nat.strongRecOn with
  | _ n ih =>
    intro s cs revs wevs hn ht hl hw hs hc
    cases hp : s.pollNext env revs wevs with
    | mk r rest =>
      obtain ⟨out, s1, l1, w1⟩ := rest
      obtain ⟨g1, g2, g3⟩ := poll_tracks hl hw ht hp
      rcases g3 with ⟨rfl, g3, g4⟩ | ⟨g3, _⟩
      · rcases g4 with ⟨g4, _⟩ | ⟨g4, g5⟩
        · have : s1.state ≠ .ask := by
            cases ht with
            | gone =>
              rename_i st f b
              rw [PStream.pollNext] at hp
              cases st <;> simp [PStream.receive, PStream.finish] at hp
            | has hc1 he1 hf1 =>
              rename_i t c st f b
              cases st with
              | ask => exact absurd rfl hs
              | done => simp [PStream.pollNext, PStream.finish] at hp
              | _ =>
                simp only [PStream.pollNext, Prod.mk.injEq] at hp
                obtain ⟨e1, e2, e3, e4, e5⟩ := hp
                obtain ⟨_, _, _, _, _, _, _, _, h7⟩ := receive_spec (s := ⟨some t, _, b⟩) rfl
                  (show PStream.receive env _ revs = (.pending, s1, l1) by rw [← e1, ← e3, ← e4])
                rcases h7 with h7 | h7
                · exact h7.2.2.1
                · rw [h7.2.1]; simp
          exact absurd g4 this
        · rcases g5 with g5 | g5
          · obtain ⟨r, s', left, wleft, h⟩ := ih l1.length (by omega) s1 cs l1 w1 rfl g3 g1 g2 g4 hc
            exact ⟨r, s', left, wleft, .again hp h⟩
          · exact absurd g5 hc
      · exact ⟨r, s1, l1, w1, .ready hp g3⟩

/-- C70. When the operations' stream has something to give, awaiting the stream over the socket comes to an end, unless the socket
stops taking the bytes of the command: its script of writes is used up and the stream is still asking. -/
theorem C70_progress (env : Env) (s : PStream) (cs : CStream) (revs : List ReadEv) (wevs : List WriteEv)
    (ht : Tracks env revs s cs) (hl : Lasting revs) (hw : LastingW wevs) (hc : cs.next.1 ≠ .waits) :
    (∃ r s' left wleft, Awaits env s revs wevs r s' left wleft) ∨
      ∃ n rs out s' left, polls env n s revs wevs = (rs, out, s', left, []) ∧ s'.state = .ask := by
  generalize hn : wevs.length = n
  induction n using Nat.strongRecOn generalizing s revs wevs with
  | _ n ih =>
    cases hp : s.pollNext env revs wevs with
    | mk r rest =>
      obtain ⟨out, s1, l1, w1⟩ := rest
      obtain ⟨g1, g2, g3⟩ := poll_tracks hl hw ht hp
      rcases g3 with ⟨rfl, g3, g4⟩ | ⟨g3, _⟩
      · rcases g4 with ⟨g4, rfl, g5⟩ | ⟨g4, g5⟩
        · rcases g5 with g5 | rfl
          · rcases ih w1.length (by omega) s1 l1 w1 g3 g1 g2 rfl with ⟨r, s', left, wleft, h⟩ | ⟨k, rs, o, s', left, h, h'⟩
            · exact .inl ⟨r, s', left, wleft, .again hp h⟩
            · refine .inr ⟨k + 1, .pending :: rs, out ++ o, s', left, ?_, h'⟩
              simp only [polls, hp, h]
          · exact .inr ⟨1, [.pending], out, s1, l1, by simp only [polls, hp, List.append_nil], g4⟩
        · obtain ⟨r, s', left, wleft, h⟩ := progress_recv env _ s1 cs l1 w1 rfl g3 g1 g2 g4 hc
          exact .inl ⟨r, s', left, wleft, .again hp h⟩
      · exact .inl ⟨r, s1, l1, w1, .ready hp g3⟩

/-- A ping whose byte is refused once and whose answer comes late (for the examples): the poll gives the connection back after
two "not ready" polls. -/
example : ∃ r s' left wleft, Awaits sampleEnv ((Transport.new false).call .ping) [.pending, .ready [4]] [.pending, .wrote 1] r s' left wleft ∧
    Agree sampleEnv left r (Conn.call ⟨[], pongServer, false, []⟩ .ping).next.1 ∧
    ∃ c, (Conn.call ⟨[], pongServer, false, []⟩ .ping).next.1 = .item .pong (some c) := by
  have ht := exCall sampleEnv
  have hl : Lasting [.pending, .ready [4]] := by
    intro e he
    simp only [List.mem_cons, List.not_mem_nil, or_false] at he
    rcases he with rfl | rfl
    · exact .inl rfl
    · exact .inr ⟨[4], by simp, rfl⟩
  have hw : LastingW [.pending, .wrote 1] := by
    intro e he
    simp only [List.mem_cons, List.not_mem_nil, or_false] at he
    rcases he with rfl | rfl <;> simp
  have key : ∃ r s' left wleft, Awaits sampleEnv ((Transport.new false).call .ping) [.pending, .ready [4]] [.pending, .wrote 1] r s' left wleft := by
    have h1 : ∃ out s1, ((Transport.new false).call .ping).pollNext sampleEnv [.pending, .ready [4]] [.pending, .wrote 1] =
        (.pending, out, s1, [.pending, .ready [4]], [.wrote 1]) ∧ s1 = ⟨some { Transport.new false with wr := [4] }, .ask, false⟩ := by
      simp [PStream.pollNext, Transport.call, Transport.new, Transport.send, Transport.send.flush, Cmd.encode, encodePing, putUvarint]
    obtain ⟨o1, s1, h1, rfl⟩ := h1
    have h2 : ∃ out s2, PStream.pollNext sampleEnv ⟨some { Transport.new false with wr := [4] }, .ask, false⟩
        [.pending, .ready [4]] [.wrote 1] = (.pending, out, s2, [.ready [4]], []) ∧
        s2 = ⟨some { Transport.new false with bufIsIncomplete := true }, .receive, false⟩ := by
      simp [PStream.pollNext, Transport.new, Transport.send, Transport.send.flush, PStream.receive, Transport.pollNext,
        Transport.fillAndParse, fillLoop, readToEnd, Transport.tryParse, parsePacket_nil]
    obtain ⟨o2, s2, h2, rfl⟩ := h2
    have h3 : ∃ t3 out s3 l3, PStream.pollNext sampleEnv ⟨some { Transport.new false with bufIsIncomplete := true }, .receive, false⟩
        [.ready [4]] [] = (.item .pong (some t3), out, s3, l3, []) := by
      simp [PStream.pollNext, Transport.new, PStream.receive, Transport.pollNext, Transport.fillAndParse, fillLoop, readToEnd,
        Transport.tryParse, pong_parse, Packet.takesConn]
    obtain ⟨t3, o3, s3, l3, h3⟩ := h3
    exact ⟨_, _, _, _, .again h1 (.again h2 (.ready h3 (by simp)))⟩
  obtain ⟨r, s', left, wleft, h⟩ := key
  exact ⟨r, s', left, wleft, h, (C70_next sampleEnv _ s' _ _ left _ wleft r ht hl hw h).1, _, rfl⟩

end CH.Props
