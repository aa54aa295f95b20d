import Verif.Lemmas.Abandon
import Verif.Props.Cancel
import Verif.Props.Hostile

/-!
C87: every operation over a socket comes to exactly one end.
-/

namespace CH.Props
open CH CH.Spec CH.Total

/-- C87. Whatever a user asks of a handle, whatever state its connection is in and whatever the sockets do, byte by byte: exactly one of
the following is the case. There is a reply, and no other one, and one handle it leaves; or the operation panics; or it waits for ever;
or reading a message or writing one panics. -/
theorem C87_one_end (env : Env) (numeric : Char → Bool) (cast : Block → Block → Out Block) (h : HandleS) (w : WorldS) (a : Wish) :
    (∃ e, AskEnds env numeric cast h w a e ∧ (∀ e', AskEnds env numeric cast h w a e' → e' = e) ∧
      ∀ c, ¬AskSilent env c numeric cast h w a) ∨
    (∃ c, AskSilent env c numeric cast h w a ∧ (∀ c', AskSilent env c' numeric cast h w a → c' = c) ∧
      ∀ e, ¬AskEnds env numeric cast h w a e) :=
  ask_fate numeric cast h w a

/-- The ends of `C87_one_end` that are replies: the same sockets give the same reply and leave the same handle. -/
theorem C87_determined (env : Env) (numeric : Char → Bool) (cast : Block → Block → Out Block) (h h1 h2 : HandleS) (w : WorldS) (a : Wish)
    (r1 r2 : Reply) (ha1 : AskS env numeric cast h w a r1 h1) (ha2 : AskS env numeric cast h w a r2 h2) : r1 = r2 ∧ h1 = h2 := by
  rcases C87_one_end env numeric cast h w a with ⟨e, -, hu, -⟩ | ⟨_, _, _, hn⟩
  · have := (hu _ (.reply ha1)).trans (hu _ (.reply ha2)).symm
    cases this
    exact ⟨rfl, rfl⟩
  · exact absurd (.reply ha1) (hn _)

/-- The hypotheses of `C87_determined`, and of `C87_one_end` with a reply. -/
example (env : Env) (numeric : Char → Bool) (cast : Block → Block → Out Block) : ∃ h w r h', AskS env numeric cast h w .ping r h' ∧
    AskEnds env numeric cast h w .ping (.reply r h') := by
  obtain ⟨n, _, _, k, hk⟩ := exSock_ping env numeric cast
  exact ⟨_, _, _, _, hk, .reply hk⟩

theorem exStuck_pending (env : Env) (n : Nat) : ∀ s : PStream, (∃ t, s.inner = some t ∧ t.rd = [] ∧ t.done = false ∧ s.state = .receive) →
    StillPending env n s [] [] := by
  induction n with
  | zero => exact fun _ _ => trivial
  | succ n ih =>
    rintro s ⟨t, h1, h2, h3, h4⟩
    obtain ⟨t', hp, h5, h6⟩ : ∃ t', s.pollNext env [] [] = (.pending, [], { s with inner := some t' }, [], []) ∧ t'.rd = [] ∧ t'.done = false := by
      refine ⟨{ t with bufIsIncomplete := true }, ?_, h2, h3⟩
      obtain ⟨_, _, rb⟩ := s
      dsimp only at h1 h4
      subst h1 h4
      simp [PStream.pollNext, PStream.receive, Transport.pollNext, Transport.fillAndParse, h2, h3, fillLoop, readToEnd, Transport.tryParse, parsePacket_nil]
    exact ⟨_, _, _, _, hp, ih _ ⟨t', rfl, h5, h6, h4⟩⟩

/-- A ping that nobody answers waits for ever. -/
theorem exStuck_waits (env : Env) (numeric : Char → Bool) (cast : Block → Block → Out Block) :
    AskSilent env .waits numeric cast ⟨some (exStuck [.wrote 1]), sampleCtx, .attached⟩ [] .ping := by
  refine .ping ⟨_, rfl, .second (exStuck_clear env _) (.here fun n => ?_)⟩
  cases n with
  | zero => trivial
  | succ n =>
    have h1 : Cmd.encode env.codec .ping = .ok [4] := by simp [Cmd.encode, encodePing, putUvarint]
    refine ⟨[4], ⟨some { Transport.new false with bufIsIncomplete := true }, .receive, false⟩, [], [], ?_, exStuck_pending env n _ ⟨_, rfl, rfl, rfl, rfl⟩⟩
    simp [PStream.pollNext, Transport.call, exStuck, Transport.new, Transport.send, Transport.send.flush, h1, PStream.receive,
      Transport.pollNext, Transport.fillAndParse, fillLoop, readToEnd, Transport.tryParse, parsePacket_nil]

/-- A ping answered with a number that has too many digits: reading it panics. -/
theorem exHostile_panics (env : Env) (numeric : Char → Bool) (cast : Block → Block → Out Block) :
    AskSilent env .panics numeric cast
      ⟨some ⟨Transport.new false, [.ready (List.replicate 11 0x80)], ⟨[.wrote 1], []⟩⟩, sampleCtx, .attached⟩ [] .ping := by
  refine .ping ⟨_, rfl, .second (by simp [ClearS, Transport.new]; rfl) (.here ?_)⟩
  have h1 : Cmd.encode env.codec .ping = .ok [4] := by simp [Cmd.encode, encodePing, putUvarint]
  have h2 : ∀ info, parsePacket env info [0x80, 0x80, 0x80, 0x80, 0x80, 0x80, 0x80, 0x80, 0x80, 0x80, 0x80] = .panic := by
    intro info
    simp [parsePacket, bind_run, readUvarint, readUvarintLoop]
  obtain ⟨s', l, wl, hp⟩ : ∃ s' l wl, ((Transport.new false).call .ping).pollNext env [.ready (List.replicate 11 0x80)] [.wrote 1] =
      (.panic, [4], s', l, wl) := by
    simp [PStream.pollNext, Transport.call, Transport.new, Transport.send, Transport.send.flush, h1, PStream.receive, Transport.pollNext,
      Transport.fillAndParse, fillLoop, readToEnd, Transport.tryParse, h2]
  exact ⟨_, _, _, .ready hp nofun⟩

/-- The other cases of `C87_one_end`. -/
example (env : Env) (numeric : Char → Bool) (cast : Block → Block → Out Block) :
    (∃ h w a, AskSilent env .waits numeric cast h w a) ∧ (∃ h w a, AskSilent env .panics numeric cast h w a) ∧
    ∃ h w a, AskEnds env numeric cast h w a .panic :=
  ⟨⟨_, _, _, exStuck_waits env numeric cast⟩, ⟨_, _, _, exHostile_panics env numeric cast⟩,
    ⟨⟨none, sampleCtx, .detached⟩, [], .execute ⟨"", ""⟩, .execute (.failed (.unbound rfl rfl) nofun)⟩⟩

/-- C87. The same for each block of a query: awaiting it gives one item and leaves one stream and one handle, or nothing. -/
theorem C87_next (env : Env) (s : BStreamS) (h : HandleS) :
    (∃ x : BItem × BStreamS × HandleS, NextS env s h x.1 x.2.1 x.2.2 ∧ (∀ y : BItem × BStreamS × HandleS, NextS env s h y.1 y.2.1 y.2.2 → y = x) ∧
      ∀ c, ¬(s.state = .reading ∧ ReadSilent env c s)) ∨
    (∃ c, (s.state = .reading ∧ ReadSilent env c s) ∧ (∀ c', (s.state = .reading ∧ ReadSilent env c' s) → c' = c) ∧
      ∀ x : BItem × BStreamS × HandleS, ¬NextS env s h x.1 x.2.1 x.2.2) :=
  next_fate s h

/-- A case of `C87_next`: a stream that has come to its end. -/
example (env : Env) (s : BStreamS) (h : HandleS) : NextS env { s with state := .finished } h .ended { s with state := .finished } h :=
  ⟨rfl, rfl, rfl⟩

/-- C87. What waits for ever can be given up: the operation is abandoned where it waits (C85 says what that leaves). -/
theorem C87_waits (env : Env) (numeric : Char → Bool) (cast : Block → Block → Out Block) (h : HandleS) (w : WorldS) (a : Wish)
    (hs : AskSilent env .waits numeric cast h w a) : ∃ h', AskT env numeric cast h w a none h' := ask_cut hs

/-- The hypothesis of `C87_waits`. -/
example (env : Env) (numeric : Char → Bool) (cast : Block → Block → Out Block) :
    ∃ h', AskT env numeric cast ⟨some (exStuck [.wrote 1]), sampleCtx, .attached⟩ [] .ping none h' :=
  C87_waits env numeric cast _ _ _ (exStuck_waits env numeric cast)

/-- C87. Timeouts take no reply away: what an operation would reply without them is among what it may reply with them. -/
theorem C87_in_time (env : Env) (numeric : Char → Bool) (cast : Block → Block → Out Block) (h h' : HandleS) (w : WorldS) (a : Wish) (r : Reply)
    (ha : AskS env numeric cast h w a r h') : AskT env numeric cast h w a (some r) h' := ask_done ha

/-- The hypothesis of `C87_in_time`. -/
example (env : Env) (numeric : Char → Bool) (cast : Block → Block → Out Block) : ∃ h h', AskT env numeric cast h [] .ping (some (.items [])) h' := by
  obtain ⟨n, _, _, k, hk⟩ := exSock_ping env numeric cast
  exact ⟨_, _, C87_in_time env numeric cast _ _ _ _ _ hk⟩

end CH.Props
