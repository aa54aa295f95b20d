import Verif.Lemmas.Cancel
import Verif.Props.Answered
import Verif.Props.Faults

/-!
C85: operations that are abandoned or time out.
-/

namespace CH.Props
open CH CH.Spec CH.Socket CH.Outage CH.Cancel

/-- C85. An operation over a socket of any kind that gets a reply other than a timeout got it as if nothing could be abandoned: it is the
reply of the operation on the messages heard, though pings of the check may have timed out on the way and the connection may be another
one. For a ping this is so for its timeout, too. -/
theorem C85_replies (env : Env) (numeric : Char → Bool) (cast : Block → Block → Out Block) (h h' : HandleS) (w : WorldS) (a : Wish)
    (r : Reply) (log : List Cmd) (ha : AskT env numeric cast h w a (some r) h') (hr : a = .ping ∨ r ≠ .failed .timeout)
    (hi : IssuedIn env h log) (hw : IssuedWorld env w) (he : DataEncodes env cast h.context a) :
    ∃ log', IssuedIn env h' log' ∧ ∀ ys, HearsIn env h' ys → ∃ xs wc, HearsIn env h xs ∧ HearsWorld env w wc ∧
      askW numeric cast (heardHandle h log xs) wc a = some (r, heardHandle h' log' ys) :=
  askT_sim ha hr hi hw he

/-- A connection whose socket never delivers anything. -/
def exStuck (evs : List WriteEv) : Sock := ⟨Transport.new false, [], ⟨evs, []⟩⟩

theorem exStuck_issued (env : Env) (evs : List WriteEv) : Issued env (exStuck evs) [] :=
  ⟨fun d hd => absurd (show d ∈ [] from hd) List.not_mem_nil, rfl⟩

theorem exStuck_clear (env : Env) (evs : List WriteEv) : ClearS env (exStuck evs) (.ok (exStuck evs)) := by
  simp [ClearS, exStuck, Transport.new]

theorem exStuck_poll (env : Env) : ∃ s, ((exStuck [.wrote 1]).t.call .ping).pollNext env [] [.wrote 1] =
    (.pending, [4], s, [], []) := by
  have h1 : Cmd.encode env.codec .ping = .ok [4] := by simp [Cmd.encode, encodePing, putUvarint]
  simp [PStream.pollNext, Transport.call, exStuck, Transport.new, Transport.send, Transport.send.flush, h1, PStream.receive,
    Transport.pollNext, Transport.fillAndParse, fillLoop, readToEnd, Transport.tryParse, parsePacket, bind_run, readUvarint, readUvarintLoop]

theorem exStuck_ping (env : Env) : PingCut env (exStuck [.wrote 1]) [4] := by
  obtain ⟨s, h⟩ := exStuck_poll env
  exact .second (exStuck_clear env _) (.here (.once h))

theorem exStuck_send (env : Env) (cmd : Cmd) {b : Bytes} (h : cmd.encode env.codec = .ok b) :
    ((exStuck []).t.call cmd).pollNext env [] [] = (.pending, [], ⟨some { (exStuck []).t with wr := b }, .ask, false⟩, [], []) := by
  simp [PStream.pollNext, Transport.call, exStuck, Transport.new, Transport.send, Transport.send.flush, h]

theorem exStuck_execute (env : Env) (q : Query) (ctx : Context) : ExecuteCut env (exStuck []) q ctx [] := by
  obtain ⟨b, hb⟩ := query_encodes env q ctx
  exact .second (exStuck_clear env _) (.here (.once (exStuck_send env _ hb)))

/-- The hypotheses of `C85_replies`: a ping that is never answered times out, and the messages heard are none. -/
example (env : Env) (numeric : Char → Bool) (cast : Block → Block → Out Block) :
    ∃ xs wc, HearsOn env (exStuck [.wrote 1]) xs ∧ askW numeric cast ⟨some ⟨xs, fun _ => [], false, []⟩, sampleCtx, .attached⟩ wc .ping =
      some (.failed .timeout, ⟨none, sampleCtx, .attached⟩) := by
  obtain ⟨log', -, h⟩ := C85_replies env numeric cast ⟨some (exStuck [.wrote 1]), sampleCtx, .attached⟩ _ [] .ping (.failed .timeout) []
    (.ping (.timeout rfl (exStuck_ping env)) (.err _)) (.inl rfl) (fun k e => by cases e; exact exStuck_issued env _) nofun trivial
  obtain ⟨xs, wc, h1, -, h2⟩ := h [] (fun _ _ => .stop)
  exact ⟨xs, wc, h1 _ rfl, h2⟩

/-- C85. What is left of an operation that was abandoned while it waited, wherever that was, or that timed out: the handle has the settings
it had and no connection; only a query that was given up while its answer was read leaves the connection, which is marked so that the rest
of the answer is read first. It is bound to its pool as before, unless the connection was being checked. -/
theorem C85_left_behind (env : Env) (numeric : Char → Bool) (cast : Block → Block → Out Block) (h h' : HandleS) (w : WorldS) (a : Wish)
    (r : Option Reply) (ha : AskT env numeric cast h w a r h') (hr : r = none ∨ r = some (.failed .timeout)) (hb : h.binding = .attached) :
    h'.context = h.context ∧
    (∀ k, h'.inner = some k → k.t.inconsistent = true ∧ ∃ q skip n, a = .select q skip n) ∧
    (h'.binding = .attached ∨ h'.binding = .detached ∧ h'.inner = none ∧ h.context.options.pingBeforeQuery = true ∧ a ≠ .ping) := by
  have fin : a ≠ .ping → h'.context = h.context ∧ h'.inner = none ∧ (h'.binding = h.binding ∨
      h.context.options.pingBeforeQuery = true ∧ (h'.binding = .attached ∨ h'.binding = .detached)) → h'.context = h.context ∧
      (∀ k, h'.inner = some k → k.t.inconsistent = true ∧ ∃ q skip n, a = .select q skip n) ∧
      (h'.binding = .attached ∨ h'.binding = .detached ∧ h'.inner = none ∧ h.context.options.pingBeforeQuery = true ∧ a ≠ .ping) := by
    intro hne ⟨h1, h2, h3⟩
    refine ⟨h1, fun k e => (by rw [h2] at e; cases e), ?_⟩
    rcases h3 with h3 | ⟨h3, h4 | h4⟩
    · exact .inl (h3.trans hb)
    · exact .inl h4
    · exact .inr ⟨h4, h2, h3, hne⟩
  have gets : ∀ {x : OpRes Unit}, Gets x r → x = .waits ∨ x = .err .timeout := by
    intro x hg
    cases hg with
    | ok => rcases hr with e | e <;> cases e
    | err e => rcases hr with h | h <;> cases h; exact .inr rfl
    | abandoned => exact .inl rfl
  cases ha with
  | ping hp hg =>
    have hx := gets hg
    refine ⟨pingT_context hp, fun k e => ?_, .inl ((pingT_binding hp).trans hb)⟩
    rw [pingT_none hp (by rcases hx with rfl | rfl <;> nofun)] at e
    cases e
  | execute hx hg => exact fin nofun (checkedT_left hx (gets hg))
  | insert hx hg => exact fin nofun (insertT_left hx (gets hg))
  | select => rcases hr with e | e <;> cases e
  | selectErr ho =>
    cases ho with
    | failed hp =>
      obtain ⟨b, c, d⟩ := precheckT_left hp nofun nofun
      exact fin nofun ⟨precheckT_context hp, c, .inr ⟨b, d⟩⟩
    | gone => rcases hr with e | e <;> cases e
  | checkAbandoned ho _ =>
    cases ho with
    | abandoned hp =>
      obtain ⟨b, c, d⟩ := precheckT_left hp nofun nofun
      exact fin nofun ⟨precheckT_context hp, c, .inr ⟨b, d⟩⟩
  | nextAbandoned ho hrun hw hd _ =>
    obtain ⟨h1, k, h2, h3⟩ := drop_waits hw hd
    refine ⟨by rw [drop_context hd, run_context hrun, openT_context ho], fun k' e => ?_, .inl h1⟩
    rw [h2] at e
    cases e
    exact ⟨h3, _, _, _, rfl⟩

/-- A statement abandoned before its command was taken by the socket. -/
theorem exStuck_abandoned (env : Env) (numeric : Char → Bool) (cast : Block → Block → Out Block) (q : Query) :
    AskT env numeric cast ⟨some (exStuck []), uncheckedCtx, .attached⟩ [] (.execute q) none ⟨none, uncheckedCtx, .attached⟩ :=
  .execute (.abandoned (.off rfl) rfl (exStuck_execute env q _)) .abandoned

/-- The same statement, whose check of the connection times out or is abandoned. -/
theorem exStuck_checking (env : Env) (numeric : Char → Bool) (cast : Block → Block → Out Block) (q : Query) (r : Option Reply)
    (hr : r = none ∨ r = some (.failed .timeout)) :
    AskT env numeric cast ⟨some (exStuck [.wrote 1]), sampleCtx, .attached⟩ [] (.execute q) r ⟨none, sampleCtx, .detached⟩ := by
  have hp : PrecheckT env ⟨some (exStuck [.wrote 1]), sampleCtx, .attached⟩ [] .waits ⟨none, sampleCtx, .detached⟩ [] :=
    .failed (b := .detached) rfl rfl nofun (.pinging (.abandoned (h := ⟨some (exStuck [.wrote 1]), sampleCtx, .detached⟩) rfl (exStuck_ping env)))
  rcases hr with rfl | rfl
  · exact .execute (.failed hp nofun) .abandoned
  · exact .execute (.checkTimeout hp) (.err _)

/-- The hypotheses of `C85_left_behind`, for both cases of the binding. -/
example (env : Env) (numeric : Char → Bool) (cast : Block → Block → Out Block) (q : Query) :
    (∃ h', AskT env numeric cast ⟨some (exStuck []), uncheckedCtx, .attached⟩ [] (.execute q) none h' ∧ h'.binding = .attached) ∧
    (∃ h', AskT env numeric cast ⟨some (exStuck [.wrote 1]), sampleCtx, .attached⟩ [] (.execute q) none h' ∧ h'.binding = .detached) :=
  ⟨⟨_, exStuck_abandoned env numeric cast q, rfl⟩, ⟨_, exStuck_checking env numeric cast q none (.inl rfl), rfl⟩⟩

/-- C85. What the socket has taken when a ping, a statement or an INSERT is abandoned is the beginning of the bytes of the commands given
before and of its own: the one that ends an abandoned answer, if there was one, and then those of the operation, in order, each once. -/
theorem C85_sent_ping (env : Env) (k : Sock) (log : List Cmd) (o : Bytes) (h : Issued env k log) (hc : PingCut env k o) :
    o <+: cmdBytes env.codec (log ++ cancelFirst k ++ [.ping]) := ping_taken h hc

theorem C85_sent_execute (env : Env) (k : Sock) (log : List Cmd) (q : Query) (ctx : Context) (o : Bytes) (h : Issued env k log)
    (hc : ExecuteCut env k q ctx o) : o <+: cmdBytes env.codec (log ++ cancelFirst k ++ [.sendQuery q ctx]) := execute_taken h hc

theorem C85_sent_insert (env : Env) (cast : Block → Block → Out Block) (k : Sock) (log : List Cmd) (ctx : Context) (q t : Query) (b : Block)
    (o : Bytes) (h : Issued env k log) (hb : DataEncodes env cast ctx (.insert t b)) (hc : InsertCut env cast k q ctx b o) :
    o <+: cmdBytes env.codec (log ++ cancelFirst k ++ [.sendQuery q ctx]) ∨
    ∃ d b' chs, cast b d = .ok b' ∧ insertChunks b' = .ok chs ∧ o <+: cmdBytes env.codec (log ++ cancelFirst k ++
      chs.flatMap fun ch => [.sendQuery q ctx, .union (.sendData ch ctx) (.sendData Block.new ctx)]) := insert_taken h hb hc

/-- The hypotheses of `C85_sent_ping`, `C85_sent_execute` and `C85_sent_insert`. -/
example (env : Env) (q : Query) (ctx : Context) (b : Block) : Issued env (exStuck [.wrote 1]) [] ∧ PingCut env (exStuck [.wrote 1]) [4] ∧
    Issued env (exStuck []) [] ∧ ExecuteCut env (exStuck []) q ctx [] ∧
    InsertCut env (fun _ _ => .err (.other "")) (exStuck []) q ctx b [] ∧ DataEncodes env (fun _ _ => .err (.other "")) ctx (.insert q b) := by
  refine ⟨exStuck_issued env _, exStuck_ping env, exStuck_issued env _, exStuck_execute env q ctx, ?_, nofun⟩
  obtain ⟨x, hx⟩ := query_encodes env q ctx
  refine .second (exStuck_clear env _) (.first (.here (.once (out := []) (s' := ⟨some { (exStuck []).t with wr := x }, .ask, true⟩) (left := []) (wleft := []) ?_)))
  simp [PStream.pollNext, Transport.call, exStuck, Transport.new, Transport.send, Transport.send.flush, hx]

/-- C85. Giving up awaiting a block and awaiting it again later is as if it had been awaited all the time: no block is lost, none comes
twice, and no error is lost. -/
theorem C85_resumed (env : Env) (s s1 s' : BStreamS) (h h' : HandleS) (it : BItem) (hw : NextWaits env s s1) :
    NextS env s1 h it s' h' ↔ NextS env s h it s' h' := by
  rw [NextS, NextS, (readWaits_state hw.2).1, hw.1]
  exact read_resumed hw.2

/-- The hypothesis of `C85_resumed`. -/
example (env : Env) (q : Query) (ctx : Context) : ∃ s1, NextWaits env ⟨(exStuck []).t.call (.sendQuery q ctx), [], ⟨[], []⟩, .reading, 0, true⟩ s1 := by
  obtain ⟨b, hb⟩ := query_encodes env q ctx
  exact ⟨_, rfl, .here (.once (exStuck_send env _ hb))⟩

/-- C85. After an operation that was abandoned or timed out, other than in the check of its connection, everything goes on with a new
connection: from whatever state the statements so far have left the database in, what is asked next and all that follows gets the
replies of the database. (A query given up while its answer was read leaves its connection; C60 and C46 are about those.)
Missing: operations abandoned in the check, see `C85_check_violated`. -/
theorem C85_goes_on_partial {σ : Type} (env : Env) (numeric : Char → Bool) (cast : Block → Block → Out Block) (h h' : HandleS) (w : WorldS)
    (a : Wish) (r : Option Reply) (ha : AskT env numeric cast h w a r h') (hr : r = none ∨ r = some (.failed .timeout))
    (hb : h.binding = .attached) (hn : h'.binding = .attached) (hs : (∃ q skip n, a = .select q skip n) → h'.inner = none)
    (db : Shaky σ) (s : σ) (l : List Event) (hp : h.context.options.pingBeforeQuery = true) (hm : 0 < h.context.options.sendRetries)
    (hl : Liveable db numeric cast h.context.options.sendRetries s l) :
    ∃ rs h'' s', live numeric cast (heardHandle h' [] []) l = some (rs, h'') ∧ Outcomes db numeric cast s l s' rs := by
  obtain ⟨h1, h2, -⟩ := C85_left_behind env numeric cast h h' w a r ha hr hb
  have hi : h'.inner = none := by
    cases hk : h'.inner with
    | none => rfl
    | some k =>
      rw [hs (h2 k hk).2] at hk
      cases hk
  exact live_ready l (h := heardHandle h' [] []) (db := db) ⟨h1, hn, .inl (by simp [heardHandle, hi])⟩ hp hm hl

/-- A ping that is abandoned, and then all of `exEvents`. -/
example (env : Env) : ∃ rs h'' s', live (fun c => c.isDigit) (fun b _ => .ok b) ⟨none, sampleCtx, .attached⟩ exEvents = some (rs, h'') ∧
    Outcomes exShaky (fun c => c.isDigit) (fun b _ => .ok b) 0 exEvents s' rs :=
  C85_goes_on_partial env (fun c => c.isDigit) (fun b _ => .ok b) ⟨some (exStuck [.wrote 1]), sampleCtx, .attached⟩ ⟨none, sampleCtx, .attached⟩
    [] .ping none (.ping (.abandoned rfl (exStuck_ping env)) .abandoned) (.inl rfl) rfl rfl nofun exShaky 0 exEvents rfl (by decide)
    (exEvents_liveable (by decide))

/-- A handle with a detached binding: the next check panics, and so every operation but a ping. -/
theorem detached_panics {env : Env} {P : Sock → Context → OpRes Sock → Prop} {C : Sock → Context → Bytes → Prop} {h : HandleS}
    (hb : h.binding = .detached) (hp : h.context.options.pingBeforeQuery = true) (w w' : WorldS) (r : OpRes Unit) (h' : HandleS) :
    CheckedT env P C h w r h' w' ↔ r = .panic ∧ h' = { h with binding := .none } ∧ w' = w := by
  have hd : h.binding.detach = none := by rw [hb]; rfl
  have pre : ∀ {r h' w'}, PrecheckT env h w r h' w' → r = .panic ∧ h' = { h with binding := .none } ∧ w' = w := by
    intro r h' w' hx
    cases hx with
    | off hp' => rw [hp] at hp'; cases hp'
    | unbound => exact ⟨rfl, rfl, rfl⟩
    | ok _ hb' => rw [hd] at hb'; cases hb'
    | failed _ hb' => rw [hd] at hb'; cases hb'
  constructor
  · intro hx
    cases hx with
    | failed hp' => exact pre hp'
    | checkTimeout hp' => cases (pre hp').1
    | gone hp' => cases (pre hp').1
    | done hp' => cases (pre hp').1
    | timeout hp' => cases (pre hp').1
    | abandoned hp' => cases (pre hp').1
  · rintro ⟨rfl, rfl, rfl⟩
    exact .failed (.unbound hp hd) nofun

/-- C85 fails for the check: a statement whose time is over while the connection is checked (or that is abandoned then) leaves a handle on
which the next statement panics, whatever the sockets do. -/
theorem C85_check_violated (env : Env) (numeric : Char → Bool) (cast : Block → Block → Out Block) : ∃ (h h' : HandleS) (q : Query),
    h.binding = .attached ∧ Issued env (exStuck [.wrote 1]) [] ∧ h.inner = some (exStuck [.wrote 1]) ∧
    AskT env numeric cast h [] (.execute q) (some (.failed .timeout)) h' ∧ AskT env numeric cast h [] (.execute q) none h' ∧
    ∀ q' w, (∃ r h'' w', h'.executeT env q' w r h'' w') ∧ ∀ r h'' w', h'.executeT env q' w r h'' w' → r = .panic :=
  ⟨_, _, ⟨"SELECT 1", ""⟩, rfl, exStuck_issued env _, rfl, exStuck_checking env numeric cast _ _ (.inr rfl),
    exStuck_checking env numeric cast _ _ (.inl rfl), fun _ w =>
      ⟨⟨_, _, _, (detached_panics rfl rfl w w .panic _).mpr ⟨rfl, rfl, rfl⟩⟩, fun _ _ _ hx => ((detached_panics rfl rfl _ _ _ _).mp hx).1⟩⟩

end CH.Props
