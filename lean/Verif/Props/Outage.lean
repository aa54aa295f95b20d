import Verif.Lemmas.Answered
import Verif.Props.Socket
import Verif.Props.Verdict

/-!
C84: operations over a socket that may fail or end at any time.
-/

namespace CH.Props
open CH CH.Spec CH.Socket CH.Outage

/-- C84. What a client can hear of a socket: the packets heard are the first that the delivered bytes decode to, in order and each
once; besides them and the messages that could not be decoded there are only failures, at most as many as the socket has, and
closings, only if the connection ends. -/
theorem C84_heard (env : Env) (ends : Prop) (n : Nat) (i : TransportInfo) (bs : Bytes) (xs : List Inc) (h : Hears env ends n i bs xs) :
    ∃ ds j rest, Decodes env i bs ds j rest ∧ packetsHeard xs = packetsHeard (ds.map incOf) ∧ (ds.map incOf).Sublist xs ∧
      xs.length ≤ ds.length + n + xs.countP (fun x => match x with | .closed => true | _ => false) ∧ (Inc.closed ∈ xs → ends) := by
  induction h with
  | stop => exact ⟨[], _, _, .done, rfl, .slnil, by simp, by simp⟩
  | @packet n i j bs rest p xs h hk _ ih =>
    obtain ⟨ds, j', r', h1, h2, h3, h4, h5⟩ := ih
    refine ⟨.inl p :: ds, j', r', .packet h hk h1, by simp [packetsHeard, incOf, h2], h3.cons₂ _, ?_, by simpa using h5⟩
    simp only [List.length_cons, List.countP_cons]
    omega
  | @error n i bs rest e xs h _ ih =>
    obtain ⟨ds, j', r', h1, h2, h3, h4, h5⟩ := ih
    refine ⟨.inr e :: ds, j', r', .error h h1, by simp [packetsHeard, incOf, h2], h3.cons₂ _, ?_, by simpa using h5⟩
    simp only [List.length_cons, List.countP_cons]
    omega
  | failure e _ ih =>
    obtain ⟨ds, j', r', h1, h2, h3, h4, h5⟩ := ih
    refine ⟨ds, j', r', h1, by simp [packetsHeard, h2], h3.cons _, ?_, by simpa using h5⟩
    simp only [List.length_cons, List.countP_cons]
    omega
  | closed he _ ih =>
    obtain ⟨ds, j', r', h1, h2, h3, h4, h5⟩ := ih
    refine ⟨ds, j', r', h1, by simp [packetsHeard, h2], h3.cons _, ?_, fun _ => he⟩
    simp only [List.length_cons, List.countP_cons, if_true]
    omega

/-- A pong, a failure and the end of the connection heard on two bytes of which one is a message. -/
example (env : Env) (i : TransportInfo) : Hears env True 1 i [4, 5] [.packet .pong, .error .overflow, .closed] :=
  .packet (pong_parse env i [5]) (.other (by simp)) (.failure _ (.closed trivial .stop))

/-- C84. One operation over a socket that may deliver anything, fail and end at any time, with whatever it takes to reconnect: any result it
comes to is the result of the operation on decoded messages that may be heard of the socket, and what may be heard afterwards of the
connection left behind is what that operation leaves. What the sockets have taken and what is still to be sent are the commands of that
operation. -/
theorem C84_operation (env : Env) (numeric : Char → Bool) (cast : Block → Block → Out Block) (h h' : HandleS) (w : WorldS) (a : Wish)
    (r : Reply) (log : List Cmd) (ha : AskS env numeric cast h w a r h') (hi : IssuedIn env h log) (hw : IssuedWorld env w)
    (he : DataEncodes env cast h.context a) :
    ∃ log', IssuedIn env h' log' ∧ ∀ ys, HearsIn env h' ys → ∃ xs wc, HearsIn env h xs ∧ HearsWorld env w wc ∧
      askW numeric cast (heardHandle h log xs) wc a = some (r, heardHandle h' log' ys) :=
  ask_sim ha hi hw he

/-- A connection that breaks when the answer to a ping has just come. -/
def exDown : Sock := ⟨Transport.new false, [.ready [4], .fail], ⟨[.wrote 1], []⟩⟩

theorem exDown_issued (env : Env) : Issued env exDown [] :=
  ⟨fun d hd => absurd (show d ∈ [] from hd) List.not_mem_nil, rfl⟩

theorem exDown_poll (env : Env) : ((exDown.t.call .ping).pollNext env exDown.revs exDown.writer.evs) =
    (.broken, [4], ⟨some { exDown.t with rd := [4] }, .receive, false⟩, [], []) := by
  have h1 : Cmd.encode env.codec .ping = .ok [4] := by simp [Cmd.encode, encodePing, putUvarint]
  have h2 : fillLoop [.ready [4], .fail] [] = (.broken, [4], []) := by
    rw [fillLoop]
    simp [readToEnd]
  simp [PStream.pollNext, Transport.call, exDown, Transport.new, Transport.send, Transport.send.flush, h1, PStream.receive,
    Transport.pollNext, Transport.fillAndParse, h2]

/-- The ping fails, though its answer has come. -/
theorem exDown_ping (env : Env) (numeric : Char → Bool) (cast : Block → Block → Out Block) :
    AskS env numeric cast ⟨some exDown, sampleCtx, .attached⟩ [] .ping (.failed .io) ⟨none, sampleCtx, .attached⟩ :=
  .pingErr (.err (.ok (a := exDown) (by simp [ClearS, exDown, Transport.new]) (.failed (.brokenStop .overflow (.ready (exDown_poll env) nofun) rfl))))

/-- The hypotheses of `C84_operation`: a ping that fails is one on which a failure is heard. -/
example (env : Env) (numeric : Char → Bool) (cast : Block → Block → Out Block) :
    ∃ xs wc, HearsOn env exDown xs ∧
      askW numeric cast ⟨some ⟨xs, fun _ => [], false, []⟩, sampleCtx, .attached⟩ wc .ping = some (.failed .io, ⟨none, sampleCtx, .attached⟩) := by
  obtain ⟨log', -, h⟩ := C84_operation env numeric cast _ _ _ _ _ [] (exDown_ping env numeric cast) (fun k e => by cases e; exact exDown_issued env)
    nofun trivial
  obtain ⟨xs, wc, h1, -, h2⟩ := h [] (fun _ _ => .stop)
  exact ⟨xs, wc, h1 _ rfl, h2⟩

/-- C84. The same for any number of things asked in turn: what is heard by all of them together is, on each connection, one reading of
what its socket delivers. -/
theorem C84_sequence (env : Env) (numeric : Char → Bool) (cast : Block → Block → Out Block) (h h' : HandleS) (l : List (Wish × WorldS))
    (rs : List Reply) (log : List Cmd) (ha : AskEachS env numeric cast h l rs h') (hi : IssuedIn env h log)
    (hw : ∀ x ∈ l, IssuedWorld env x.2 ∧ DataEncodes env cast h.context x.1) :
    ∃ log' xs es, IssuedIn env h' log' ∧ HearsIn env h xs ∧ HearsEvents env l es ∧
      live numeric cast (heardHandle h log xs) es = some (rs, heardHandle h' log' []) := by
  obtain ⟨log', hi', hf⟩ := each_sim ha hi hw
  obtain ⟨xs, es, hx, he, e⟩ := hf [] (fun _ _ => .stop)
  exact ⟨log', xs, es, hi', hx, he, e⟩

/-- The hypotheses of `C84_sequence`: a ping that fails, then one on a handle that has lost its connection. -/
example (env : Env) (numeric : Char → Bool) (cast : Block → Block → Out Block) :
    ∃ h', AskEachS env numeric cast ⟨some exDown, sampleCtx, .attached⟩ [(.ping, []), (.ping, [])] [.failed .io, .failed .broken] h' ∧
      ∃ xs es, HearsOn env exDown xs ∧ live numeric cast ⟨some ⟨xs, fun _ => [], false, []⟩, sampleCtx, .attached⟩ es =
        some ([.failed .io, .failed .broken], ⟨none, sampleCtx, .attached⟩) := by
  have h2 : AskS env numeric cast ⟨none, sampleCtx, .attached⟩ [] .ping (.failed .broken) ⟨none, sampleCtx, .attached⟩ :=
    .pingErr ⟨rfl, rfl⟩
  have h : AskEachS env numeric cast ⟨some exDown, sampleCtx, .attached⟩ [(.ping, []), (.ping, [])] [.failed .io, .failed .broken]
      ⟨none, sampleCtx, .attached⟩ := .cons (exDown_ping env numeric cast) (.cons h2 .nil)
  obtain ⟨log', xs, es, -, h3, -, h4⟩ := C84_sequence env numeric cast _ _ _ _ [] h (fun k e => by cases e; exact exDown_issued env) (by
    intro x hx
    simp only [List.mem_cons, List.not_mem_nil, or_false, or_self] at hx
    subst hx
    exact ⟨nofun, trivial⟩)
  exact ⟨_, h, xs, es, h3 _ rfl, h4⟩

/-- A connection on which only the end of an answer comes, after a pause; the socket takes one byte at a time, `n` times. -/
def exEnd (n : Nat) : Sock := ⟨Transport.new false, [.pending, .ready [5]], ⟨List.replicate n (.wrote 1), []⟩⟩

theorem exEnd_issued (env : Env) (n : Nat) : Issued env (exEnd n) [] :=
  ⟨fun d hd => absurd (show d ∈ [] from hd) List.not_mem_nil, rfl⟩

/-- Whatever a client on the decoded messages succeeds with, it succeeds with over `exEnd`, if the socket takes enough. -/
theorem exEnd_asks (env : Env) (numeric : Char → Bool) (cast : Block → Block → Out Block) {a : Wish} {o : List BItem} {c' : Conn}
    (h : ask numeric cast ⟨some ⟨[.packet .eof], fun _ => [], false, []⟩, uncheckedCtx, .attached⟩ a = some (o, ⟨some c', uncheckedCtx, .attached⟩))
    (hw : BItem.waits ∉ o) (he : DataEncodes env cast uncheckedCtx a) :
    ∃ n h', AskS env numeric cast ⟨some (exEnd n), uncheckedCtx, .attached⟩ [] a (.items o) h' := by
  obtain ⟨n, hf⟩ := Progress.ask_progress (env := env) h hw he 0
  have ha : ∀ n, accepts (List.replicate n (.wrote 1)) = n := by
    intro n
    induction n with
    | zero => rfl
    | succ n ih => rw [List.replicate_succ, accepts, ih]
  have hc : IsConn env (exEnd (n + 1)) ⟨[.packet .eof], fun _ => [], false, []⟩ :=
    { carries := ⟨rfl, rfl, [.inl .eof], _, [], rfl, .packet (eof_parse env _) (.other (by simp)) .done, parsePacket_nil _ _⟩
      encodable := (exEnd_issued env _).encodable
      mute := fun _ => rfl
      reads := by
        intro e he
        simp only [exEnd, List.mem_cons, List.not_mem_nil, or_false] at he
        rcases he with rfl | rfl
        · exact .inl rfl
        · exact .inr ⟨[5], by simp, rfl⟩
      writes := by
        intro e he
        rw [List.eq_of_mem_replicate (show e ∈ List.replicate (n + 1) (.wrote 1) from he)]
        exact nofun
      written := rfl }
  obtain ⟨k', g, -⟩ := hf (exEnd (n + 1)) ⟨hc, by
    rw [show (exEnd (n + 1)).writer.evs = List.replicate (n + 1) (.wrote 1) from rfl, ha]
    show n + 0 < n + 1
    omega⟩
  exact ⟨n + 1, _, g⟩

/-- C84. A statement over a socket that may fail or end at any time is reported as executed only if the bytes delivered have the end
of its answer, with nothing but its progress, profile and data before it: no failure of the socket is taken for success. -/
theorem C84_executed (env : Env) (numeric : Char → Bool) (cast : Block → Block → Out Block) (k : Sock) (ctx : Context) (b : Binding)
    (w : WorldS) (q : Query) (h' : HandleS) (log : List Cmd) (hi : Issued env k log) (hc : k.t.inconsistent = false)
    (hp : ctx.options.pingBeforeQuery = false) (ha : AskS env numeric cast ⟨some k, ctx, b⟩ w (.execute q) (.items []) h') :
    ∃ ps j rest, (∀ p ∈ ps, ExecuteSkips p) ∧
      Decodes env k.t.info (k.t.rd ++ received k.revs) ((ps ++ [.eof]).map .inl) j rest := by
  cases ha with
  | execute hx =>
    cases hx with
    | failed _ hn => exact absurd rfl hn
    | done hpc hin hd =>
      cases hpc with
      | ok hp' => simp only at hp'; rw [hp] at hp'; cases hp'
      | failed _ _ hn => exact absurd rfl hn
      | off =>
        cases hin
        cases hd with
        | ok hr =>
          obtain ⟨lg', -, hf⟩ := execute_sim hi hr
          obtain ⟨xs, hx, e⟩ := hf [] .stop
          obtain ⟨v, hv⟩ := C71_total ExecuteSkips IsEnd ((heardConn k log xs).incoming ++
            (heardConn k log xs).server ((heardConn k log xs).sent ++ [.sendQuery q ctx]))
          have e : (heardConn k log xs).execute q ctx = _ := e
          rw [C71_execute _ q ctx v hc hv] at e
          cases v with
          | finished p rest =>
            obtain ⟨ps, h1, h2, h3⟩ := judged_finished hv rfl
            cases h3
            rw [show (heardConn k log xs).incoming ++ (heardConn k log xs).server _ = xs from List.append_nil xs] at h1
            rw [h1] at hx
            obtain ⟨j, rest', hd⟩ := hears_packets hx
            exact ⟨ps, j, rest', h2, hd⟩
          | _ => cases e

/-- The hypotheses of `C84_executed`. -/
example (env : Env) (numeric : Char → Bool) (cast : Block → Block → Out Block) :
    ∃ n h', AskS env numeric cast ⟨some (exEnd n), uncheckedCtx, .attached⟩ [] (.execute ⟨"DROP", ""⟩) (.items []) h' ∧
      Issued env (exEnd n) [] ∧ (exEnd n).t.inconsistent = false ∧ uncheckedCtx.options.pingBeforeQuery = false := by
  have hx : Conn.execute ⟨[.packet .eof], fun _ => [], false, []⟩ ⟨"DROP", ""⟩ uncheckedCtx =
      .ok ⟨[], fun _ => [], false, [.sendQuery ⟨"DROP", ""⟩ uncheckedCtx]⟩ :=
    C71_execute ⟨[.packet .eof], fun _ => [], false, []⟩ _ _ (.finished .eof []) rfl (.finished .eof)
  obtain ⟨n, h', g⟩ := exEnd_asks env numeric cast (a := .execute ⟨"DROP", ""⟩) (o := []) (by
    simp [ask, Handle.execute, Handle.precheck, uncheckedCtx]
    rw [show (⟨54213, "localhost", { Options.default with pingBeforeQuery := false }⟩ : Context) = uncheckedCtx from rfl, hx]) (by simp) trivial
  exact ⟨n, h', g, exEnd_issued env n, rfl, rfl⟩

/-- C84. A ping over such a socket succeeds only if the bytes delivered begin with the answer to it. -/
theorem C84_answered (env : Env) (numeric : Char → Bool) (cast : Block → Block → Out Block) (k : Sock) (ctx : Context) (b : Binding)
    (w : WorldS) (h' : HandleS) (log : List Cmd) (hi : Issued env k log) (hc : k.t.inconsistent = false)
    (ha : AskS env numeric cast ⟨some k, ctx, b⟩ w .ping (.items []) h') :
    ∃ rest, parsePacket env k.t.info (k.t.rd ++ received k.revs) = .ok .pong rest := by
  cases ha with
  | ping hp =>
    obtain ⟨lg', -, hf⟩ := ping_sim (lg := log) (fun k' e => by cases e; exact hi) hp
    obtain ⟨xs, hx, e⟩ := hf [] (fun _ _ => .stop)
    obtain ⟨v, hv⟩ := C71_total NoSkips IsPong ((heardConn k log xs).incoming ++
      (heardConn k log xs).server ((heardConn k log xs).sent ++ [.ping]))
    rw [show heardHandle ⟨some k, ctx, b⟩ log xs = ⟨some (heardConn k log xs), ctx, b⟩ from rfl, C71_ping _ ctx b v hc hv] at e
    cases v with
    | finished p rest =>
      obtain ⟨ps, h1, h2, h3⟩ := judged_finished hv rfl
      cases h3
      rw [show (heardConn k log xs).incoming ++ (heardConn k log xs).server _ = xs from List.append_nil xs] at h1
      cases ps with
      | cons p _ => exact (h2 p List.mem_cons_self).elim
      | nil =>
        have := hx k rfl
        rw [h1] at this
        obtain ⟨j, rest', hd⟩ := hears_packets (ps := [.pong]) this
        exact ⟨rest', (decodes_packet hd).1⟩
    | _ => cases e

/-- The hypotheses of `C84_answered`. -/
example (env : Env) (numeric : Char → Bool) (cast : Block → Block → Out Block) :
    ∃ n k, AskS env numeric cast ⟨some (exSock n), sampleCtx, .attached⟩ [] .ping (.items []) ⟨some k, sampleCtx, .attached⟩ ∧
      Issued env (exSock n) [] ∧ (exSock n).t.inconsistent = false := by
  obtain ⟨n, hc, h, k, ha⟩ := exSock_ping env numeric cast
  exact ⟨n, k, ha, ⟨fun d hd => absurd (show d ∈ [] from hd) List.not_mem_nil, rfl⟩, rfl⟩

/-- C84. A query over such a socket gives the blocks `bs` and then ends only if the bytes delivered have a whole answer, with an end,
and `bs` are all of its result: no result is cut short by a failure without an error. -/
theorem C84_selected (env : Env) (numeric : Char → Bool) (cast : Block → Block → Out Block) (k : Sock) (ctx : Context) (b : Binding)
    (w : WorldS) (q : Query) (skip : Bool) (bs : List Block) (h' : HandleS) (log : List Cmd) (hi : Issued env k log)
    (hp : ctx.options.pingBeforeQuery = false)
    (ha : AskS env numeric cast ⟨some k, ctx, b⟩ w (.select q skip (bs.length + 1)) (.items (bs.map .block ++ [.ended])) h') :
    ∃ ps j rest, (∀ p ∈ ps, Middle (.packet p)) ∧ bs = resultBlocks skip (ps.map .packet) ∧
      Decodes env k.t.info (k.t.rd ++ received k.revs) ((ps ++ [.eof]).map .inl) j rest := by
  cases ha with
  | select ho hr hd =>
    cases ho with
    | @opened h1 _ bd k1 hpc hb hin =>
      cases hpc with
      | ok hp' => simp only at hp'; rw [hp] at hp'; cases hp'
      | failed _ _ hn => exact absurd rfl hn
      | off =>
        cases hin
        have hib : IssuedB env ⟨k.t.call (.sendQuery q ctx), k.revs, k.writer, .reading, 0, skip⟩ ⟨none, ctx, bd⟩
            (log ++ [.sendQuery q ctx]) := ⟨call_issued hi (query_encodes env q _), nofun, nofun⟩
        obtain ⟨-, hf⟩ := run_sim hr hib
        obtain ⟨xs, hx, hn⟩ := hf [] ⟨fun _ _ => .stop, fun _ _ => .stop⟩
        obtain ⟨b', -, e⟩ := hn ⟨(heardConn k log xs).call (.sendQuery q ctx), .reading, 0, skip⟩
          ⟨call_like k log (.sendQuery q ctx) xs, rfl, rfl, rfl⟩
        obtain ⟨body, rest, h1, h2, h3⟩ := C45_ends_only_at_eof (c := { heardConn k log xs with incoming := xs ++ [], sent := log ++ [.sendQuery q ctx] })
          (h := ⟨none, ctx, bd⟩) (skip := skip) (bs := bs) (congrArg (·.1) e)
        obtain ⟨ps, rfl⟩ := middle_packets body h2
        have hk := call_hears hx.stream
        simp only [List.append_nil] at h1
        rw [h1, show ps.map Inc.packet ++ .packet .eof :: rest = (ps ++ [Packet.eof]).map .packet ++ rest by simp] at hk
        obtain ⟨j, rest', hd⟩ := hears_packets hk
        exact ⟨ps, j, rest', fun p hp => h2 _ (List.mem_map_of_mem hp), h3, hd⟩

/-- The hypotheses of `C84_selected`: an answer with nothing but its end. -/
example (env : Env) (numeric : Char → Bool) (cast : Block → Block → Out Block) :
    ∃ n h', AskS env numeric cast ⟨some (exEnd n), uncheckedCtx, .attached⟩ [] (.select ⟨"SELECT", ""⟩ false 1) (.items [.ended]) h' ∧
      Issued env (exEnd n) [] ∧ uncheckedCtx.options.pingBeforeQuery = false := by
  have hr : run 1 (BStream.new ⟨some ⟨[.packet .eof], fun _ => [], false, [.sendQuery ⟨"SELECT", ""⟩ uncheckedCtx]⟩, false, false⟩ false)
      ⟨none, uncheckedCtx, .detached⟩ = ([.ended], ⟨⟨none, false, false⟩, .finished, 0, false⟩,
        ⟨some ⟨[], fun _ => [], false, [.sendQuery ⟨"SELECT", ""⟩ uncheckedCtx]⟩, uncheckedCtx, .attached⟩) := by
    rw [run, BStream.next]
    simp only [BStream.new]
    rw [read_eof (next_taken rfl rfl)]
    rfl
  obtain ⟨n, h', g⟩ := exEnd_asks env numeric cast (a := .select ⟨"SELECT", ""⟩ false 1) (o := [.ended])
    (c' := ⟨[], fun _ => [], false, [.sendQuery ⟨"SELECT", ""⟩ uncheckedCtx]⟩) (by
      have ho : (Handle.mk (some ⟨[.packet .eof], fun _ => [], false, []⟩) uncheckedCtx .attached).openStream ⟨"SELECT", ""⟩ false [] =
        (.ok (BStream.new ⟨some ⟨[.packet .eof], fun _ => [], false, [.sendQuery ⟨"SELECT", ""⟩ uncheckedCtx]⟩, false, false⟩ false),
          ⟨none, uncheckedCtx, .detached⟩, []) := rfl
      simp only [ask, ho, hr, BStream.drop]
      rfl) (by simp) trivial
  exact ⟨n, h', g, exEnd_issued env n, rfl⟩

end CH.Props
