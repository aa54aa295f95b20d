import Verif.Lemmas.Answered
import Verif.Props.Outage

/-!
C84, continued: what a socket that may fail or end at any time has delivered when an operation with the check beforehand, or an
INSERT, is reported as done.
-/

namespace CH.Props
open CH CH.Spec CH.Socket CH.Outage

/-- A connection on which, after a pause, `bs` come; the socket takes one byte at a time, `n` times. -/
def exOn (bs : Bytes) (n : Nat) : Sock :=
  ⟨{ Transport.new false with info := sampleInfo }, [.pending, .ready bs], ⟨List.replicate n (.wrote 1), []⟩⟩

theorem exOn_issued (bs : Bytes) (n : Nat) : Issued sampleEnv (exOn bs n) [] :=
  ⟨fun d hd => absurd (show d ∈ [] from hd) List.not_mem_nil, rfl⟩

/-- What a client on the decoded messages succeeds with, it succeeds with over `exOn`, if the socket takes enough. -/
theorem exOn_asks {numeric : Char → Bool} {cast : Block → Block → Out Block} {ctx : Context} {bs : Bytes} {ps : List Packet}
    (hb : bs ≠ []) (hd : Decodes sampleEnv sampleInfo bs (ps.map .inl) sampleInfo []) {a : Wish} {o : List BItem} {c' : Conn}
    (h : ask numeric cast ⟨some ⟨ps.map .packet, fun _ => [], false, []⟩, ctx, .attached⟩ a = some (o, ⟨some c', ctx, .attached⟩))
    (hw : BItem.waits ∉ o) (he : DataEncodes sampleEnv cast ctx a) :
    ∃ n h', AskS sampleEnv numeric cast ⟨some (exOn bs n), ctx, .attached⟩ [] a (.items o) h' := by
  obtain ⟨n, hf⟩ := Progress.ask_progress (env := sampleEnv) h hw he 0
  have ha : ∀ n, accepts (List.replicate n (.wrote 1)) = n := by
    intro n
    induction n with
    | zero => rfl
    | succ n ih => rw [List.replicate_succ, accepts, ih]
  have hc : IsConn sampleEnv (exOn bs (n + 1)) ⟨ps.map .packet, fun _ => [], false, []⟩ :=
    { carries := ⟨rfl, rfl, ps.map .inl, _, [], by
        simp only [List.map_map]
        exact List.map_congr_left fun _ _ => rfl, by simpa [exOn, received, Transport.new] using hd, parsePacket_nil _ _⟩
      encodable := (exOn_issued bs _).encodable
      mute := fun _ => rfl
      reads := by
        intro e he
        simp only [exOn, List.mem_cons, List.not_mem_nil, or_false] at he
        rcases he with rfl | rfl
        · exact .inl rfl
        · exact .inr ⟨bs, hb, rfl⟩
      writes := by
        intro e he
        rw [List.eq_of_mem_replicate (show e ∈ List.replicate (n + 1) (.wrote 1) from he)]
        exact nofun
      written := rfl }
  obtain ⟨k', g, -⟩ := hf (exOn bs (n + 1)) ⟨hc, by
    rw [show (exOn bs (n + 1)).writer.evs = List.replicate (n + 1) (.wrote 1) from rfl, ha]
    show n + 0 < n + 1
    omega⟩
  exact ⟨n + 1, _, g⟩

/-- The check beforehand on a connection on which the answer to a ping comes first. -/
theorem exOn_precheck (ms : List Inc) : (Handle.mk (some ⟨.packet .pong :: ms, fun _ => [], false, []⟩) sampleCtx .attached).precheck [] =
    (.ok (), ⟨some ⟨ms, fun _ => [], false, [.ping]⟩, sampleCtx, .attached⟩, []) := by
  have hp : pingC ⟨.packet .pong :: ms, fun _ => [], false, []⟩ = .ok ⟨ms, fun _ => [], false, [.ping]⟩ := by
    have h1 : Conn.clear ⟨.packet .pong :: ms, fun _ => [], false, []⟩ = .ok ⟨.packet .pong :: ms, fun _ => [], false, []⟩ := rfl
    simp only [pingC, h1, andThen, Conn.call, List.nil_append, List.append_nil]
    rw [loop_item (next_taken (rest := ms) rfl rfl)]
    simp only [pingBody]
    rw [loop_ended next_none]
    rfl
  have hr : ∀ b, (Handle.mk (some ⟨.packet .pong :: ms, fun _ => [], false, []⟩) sampleCtx b).ping =
      (.ok (), ⟨some ⟨ms, fun _ => [], false, [.ping]⟩, sampleCtx, b⟩) := fun b => Feed.ping_of hp
  simp only [Handle.precheck, show sampleCtx.options.pingBeforeQuery = true from rfl, if_true, Handle.checkConnection, Binding.detach, retryGuard]
  rw [retryLoop]
  simp [hr]

/-- C84. With the check beforehand, as it is by default: a statement is reported as executed only if some connection, that of the
handle or one that reconnecting gave, has delivered what was left of an abandoned answer, the answer to the ping and the whole answer to
the statement, with nothing else in between. -/
theorem C84_executed_checked (env : Env) (numeric : Char → Bool) (cast : Block → Block → Out Block) (h h' : HandleS) (w : WorldS) (q : Query)
    (log : List Cmd) (hi : IssuedIn env h log) (hw : IssuedWorld env w) (hp : h.context.options.pingBeforeQuery = true)
    (ha : AskS env numeric cast h w (.execute q) (.items []) h') :
    ∃ k ls ps, (h.inner = some k ∨ some k ∈ w) ∧ Cleared k.t.inconsistent ls ∧ WholeExecute ps ∧ Delivers env k (ls ++ [.pong] ++ ps) := by
  cases ha with
  | execute hx =>
    cases hx with
    | failed _ hn => exact absurd rfl hn
    | done hpc hin hd =>
      cases hd with
      | @ok k2 hr =>
        obtain ⟨k, k1, g1, g2, g3⟩ := precheck_used hpc hp
        rw [hin] at g3
        cases g3
        obtain ⟨lg, hk⟩ : ∃ lg, Issued env k lg := g1.elim (fun e => ⟨log, hi k e⟩) (hw k)
        obtain ⟨ls, ps, m1, m2, m3⟩ := checked_heard (P := fun k r => ExecuteS env k q _ r) (F := fun c => c.execute q _) (W := WholeExecute) hk g2 hr
          (fun k lg r hi hr => execute_sim hi hr) (fun c c1 hm hc he => by
            obtain ⟨ls, ps, n1, n2, n3⟩ := execute_heard hm he
            rw [hc] at n1
            cases n1
            exact ⟨ps, n2, n3⟩)
        exact ⟨k, ls, ps, g1, m1, m2, m3⟩

/-- The hypotheses of `C84_executed_checked`. -/
example (numeric : Char → Bool) (cast : Block → Block → Out Block) :
    ∃ n h', AskS sampleEnv numeric cast ⟨some (exOn [4, 5] n), sampleCtx, .attached⟩ [] (.execute ⟨"DROP", ""⟩) (.items []) h' ∧
      IssuedIn sampleEnv ⟨some (exOn [4, 5] n), sampleCtx, .attached⟩ [] ∧ IssuedWorld sampleEnv [] ∧
      sampleCtx.options.pingBeforeQuery = true := by
  have hx : Conn.execute ⟨[.packet .eof], fun _ => [], false, [.ping]⟩ ⟨"DROP", ""⟩ sampleCtx =
      .ok ⟨[], fun _ => [], false, [.ping, .sendQuery ⟨"DROP", ""⟩ sampleCtx]⟩ :=
    C71_execute ⟨[.packet .eof], fun _ => [], false, [.ping]⟩ _ _ (.finished .eof []) rfl (.finished .eof)
  obtain ⟨n, h', g⟩ := exOn_asks (numeric := numeric) (cast := cast) (bs := [4, 5]) (ps := [.pong, .eof]) (a := .execute ⟨"DROP", ""⟩) (o := [])
    (ctx := sampleCtx) (by simp)
    (.packet (pong_parse _ _ [5]) (.other (by simp)) (.packet (eof_parse _ _) (.other (by simp)) .done)) (by
      simp only [ask, Handle.execute, List.map_cons, List.map_nil, exOn_precheck, hx]; rfl) (by simp) trivial
  exact ⟨n, h', g, fun k e => by cases e; exact exOn_issued _ _, nofun, rfl⟩

/-- A header and an end heard on a connection. -/
theorem exOn_insert (d : Block) (ctx : Context) (q : Query) (log : List Cmd) :
    ∃ c', Conn.insert (fun b _ => .ok b) ⟨[.packet (.block d), .packet .eof], fun _ => [], false, log⟩ q ctx sampleBlock = .ok c' := by
  rw [insert_eq]
  have h1 : Conn.clear ⟨[.packet (.block d), .packet .eof], fun _ => [], false, log⟩ =
      .ok ⟨[.packet (.block d), .packet .eof], fun _ => [], false, log⟩ := rfl
  have h2 := C71_insert_query ⟨[.packet (.block d), .packet .eof], fun _ => [], false, log⟩ q ctx (.finished (.block d) [.packet .eof])
    (.finished .block)
  have h3 : insertChunks sampleBlock = .ok [⟨BlockInfo.default, sampleBlock.columns.map fun c => c.slice 0 3⟩] := rfl
  rw [h1]
  simp only [andThen, h2, h3]
  have h4 := C71_insert_block ⟨[.packet .eof], fun _ => [], false, log ++ [.sendQuery q ctx]⟩
    ⟨BlockInfo.default, sampleBlock.columns.map fun c => c.slice 0 3⟩ ctx (.finished .eof []) (.finished .eof)
  simp only [h4]
  exact ⟨_, rfl⟩

theorem exOn_encodes (ctx : Context) (h : ctx.options.compression = false) (t : Query) :
    DataEncodes sampleEnv (fun b _ => .ok b) ctx (.insert t sampleBlock) := by
  intro d b' chs ch h1 h2 h3
  cases h1
  cases h2
  simp only [List.mem_cons, List.not_mem_nil, or_false] at h3
  subst h3
  simp only [Cmd.encode, h]
  exact ⟨_, rfl⟩

/-- The bytes of a header. -/
theorem exOn_header : ∃ bs d, bs ≠ [] ∧ ∀ rest, parsePacket sampleEnv sampleInfo (bs ++ rest) = .ok (.block d) rest := by
  obtain ⟨bytes, h1, h2⟩ := C07_data_block_partial sampleEnv sampleInfo "UTC".toList rfl rfl 1 (by decide) 3 sampleBlock (sampleBlock_ok _)
  obtain ⟨d, h3, -⟩ := h2 []
  rw [List.append_nil] at h3
  refine ⟨putUvarint 1 ++ putString "" ++ bytes, d, ?_, fun rest => ?_⟩
  rotate_left
  · have := (C05_answers_are_final sampleEnv sampleInfo _ rest).1 _ _ h3
    simpa using this
  · intro e
    rw [e, parsePacket_nil] at h3
    cases h3

/-- C84. An INSERT is reported as done only if the bytes delivered begin with what was left of an abandoned answer and go on with the
answers to each of the chunks sent: a header, to which the block was converted, and an end. -/
theorem C84_inserted (env : Env) (numeric : Char → Bool) (cast : Block → Block → Out Block) (k : Sock) (ctx : Context) (bd : Binding)
    (h' : HandleS) (w : WorldS) (t : Query) (b : Block) (log : List Cmd) (hi : Issued env k log)
    (hp : ctx.options.pingBeforeQuery = false) (he : DataEncodes env cast ctx (.insert t b))
    (ha : AskS env numeric cast ⟨some k, ctx, bd⟩ w (.insert t b) (.items []) h') :
    ∃ ls ps, Cleared k.t.inconsistent ls ∧ WholeInsert cast b ps ∧ Delivers env k (ls ++ ps) := by
  cases ha with
  | insert hx =>
    rw [HandleS.insert] at hx
    cases hq : makeQuery numeric t b with
    | err e => rw [hq] at hx; cases hx.1
    | panic => rw [hq] at hx; cases hx.1
    | ok q =>
      rw [hq] at hx
      cases hx with
      | failed _ hn => exact absurd rfl hn
      | done hpc hin hd =>
        cases hpc with
        | ok hp' => simp only at hp'; rw [hp] at hp'; cases hp'
        | failed _ _ hn => exact absurd rfl hn
        | off =>
          cases hin
          cases hd with
          | @ok k2 hr =>
            obtain ⟨ps, ⟨ls, qs, rfl, m1, m2⟩, m3⟩ := unchecked_heard (F := fun c => c.insert cast q ctx b)
              (W := fun ps => ∃ ls qs, ps = ls ++ qs ∧ Cleared k.t.inconsistent ls ∧ WholeInsert cast b qs) (insert_sim (t := t) hi he hr)
              (fun c c1 hm hc he => by
                obtain ⟨ls, ps, n1, n2, n3⟩ := insert_heard hm he
                rw [hc] at n1
                exact ⟨_, ⟨ls, ps, rfl, n1, n2⟩, n3⟩)
            exact ⟨ls, qs, m1, m2, m3⟩

/-- The hypotheses of `C84_inserted`: three rows go in. -/
example : ∃ bs n h', AskS sampleEnv (fun c => c.isDigit) (fun b _ => .ok b) ⟨some (exOn bs n), uncheckedCtx, .attached⟩ [] (.insert ⟨"t", ""⟩ sampleBlock)
      (.items []) h' ∧ Issued sampleEnv (exOn bs n) [] ∧ uncheckedCtx.options.pingBeforeQuery = false ∧
      DataEncodes sampleEnv (fun b _ => .ok b) uncheckedCtx (.insert ⟨"t", ""⟩ sampleBlock) := by
  obtain ⟨bs, d, hb, hp⟩ := exOn_header
  obtain ⟨c', hx⟩ := exOn_insert d uncheckedCtx ⟨"INSERT INTO t (`id`, `tags`) VALUES", ""⟩ []
  have he := exOn_encodes uncheckedCtx rfl ⟨"t", ""⟩
  obtain ⟨n, h', g⟩ := exOn_asks (numeric := fun c => c.isDigit) (cast := fun b _ => .ok b) (bs := bs ++ [5]) (ps := [.block d, .eof])
    (a := .insert ⟨"t", ""⟩ sampleBlock) (o := []) (ctx := uncheckedCtx) (c' := c') (by simp)
    (.packet (hp [5]) (.other (by simp)) (.packet (eof_parse _ _) (.other (by simp)) .done)) (by
      have hq : makeQuery (fun c => c.isDigit) ⟨"t", ""⟩ sampleBlock = .ok ⟨"INSERT INTO t (`id`, `tags`) VALUES", ""⟩ := rfl
      simp only [ask, Handle.insert, hq, Handle.precheck, show uncheckedCtx.options.pingBeforeQuery = false from rfl, List.map_cons, List.map_nil]
      simp [hx]) (by simp) he
  exact ⟨_, n, h', g, exOn_issued _ _, rfl, he⟩

/-- C84. The same with the check beforehand. -/
theorem C84_inserted_checked (env : Env) (numeric : Char → Bool) (cast : Block → Block → Out Block) (h h' : HandleS) (w : WorldS) (t : Query)
    (b : Block) (log : List Cmd) (hi : IssuedIn env h log) (hw : IssuedWorld env w) (hp : h.context.options.pingBeforeQuery = true)
    (he : DataEncodes env cast h.context (.insert t b)) (ha : AskS env numeric cast h w (.insert t b) (.items []) h') :
    ∃ k ls ps, (h.inner = some k ∨ some k ∈ w) ∧ Cleared k.t.inconsistent ls ∧ WholeInsert cast b ps ∧ Delivers env k (ls ++ [.pong] ++ ps) := by
  cases ha with
  | insert hx =>
    rw [HandleS.insert] at hx
    cases hq : makeQuery numeric t b with
    | err e => rw [hq] at hx; cases hx.1
    | panic => rw [hq] at hx; cases hx.1
    | ok q =>
      rw [hq] at hx
      cases hx with
      | failed _ hn => exact absurd rfl hn
      | done hpc hin hd =>
        have hctx := precheck_context hpc
        cases hd with
        | @ok k2 hr =>
          obtain ⟨k, k1, g1, g2, g3⟩ := precheck_used hpc hp
          rw [hin] at g3
          cases g3
          obtain ⟨lg, hk⟩ : ∃ lg, Issued env k lg := g1.elim (fun e => ⟨log, hi k e⟩) (hw k)
          obtain ⟨ls, ps, m1, m2, m3⟩ := checked_heard (P := fun k r => InsertS env cast k q _ b r) (F := fun c => c.insert cast q _ b)
            (W := WholeInsert cast b) hk g2 hr
            (fun k lg r hi hr => insert_sim (t := t) hi (by rw [hctx]; exact he) hr) (fun c c1 hm hc he => by
              obtain ⟨ls, ps, n1, n2, n3⟩ := insert_heard hm he
              rw [hc] at n1
              cases n1
              exact ⟨ps, n2, n3⟩)
          exact ⟨k, ls, ps, g1, m1, m2, m3⟩

/-- The hypotheses of `C84_inserted_checked`. -/
example : ∃ bs n h', AskS sampleEnv (fun c => c.isDigit) (fun b _ => .ok b) ⟨some (exOn bs n), sampleCtx, .attached⟩ [] (.insert ⟨"t", ""⟩ sampleBlock)
      (.items []) h' ∧ IssuedIn sampleEnv ⟨some (exOn bs n), sampleCtx, .attached⟩ [] ∧ IssuedWorld sampleEnv [] ∧
      sampleCtx.options.pingBeforeQuery = true ∧ DataEncodes sampleEnv (fun b _ => .ok b) sampleCtx (.insert ⟨"t", ""⟩ sampleBlock) := by
  obtain ⟨bs, d, hb, hp⟩ := exOn_header
  obtain ⟨c', hx⟩ := exOn_insert d sampleCtx ⟨"INSERT INTO t (`id`, `tags`) VALUES", ""⟩ [.ping]
  have he := exOn_encodes sampleCtx rfl ⟨"t", ""⟩
  obtain ⟨n, h', g⟩ := exOn_asks (numeric := fun c => c.isDigit) (cast := fun b _ => .ok b) (bs := 4 :: (bs ++ [5])) (ps := [.pong, .block d, .eof])
    (a := .insert ⟨"t", ""⟩ sampleBlock) (o := []) (ctx := sampleCtx) (c' := c') (by simp)
    (.packet (pong_parse _ _ _) (.other (by simp)) (.packet (hp [5]) (.other (by simp)) (.packet (eof_parse _ _) (.other (by simp)) .done))) (by
      have hq : makeQuery (fun c => c.isDigit) ⟨"t", ""⟩ sampleBlock = .ok ⟨"INSERT INTO t (`id`, `tags`) VALUES", ""⟩ := rfl
      simp only [ask, Handle.insert, hq, List.map_cons, List.map_nil, exOn_precheck, hx]) (by simp) he
  exact ⟨_, n, h', g, fun k e => by cases e; exact exOn_issued _ _, nofun, rfl, he⟩

/-- C84. With the check beforehand, a query gives the blocks `bs` and then ends only if some connection, that of the handle or one that
reconnecting gave, has delivered what was left of an abandoned answer, the answer to the ping and a whole answer of which `bs` are all of
the result. -/
theorem C84_selected_checked (env : Env) (numeric : Char → Bool) (cast : Block → Block → Out Block) (h h' : HandleS) (w : WorldS) (q : Query)
    (skip : Bool) (bs : List Block) (log : List Cmd) (hi : IssuedIn env h log) (hw : IssuedWorld env w)
    (hp : h.context.options.pingBeforeQuery = true)
    (ha : AskS env numeric cast h w (.select q skip (bs.length + 1)) (.items (bs.map .block ++ [.ended])) h') :
    ∃ k ls ps, (h.inner = some k ∨ some k ∈ w) ∧ Cleared k.t.inconsistent ls ∧ WholeSelect skip bs ps ∧
      Delivers env k (ls ++ [.pong] ++ ps) := by
  cases ha with
  | select ho hr hd =>
    cases ho with
    | @opened h1 _ bd k1 hpc hb hin =>
      obtain ⟨k, k1', g1, g2, g3⟩ := precheck_used hpc hp
      rw [hin] at g3
      cases g3
      obtain ⟨lg, hk⟩ : ∃ lg, Issued env k lg := g1.elim (fun e => ⟨log, hi k e⟩) (hw k)
      obtain ⟨lg1, hi1, hf1⟩ := pingOn_sim hk g2
      have hib : IssuedB env ⟨k1.t.call (.sendQuery q h1.context), k1.revs, k1.writer, .reading, 0, skip⟩ ⟨none, h1.context, bd⟩
          (lg1 ++ [.sendQuery q h1.context]) := ⟨call_issued hi1 (query_encodes env q _), nofun, nofun⟩
      obtain ⟨-, hf⟩ := run_sim hr hib
      obtain ⟨ys, hy, hn⟩ := hf [] ⟨fun _ _ => .stop, fun _ _ => .stop⟩
      obtain ⟨b', -, e⟩ := hn ⟨(heardConn k1 lg1 ys).call (.sendQuery q h1.context), .reading, 0, skip⟩
        ⟨call_like k1 lg1 (.sendQuery q h1.context) ys, rfl, rfl, rfl⟩
      obtain ⟨body, rest, h1', h2, h3⟩ := C45_ends_only_at_eof
        (c := { heardConn k1 lg1 ys with incoming := ys ++ [], sent := lg1 ++ [.sendQuery q h1.context] })
        (h := ⟨none, h1.context, bd⟩) (skip := skip) (bs := bs) (congrArg (·.1) e)
      obtain ⟨ps, rfl⟩ := middle_packets body h2
      have hk1 := call_hears hy.stream
      obtain ⟨xs, hx, e1⟩ := hf1 ys hk1
      obtain ⟨ls, n1, n2, -, -⟩ := ping_heard (c := heardConn k lg xs) (fun _ => rfl) e1
      have hx : Hears _ _ _ _ _ xs := hx
      simp only [List.append_nil] at h1'
      refine ⟨k, ls, ps ++ [.eof], g1, n1, ⟨ps, rfl, fun p hp => h2 _ (List.mem_map_of_mem hp), h3⟩, ?_⟩
      rw [show xs = _ from n2, show (heardConn k1 lg1 ys).incoming = ys from rfl, h1',
        show (ls ++ [Packet.pong]).map Inc.packet ++ (ps.map Inc.packet ++ .packet .eof :: rest) =
          (ls ++ [Packet.pong] ++ (ps ++ [Packet.eof])).map .packet ++ rest by simp] at hx
      exact hears_packets hx

/-- The hypotheses of `C84_selected_checked`. -/
example (numeric : Char → Bool) (cast : Block → Block → Out Block) :
    ∃ n h', AskS sampleEnv numeric cast ⟨some (exOn [4, 5] n), sampleCtx, .attached⟩ [] (.select ⟨"SELECT", ""⟩ false 1) (.items [.ended]) h' ∧
      IssuedIn sampleEnv ⟨some (exOn [4, 5] n), sampleCtx, .attached⟩ [] ∧ IssuedWorld sampleEnv [] ∧
      sampleCtx.options.pingBeforeQuery = true := by
  have hr : run 1 (BStream.new ⟨some ⟨[.packet .eof], fun _ => [], false, [.ping, .sendQuery ⟨"SELECT", ""⟩ sampleCtx]⟩, false, false⟩ false)
      ⟨none, sampleCtx, .detached⟩ = ([.ended], ⟨⟨none, false, false⟩, .finished, 0, false⟩,
        ⟨some ⟨[], fun _ => [], false, [.ping, .sendQuery ⟨"SELECT", ""⟩ sampleCtx]⟩, sampleCtx, .attached⟩) := by
    rw [run, BStream.next]
    simp only [BStream.new]
    rw [read_eof (next_taken rfl rfl)]
    rfl
  obtain ⟨n, h', g⟩ := exOn_asks (numeric := numeric) (cast := cast) (bs := [4, 5]) (ps := [.pong, .eof]) (a := .select ⟨"SELECT", ""⟩ false 1)
    (o := [.ended]) (ctx := sampleCtx) (c' := ⟨[], fun _ => [], false, [.ping, .sendQuery ⟨"SELECT", ""⟩ sampleCtx]⟩) (by simp)
    (.packet (pong_parse _ _ [5]) (.other (by simp)) (.packet (eof_parse _ _) (.other (by simp)) .done)) (by
      have ho : (Handle.mk (some ⟨[.packet .pong, .packet .eof], fun _ => [], false, []⟩) sampleCtx .attached).openStream ⟨"SELECT", ""⟩ false [] =
        (.ok (BStream.new ⟨some ⟨[.packet .eof], fun _ => [], false, [.ping, .sendQuery ⟨"SELECT", ""⟩ sampleCtx]⟩, false, false⟩ false),
          ⟨none, sampleCtx, .detached⟩, []) := by
        rw [Handle.openStream, exOn_precheck]; rfl
      simp only [ask, List.map_cons, List.map_nil, ho, hr, BStream.drop]
      rfl) (by simp) trivial
  exact ⟨n, h', g, fun k e => by cases e; exact exOn_issued _ _, nofun, rfl⟩

end CH.Props
