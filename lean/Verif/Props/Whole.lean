import Verif.Lemmas.Whole
import Verif.Spec.Whole
import Verif.Props.Answer
import Verif.Props.Answered
import Verif.Props.Verdict

/-!
# From the bytes on a socket to the rows of a query: C89

The socket may deliver the bytes in whatever parts, fail and end at any time (C84); the bytes are those of an answer as the native
format has it (C77).
-/

namespace CH.Props

open CH CH.Spec CH.Socket CH.Outage

/-- C89. A query over a socket on which a server's answer comes (and perhaps more after it) gives the blocks `bs` and then ends only if
`bs` are the blocks of the answer: their rows are the rows the server sent (but for the order of the entries of maps). If the first
block is left out, it is a header without rows. Missing for the full property: answers with the types that C77 leaves out. -/
theorem C89_whole_partial (env : Env) (numeric : Char → Bool) (cast : Block → Block → Out Block) (k : Sock) (ctx : Context) (bd : Binding)
    (w : WorldS) (q : Query) (skip : Bool) (bs : List Block) (h' : HandleS) (log : List Cmd) (hi : Issued env k log)
    (hp : ctx.options.pingBeforeQuery = false)
    (ha : AskS env numeric cast ⟨some k, ctx, bd⟩ w (.select q skip (bs.length + 1)) (.items (bs.map .block ++ [.ended])) h')
    {tz : Tz} {said : List Said} {b more : Bytes} (htz : k.t.info.timezone = some tz) (hb : k.t.rd ++ received k.revs = b ++ more)
    (hl : AnswerLaid env.codec tz k.t.info.revision k.t.info.compress said b) (hr : ∀ m ∈ said, Readable env.known m)
    (hh : skip = true → ∃ before i cols after, said = before ++ .block i 0 cols :: after ∧ ∀ m ∈ before, ∀ i r c, m ≠ .block i r c) :
    ∃ said', ReorderedAnswer said said' ∧ answerRows bs = (said'.flatMap saidRows).map (·.map .ok) := by
  obtain ⟨ps, j, rest, h1, h2, h3⟩ := C84_selected env numeric cast k ctx bd w q skip bs h' log hi hp ha
  obtain ⟨qs, said', g1, g2, ⟨x, gx, -⟩, g3, g4⟩ := answer_decodes htz hl hr
  have h3' : Decodes env k.t.info (b ++ more) (ps.map .inl ++ [.inl .eof]) j rest := by rw [← hb]; simpa using h3
  obtain ⟨rfl, -, -⟩ := Whole.same_end h3' (g4 more) h1 (Whole.means_all g1 g3) Whole.eof_not_middle Whole.eof_not_middle
  refine ⟨said', g2, ?_⟩
  subst h2
  have hw := laid_block gx
  cases skip with
  | false => rw [rows_results, all_means_rows g1 g3 hw]
  | true =>
    obtain ⟨before, i, cols, after, e1, e2⟩ := hh rfl
    obtain ⟨before', c', after', e3, e4⟩ := reordered_head g2 e1 e2
    rw [rows_results_skip, first_header g1 g3 e3 e4, all_means_rows g1 g3 hw]

/-- C89. An answer of which the end is missing, cut anywhere, is never given as complete, however the socket fails or ends.
(`_partial` as above.) -/
theorem C89_cut_partial (env : Env) (numeric : Char → Bool) (cast : Block → Block → Out Block) (k : Sock) (ctx : Context) (bd : Binding)
    (w : WorldS) (q : Query) (skip : Bool) (bs : List Block) (h' : HandleS) (log : List Cmd) (hi : Issued env k log)
    (hp : ctx.options.pingBeforeQuery = false) {tz : Tz} {said : List Said} {missing : Bytes} (htz : k.t.info.timezone = some tz)
    (hl : AnswerLaid env.codec tz k.t.info.revision k.t.info.compress said (k.t.rd ++ received k.revs ++ missing)) (hm : missing ≠ [])
    (hr : ∀ m ∈ said, Readable env.known m) :
    ¬ AskS env numeric cast ⟨some k, ctx, bd⟩ w (.select q skip (bs.length + 1)) (.items (bs.map .block ++ [.ended])) h' := by
  intro ha
  obtain ⟨ps, j, rest, h1, h2, h3⟩ := C84_selected env numeric cast k ctx bd w q skip bs h' log hi hp ha
  obtain ⟨qs, said', g1, g2, -, g3, g4⟩ := answer_decodes htz hl hr
  have h4 := h3.extend missing
  have h5 := g4 []
  rw [List.append_nil] at h5
  rw [List.map_append] at h4
  obtain ⟨-, -, e⟩ := Whole.same_end h4 h5 h1 (Whole.means_all g1 g3) Whole.eof_not_middle Whole.eof_not_middle
  exact hm (List.append_eq_nil_iff.mp e).2

/-- C89. An answer that ends in an exception is never given as complete, whatever was sent before it and follows it, and however the
socket fails or ends. (`_partial` as above.) -/
theorem C89_exception_partial (env : Env) (numeric : Char → Bool) (cast : Block → Block → Out Block) (k : Sock) (ctx : Context) (bd : Binding)
    (w : WorldS) (q : Query) (skip : Bool) (bs : List Block) (h' : HandleS) (log : List Cmd) (hi : Issued env k log)
    (hp : ctx.options.pingBeforeQuery = false) {tz : Tz} {said : List Said} {x more : Bytes} {e : ServerError}
    (htz : k.t.info.timezone = some tz) (hb : k.t.rd ++ received k.revs = x ++ encException e ++ more)
    (hl : InTurn (SaidLaid env.codec tz k.t.info.revision k.t.info.compress) said x) (he : ExceptionOK e)
    (hr : ∀ m ∈ said, Readable env.known m) :
    ¬ AskS env numeric cast ⟨some k, ctx, bd⟩ w (.select q skip (bs.length + 1)) (.items (bs.map .block ++ [.ended])) h' := by
  intro ha
  obtain ⟨ps, j, rest, h1, h2, h3⟩ := C84_selected env numeric cast k ctx bd w q skip bs h' log hi hp ha
  obtain ⟨qs, said', g1, g2, -, g3, g4⟩ := said_decodes htz hl hr
  have h5 : Decodes env k.t.info (x ++ (encException e ++ more)) (qs.map .inl ++ [.inl (.exception e)]) k.t.info (0 :: more) := by
    have := g4 []
    rw [List.append_nil] at this
    exact this.append (.packet (C07_exception_violated env _ e he more) (.other nofun) .done)
  have h4 : Decodes env k.t.info (x ++ (encException e ++ more)) (ps.map .inl ++ [.inl .eof]) j rest := by
    rw [← List.append_assoc, ← hb]; simpa using h3
  obtain ⟨-, e2, -⟩ := Whole.same_end h4 h5 h1 (Whole.means_all g1 g3) Whole.eof_not_middle (Whole.exception_not_middle e)
  simp at e2

theorem blocksOf_heard (xs : List Inc) : blocksOf xs = blocksOf ((packetsHeard xs).map .packet) := by
  induction xs with
  | nil => rfl
  | cons x xs ih =>
    simp only [blocksOf] at ih
    cases x with
    | packet p =>
      have e : blocksOf (Inc.packet p :: xs) = blocksOf [Inc.packet p] ++ blocksOf xs := by
        rw [← List.singleton_append]; simp only [blocksOf, List.filterMap_append]
      have e' : blocksOf (Inc.packet p :: (packetsHeard xs).map .packet) = blocksOf [Inc.packet p] ++ blocksOf ((packetsHeard xs).map .packet) := by
        rw [← List.singleton_append]; simp only [blocksOf, List.filterMap_append]
      show blocksOf (Inc.packet p :: xs) = blocksOf (Inc.packet p :: (packetsHeard xs).map .packet)
      rw [e, e']; simp only [blocksOf, ih]
    | _ => simpa [blocksOf, packetsHeard] using ih

theorem results_prefix {skip : Bool} {xs ys : List Inc} (h : blocksOf xs <+: blocksOf ys) : resultBlocks skip xs <+: resultBlocks skip ys := by
  obtain ⟨t, ht⟩ := h
  unfold resultBlocks
  rw [← ht, List.drop_append, List.filter_append]
  exact List.prefix_append _ _

theorem selected_heard {env : Env} {numeric : Char → Bool} {cast : Block → Block → Out Block} {k : Sock} {ctx : Context} {bd : Binding}
    {w : WorldS} {q : Query} {skip : Bool} {n : Nat} {is : List BItem} {h' : HandleS} {log : List Cmd} (hi : Issued env k log)
    (hp : ctx.options.pingBeforeQuery = false) (ha : AskS env numeric cast ⟨some k, ctx, bd⟩ w (.select q skip n) (.items is) h') :
    ∃ xs, HearsOn env k xs ∧ blocksGot is <+: resultBlocks skip xs := by
  cases ha with
  | select ho hr hd =>
    cases ho with
    | @opened h1 _ bd k1 hpc hb hin =>
      cases hpc with
      | ok hp' => simp only at hp'; rw [hp] at hp'; cases hp'
      | failed _ _ hn => exact absurd rfl hn
      | off =>
        cases hin
        have hib : IssuedB env ⟨k.t.call (.sendQuery q ctx), k.revs, k.writer, .reading, 0, skip⟩ ⟨none, ctx, bd⟩
            (log ++ [.sendQuery q ctx]) := ⟨call_issued hi (query_encodes env q _), nofun, nofun⟩
        obtain ⟨-, hf⟩ := run_sim hr hib
        obtain ⟨xs, hx, hn⟩ := hf [] ⟨fun _ _ => .stop, fun _ _ => .stop⟩
        obtain ⟨b', -, e⟩ := hn ⟨(heardConn k log xs).call (.sendQuery q ctx), .reading, 0, skip⟩
          ⟨call_like k log (.sendQuery q ctx) xs, rfl, rfl, rfl⟩
        have h1 := C45_in_order { heardConn k log xs with incoming := xs ++ [], sent := log ++ [.sendQuery q ctx] }
          ⟨none, ctx, bd⟩ skip n
        have h2 : (run n (BStream.new ⟨some { heardConn k log xs with incoming := xs ++ [], sent := log ++ [.sendQuery q ctx] }, false, false⟩ skip)
          ⟨none, ctx, bd⟩).1 = is := congrArg (·.1) e
        rw [h2] at h1
        simp only [List.append_nil] at h1
        exact ⟨xs, call_hears hx.stream, h1⟩

/-- C89. Whatever is awaited of a query over a socket on which an answer comes, or the beginning of one, cut anywhere: the blocks
given are the first of the answer, in order, complete and each once. (`_partial` as above.) -/
theorem C89_prefix_partial (env : Env) (numeric : Char → Bool) (cast : Block → Block → Out Block) (k : Sock) (ctx : Context) (bd : Binding)
    (w : WorldS) (q : Query) (skip : Bool) (n : Nat) (is : List BItem) (h' : HandleS) (log : List Cmd) (hi : Issued env k log)
    (hp : ctx.options.pingBeforeQuery = false)
    (ha : AskS env numeric cast ⟨some k, ctx, bd⟩ w (.select q skip n) (.items is) h')
    {tz : Tz} {said : List Said} {missing : Bytes} (htz : k.t.info.timezone = some tz)
    (hl : AnswerLaid env.codec tz k.t.info.revision k.t.info.compress said (k.t.rd ++ received k.revs ++ missing))
    (hr : ∀ m ∈ said, Readable env.known m) :
    ∃ (ps : List Packet) (said' : List Said), ReorderedAnswer said said' ∧ ps.length = said'.length ∧
      (∀ (i : Nat) m p, said'[i]? = some m → ps[i]? = some p → Means m p) ∧ blocksGot is <+: resultBlocks skip (ps.map .packet) := by
  obtain ⟨xs, hx, h1⟩ := selected_heard hi hp ha
  obtain ⟨ds, j, rest, d1, d2, -⟩ := C84_heard _ _ _ _ _ _ hx
  obtain ⟨qs, said', g1, g2, -, g3, g4⟩ := answer_decodes htz hl hr
  have h5 := g4 []
  rw [List.append_nil] at h5
  refine ⟨qs, said', g2, g1, g3, h1.trans (results_prefix ?_)⟩
  have hpre : ∃ zs, qs.map .inl ++ [.inl .eof] = ds ++ zs := by
    rcases Whole.compare (d1.extend missing) h5 with ⟨zs, e, -⟩ | ⟨zs, e, hz⟩
    · exact ⟨zs, e⟩
    · generalize rest ++ missing = r at hz
      cases hz with
      | done => exact ⟨[], by rw [e]; simp⟩
      | packet h _ _ => rw [parsePacket_nil] at h; simp at h
      | error h _ => rw [parsePacket_nil] at h; simp at h
  obtain ⟨zs, hz⟩ := hpre
  have h6 : blocksOf ((qs.map Sum.inl ++ [Sum.inl .eof] : List (Packet ⊕ Err)).map incOf) = blocksOf (qs.map .packet) := by
    rw [List.map_append, List.map_map]
    simp only [blocksOf, List.filterMap_append]
    simp [incOf, Function.comp_def]
  rw [blocksOf_heard, d2, ← blocksOf_heard, ← h6, hz, List.map_append]
  simp only [blocksOf, List.filterMap_append]
  exact List.prefix_append _ _

/-- The message a check beforehand waits for, if there is one. -/
theorem precheck_pong {ms : List Inc} {log : List Cmd} {ctx : Context} :
    ∃ log', (Handle.mk (some ⟨(if ctx.options.pingBeforeQuery then [.packet .pong] else []) ++ ms, fun _ => [], false, log⟩) ctx .attached).precheck [] =
      (.ok (), ⟨some ⟨ms, fun _ => [], false, log'⟩, ctx, .attached⟩, []) := by
  rw [Handle.precheck]
  cases hp : ctx.options.pingBeforeQuery with
  | false => exact ⟨log, by simp⟩
  | true =>
    refine ⟨log ++ [.ping], ?_⟩
    have hj : ∀ b, (Handle.mk (some ⟨.packet .pong :: ms, fun _ => [], false, log⟩) ctx b).ping =
        (.ok (), ⟨some ⟨ms, fun _ => [], false, log ++ [.ping]⟩, ctx, b⟩) := fun b =>
      C71_ping _ ctx b (.finished .pong ms) rfl (by rw [List.append_nil]; exact .finished .pong)
    simp only [if_true, List.singleton_append, Handle.checkConnection, Binding.detach, retryGuard]
    rw [retryLoop]
    simp [hj]

/-- What a client on the decoded messages makes of an answer. -/
theorem ask_answered {numeric : Char → Bool} {cast : Block → Block → Out Block} {ctx : Context} {q : Query} {skip : Bool} {body : List Inc}
    {log : List Cmd} (hb : ∀ x ∈ body, Middle x) :
    ∃ c', ask numeric cast ⟨some ⟨(if ctx.options.pingBeforeQuery then [.packet .pong] else []) ++ (body ++ [.packet .eof]), fun _ => [], false, log⟩,
        ctx, .attached⟩ (.select q skip ((resultBlocks skip body).length + 1)) =
      some ((resultBlocks skip body).map .block ++ [.ended], ⟨some c', ctx, .attached⟩) := by
  obtain ⟨log', hpc⟩ := precheck_pong (ms := body ++ [.packet .eof]) (log := log) (ctx := ctx)
  let c1 : Conn := ⟨body ++ [.packet .eof], fun _ => [], false, log' ++ [.sendQuery q ctx]⟩
  have ho : Handle.openStream ⟨some ⟨(if ctx.options.pingBeforeQuery then [.packet .pong] else []) ++ (body ++ [.packet .eof]), fun _ => [], false, log⟩,
        ctx, .attached⟩ q skip [] =
      (.ok (BStream.new ⟨some c1, false, false⟩ skip), ⟨none, ctx, .detached⟩, []) := by
    rw [Handle.openStream, hpc]
    simp [Binding.detach, Conn.call, c1]
  have hc : c1.incoming = body ++ [.packet .eof] := rfl
  have h1 := run_body (h := ⟨none, ctx, .detached⟩) (c := c1) (skip := skip) (idx := 0) hc hb 0
  rw [wantedFrom_zero] at h1
  have h2 : ∀ k, (reading { c1 with incoming := [.packet .eof] } k skip).next ⟨none, ctx, .detached⟩ =
      (.ended, ⟨⟨none, false, false⟩, .finished, k, skip⟩, ⟨some { c1 with incoming := [] }, ctx, .attached⟩) := by
    intro k
    rw [next_reading, read_eof (next_taken rfl rfl)]
    rfl
  rw [run_next (h2 _), run_finished (s := ⟨⟨none, false, false⟩, .finished, _, skip⟩) rfl] at h1
  refine ⟨{ c1 with incoming := [] }, ?_⟩
  rw [ask, ho]
  simp only
  rw [show BStream.new ⟨some c1, false, false⟩ skip = reading c1 0 skip from rfl, h1]
  rfl

/-- C89. Conversely, with or without the check beforehand, over every socket that goes on taking and delivering bytes, in whatever parts and after whatever pauses, a query is
served: once the ping is answered, if there is one, the items awaited are blocks with just the rows of the answer delivered, then the end. (`n` bounds the bytes of the query; a
socket need not take more than that and what was left unsent before. `_partial` as above.) -/
theorem C89_served_partial (env : Env) (numeric : Char → Bool) (cast : Block → Block → Out Block) (i : TransportInfo) (ctx : Context) (q : Query)
    (skip : Bool) (log : List Cmd) {tz : Tz} {said : List Said} {b : Bytes}
    (htz : i.timezone = some tz) (hl : AnswerLaid env.codec tz i.revision i.compress said b) (hr : ∀ m ∈ said, Readable env.known m)
    (hh : skip = true → ∃ before i cols after, said = before ++ .block i 0 cols :: after ∧ ∀ m ∈ before, ∀ i r c, m ≠ .block i r c) :
    ∃ n bs said', ReorderedAnswer said said' ∧ answerRows bs = (said'.flatMap saidRows).map (·.map .ok) ∧
      ∀ k : Sock, Issued env k log → k.t.info = i → k.t.done = false → k.t.inconsistent = false →
        k.t.rd ++ received k.revs = (if ctx.options.pingBeforeQuery then [4] else []) ++ b → Lasting k.revs → LastingW k.writer.evs → n + unsent env k.t < accepts k.writer.evs →
        ∃ h', AskS env numeric cast ⟨some k, ctx, .attached⟩ [] (.select q skip (bs.length + 1)) (.items (bs.map .block ++ [.ended])) h' := by
  obtain ⟨ps, said', g1, g2, ⟨x, gx, -⟩, g3, g4⟩ := answer_decodes htz hl hr
  have hm : ∀ y ∈ ps.map Inc.packet, Middle y := by
    intro y hy
    obtain ⟨p, hp, rfl⟩ := List.mem_map.mp hy
    exact Whole.means_all g1 g3 p hp
  obtain ⟨c', ha⟩ := ask_answered (numeric := numeric) (cast := cast) (ctx := ctx) (q := q) (skip := skip) (log := log) hm
  obtain ⟨n, hf⟩ := Progress.ask_progress (env := env) ha (by simp) trivial 0
  have hw := laid_block gx
  refine ⟨n, resultBlocks skip (ps.map .packet), said', g2, ?_, fun k hi ht hd hn hb hrd hwr hu => ?_⟩
  rotate_left
  · have hdec : Decodes env i b (ps.map .inl ++ [.inl .eof]) i [] := by
      have := g4 []
      rwa [List.append_nil] at this
    obtain ⟨k', g, -⟩ := hf k ⟨⟨⟨hd, hn.symm, (if ctx.options.pingBeforeQuery then [.inl .pong] else []) ++ (ps.map .inl ++ [.inl .eof]), i, [], by
        cases ctx.options.pingBeforeQuery <;> simp [incOf], by
      rw [ht, hb]
      cases ctx.options.pingBeforeQuery with
      | false => exact hdec
      | true => exact .packet (pong_parse _ _ _) (.other nofun) hdec, parsePacket_nil _ _⟩, hi.encodable, fun _ => rfl, hrd, hwr, hi.written⟩, by omega⟩
    exact ⟨_, g⟩
  · cases skip with
    | false => rw [rows_results, all_means_rows g1 g3 hw]
    | true =>
      obtain ⟨before, i, cols, after, e1, e2⟩ := hh rfl
      obtain ⟨before', c', after', e3, e4⟩ := reordered_head g2 e1 e2
      rw [rows_results_skip, first_header g1 g3 e3 e4, all_means_rows g1 g3 hw]

/-- C89. With the check beforehand, as it is by default, and reconnecting as often as it does: if on each of the connections that may be
used (that of the handle, those reconnecting gives) a ping is answered and then an answer comes, `said k` on the connection `k`, a query
that ends has given the rows of one of these answers: no rows of another connection are among them. (`_partial` as above.) -/
theorem C89_checked_partial (env : Env) (numeric : Char → Bool) (cast : Block → Block → Out Block) (h h' : HandleS) (w : WorldS) (q : Query)
    (skip : Bool) (bs : List Block) (log : List Cmd) (hi : IssuedIn env h log) (hw : IssuedWorld env w)
    (hp : h.context.options.pingBeforeQuery = true)
    (ha : AskS env numeric cast h w (.select q skip (bs.length + 1)) (.items (bs.map .block ++ [.ended])) h') (said : Sock → List Said)
    (hc : ∀ k, h.inner = some k ∨ some k ∈ w → k.t.inconsistent = false ∧ (∀ m ∈ said k, Readable env.known m) ∧
      ∃ tz b more, k.t.info.timezone = some tz ∧ k.t.rd ++ received k.revs = 4 :: (b ++ more) ∧
        AnswerLaid env.codec tz k.t.info.revision k.t.info.compress (said k) b)
    (hh : skip = true → ∀ k, h.inner = some k ∨ some k ∈ w →
      ∃ before i cols after, said k = before ++ .block i 0 cols :: after ∧ ∀ m ∈ before, ∀ i r c, m ≠ .block i r c) :
    ∃ k said', (h.inner = some k ∨ some k ∈ w) ∧ ReorderedAnswer (said k) said' ∧ answerRows bs = (said'.flatMap saidRows).map (·.map .ok) := by
  obtain ⟨k, ls, ps, hk, hcl, ⟨ss, rfl, h1, h2⟩, j, rest, hd⟩ := C84_selected_checked env numeric cast h h' w q skip bs log hi hw hp ha
  obtain ⟨hin, hr, tz, b, more, htz, hb, hl⟩ := hc k hk
  rw [hin] at hcl
  obtain rfl : ls = [] := hcl
  obtain ⟨qs, said', g1, g2, ⟨x, gx, -⟩, g3, g4⟩ := answer_decodes htz hl hr
  have h3 : Decodes env k.t.info (4 :: (b ++ more)) (.inl .pong :: (ss.map .inl ++ [.inl .eof])) j rest := by rw [← hb]; simpa using hd
  have h4 := Whole.after_pong h3
  obtain ⟨rfl, -, -⟩ := Whole.same_end h4 (g4 more) h1 (Whole.means_all g1 g3) Whole.eof_not_middle Whole.eof_not_middle
  refine ⟨k, said', hk, g2, ?_⟩
  subst h2
  have hw := laid_block gx
  cases skip with
  | false => rw [rows_results, all_means_rows g1 g3 hw]
  | true =>
    obtain ⟨before, i, cols, after, e1, e2⟩ := hh rfl k hk
    obtain ⟨before', c', after', e3, e4⟩ := reordered_head g2 e1 e2
    rw [rows_results_skip, first_header g1 g3 e3 e4, all_means_rows g1 g3 hw]

/-- C89. With the check beforehand, too, no answer that is cut is given as complete, on whichever of the connections it comes.
(`_partial` as above.) -/
theorem C89_checked_cut_partial (env : Env) (numeric : Char → Bool) (cast : Block → Block → Out Block) (h h' : HandleS) (w : WorldS) (q : Query)
    (skip : Bool) (bs : List Block) (log : List Cmd) (hi : IssuedIn env h log) (hw : IssuedWorld env w)
    (hp : h.context.options.pingBeforeQuery = true)
    (hc : ∀ k, h.inner = some k ∨ some k ∈ w → k.t.inconsistent = false ∧ ∃ tz said b missing, (∀ m ∈ said, Readable env.known m) ∧
      k.t.info.timezone = some tz ∧ k.t.rd ++ received k.revs ++ missing = 4 :: b ∧ missing ≠ [] ∧
        AnswerLaid env.codec tz k.t.info.revision k.t.info.compress said b) :
    ¬ AskS env numeric cast h w (.select q skip (bs.length + 1)) (.items (bs.map .block ++ [.ended])) h' := by
  intro ha
  obtain ⟨k, ls, ps, hk, hcl, ⟨ss, rfl, h1, h2⟩, j, rest, hd⟩ := C84_selected_checked env numeric cast h h' w q skip bs log hi hw hp ha
  obtain ⟨hin, tz, said, b, missing, hr, htz, hb, hm, hl⟩ := hc k hk
  rw [hin] at hcl
  obtain rfl : ls = [] := hcl
  obtain ⟨qs, said', g1, g2, -, g3, g4⟩ := answer_decodes htz hl hr
  have h3 : Decodes env k.t.info (4 :: b) (.inl .pong :: (ss.map .inl ++ [.inl .eof])) j (rest ++ missing) := by
    rw [← hb]; simpa using hd.extend missing
  have h5 := g4 []
  rw [List.append_nil] at h5
  obtain ⟨-, -, e⟩ := Whole.same_end (Whole.after_pong h3) h5 h1 (Whole.means_all g1 g3) Whole.eof_not_middle Whole.eof_not_middle
  exact hm (List.append_eq_nil_iff.mp e).2

theorem no_answer {env : Env} {pre : Bytes} {k : Sock} (h : NoAnswer env pre k) {ss : List Packet} {j : TransportInfo} {rest : Bytes}
    (hs : ∀ p ∈ ss, Middle (.packet p)) (hp : ∀ b, k.t.rd ++ received k.revs = pre ++ b → Decodes env k.t.info b (ss.map .inl ++ [.inl .eof]) j rest)
    (hp' : ∀ b m, k.t.rd ++ received k.revs ++ m = pre ++ b → Decodes env k.t.info b (ss.map .inl ++ [.inl .eof]) j (rest ++ m)) : False := by
  cases h with
  | cut htz hb hm hl hr =>
    obtain ⟨qs, said', g1, g2, -, g3, g4⟩ := answer_decodes htz hl hr
    have h5 := g4 []
    rw [List.append_nil] at h5
    obtain ⟨-, -, e⟩ := Whole.same_end (hp' _ _ hb) h5 hs (Whole.means_all g1 g3) Whole.eof_not_middle Whole.eof_not_middle
    exact hm (List.append_eq_nil_iff.mp e).2
  | @exception tz said x e more htz hb hl he hr =>
    obtain ⟨qs, said', g1, g2, -, g3, g4⟩ := said_decodes htz hl hr
    have h5 : Decodes env k.t.info (x ++ (encException e ++ more)) (qs.map .inl ++ [.inl (.exception e)]) k.t.info (0 :: more) := by
      have := g4 []
      rw [List.append_nil] at this
      exact this.append (.packet (C07_exception_violated env _ e he more) (.other nofun) .done)
    rw [← List.append_assoc] at h5
    obtain ⟨-, e2, -⟩ := Whole.same_end (hp _ hb) h5 hs (Whole.means_all g1 g3) Whole.eof_not_middle (Whole.exception_not_middle e)
    simp at e2

theorem no_answer_pong {env : Env} {k : Sock} {ls ss : List Packet} (hin : k.t.inconsistent = false) (hcl : Cleared k.t.inconsistent ls)
    (hs : ∀ p ∈ ss, Middle (.packet p)) (hd : Delivers env k (ls ++ [.pong] ++ (ss ++ [.eof]))) : ¬ NoAnswer env [4] k := by
  intro hn
  obtain ⟨j, rest, hd⟩ := hd
  rw [hin] at hcl
  obtain rfl : ls = [] := hcl
  have hd' : Decodes env k.t.info (k.t.rd ++ received k.revs) (.inl .pong :: (ss.map .inl ++ [.inl .eof])) j rest := by simpa using hd
  exact no_answer hn hs (fun b hb => Whole.after_pong (by rw [hb] at hd'; exact hd'))
    (fun b m hb => Whole.after_pong (by have := hd'.extend m; rw [hb] at this; exact this))

theorem no_answer_plain {env : Env} {k : Sock} {ss : List Packet} (hs : ∀ p ∈ ss, Middle (.packet p)) (hd : Delivers env k (ss ++ [.eof])) :
    ¬ NoAnswer env [] k := by
  intro hn
  obtain ⟨j, rest, hd⟩ := hd
  have hd' : Decodes env k.t.info (k.t.rd ++ received k.revs) (ss.map .inl ++ [.inl .eof]) j rest := by simpa using hd
  exact no_answer hn hs (fun b hb => by rw [hb] at hd'; exact hd') (fun b m hb => by have := hd'.extend m; rw [hb] at this; exact this)

theorem executes_middle {p : Packet} (h : ExecuteSkips p) : Middle (.packet p) := by
  cases h
  · exact .block _
  · exact .profileInfo _
  · exact .progress _

/-- C89. With or without the check beforehand: if no connection that may be used has a whole answer, neither a statement nor a query
is ever reported as done. (`_partial` as above.) -/
theorem C89_unanswered_partial (env : Env) (numeric : Char → Bool) (cast : Block → Block → Out Block) (h h' : HandleS) (w : WorldS) (q : Query)
    (skip : Bool) (bs : List Block) (log : List Cmd) (hi : IssuedIn env h log) (hw : IssuedWorld env w)
    (hc : ∀ k, h.inner = some k ∨ some k ∈ w → k.t.inconsistent = false ∧
      NoAnswer env (if h.context.options.pingBeforeQuery then [4] else []) k) :
    ¬ AskS env numeric cast h w (.execute q) (.items []) h' ∧
      ¬ AskS env numeric cast h w (.select q skip (bs.length + 1)) (.items (bs.map .block ++ [.ended])) h' := by
  cases hp : h.context.options.pingBeforeQuery with
  | true =>
    rw [hp] at hc
    refine ⟨fun ha => ?_, fun ha => ?_⟩
    · obtain ⟨k, ls, ps, hk, hcl, ⟨ss, rfl, h1⟩, hd⟩ := C84_executed_checked env numeric cast h h' w q log hi hw hp ha
      exact no_answer_pong (hc k hk).1 hcl (fun p hp => executes_middle (h1 p hp)) hd (hc k hk).2
    · obtain ⟨k, ls, ps, hk, hcl, ⟨ss, rfl, h1, -⟩, hd⟩ := C84_selected_checked env numeric cast h h' w q skip bs log hi hw hp ha
      exact no_answer_pong (hc k hk).1 hcl h1 hd (hc k hk).2
  | false =>
    rw [hp] at hc
    obtain ⟨inner, ctx, bd⟩ := h
    cases inner with
    | none =>
      refine ⟨fun ha => ?_, fun ha => ?_⟩
      · cases ha with
        | execute hx =>
          cases hx with
          | failed _ hn => exact hn rfl
          | done hpc hin _ =>
            cases hpc with
            | ok hp' => simp only at hp hp'; rw [hp] at hp'; cases hp'
            | failed _ _ hn => exact hn rfl
            | off => cases hin
      · cases ha with
        | select ho _ _ =>
          cases ho with
          | opened hpc _ hin =>
            cases hpc with
            | ok hp' => simp only at hp hp'; rw [hp] at hp'; cases hp'
            | failed _ _ hn => exact hn rfl
            | off => cases hin
    | some k =>
      have hk := hc k (.inl rfl)
      refine ⟨fun ha => ?_, fun ha => ?_⟩
      · obtain ⟨ps, j, rest, h1, h2⟩ := C84_executed env numeric cast k ctx bd w q h' log (hi k rfl) hk.1 hp ha
        exact no_answer_plain (fun p hp => executes_middle (h1 p hp)) ⟨j, rest, h2⟩ hk.2
      · obtain ⟨ps, j, rest, h1, -, h2⟩ := C84_selected env numeric cast k ctx bd w q skip bs h' log (hi k rfl) hp ha
        exact no_answer_plain h1 ⟨j, rest, h2⟩ hk.2

/-- A connection on which the bytes `b` come, after a pause; the socket takes one byte at a time, `n` times. -/
def exLine (b : Bytes) (n : Nat) : Sock :=
  ⟨{ Transport.new true with info := exAnswerInfo }, [.pending, .ready b], ⟨List.replicate n (.wrote 1), []⟩⟩

theorem exLine_issued (env : Env) (b : Bytes) (n : Nat) : Issued env (exLine b n) [] :=
  ⟨fun d hd => absurd (show d ∈ [] from hd) List.not_mem_nil, rfl⟩

theorem exLine_bytes (b : Bytes) (n : Nat) : (exLine b n).t.rd ++ received (exLine b n).revs = b := by
  show [] ++ ([] ++ (b ++ [])) = b
  simp

theorem exLine_accepts (n : Nat) : accepts (List.replicate n (.wrote 1)) = n := by
  induction n with
  | zero => rfl
  | succ n ih => rw [List.replicate_succ, accepts, ih]

/-- The hypotheses of `C89_served_partial`, and what it says there: a query whose answer is `exAnswerBytes` gives a block with its row. -/
theorem exLine_served (ctx : Context) (skip : Bool) : ∃ n bs h', answerRows bs = [[.ok (.array .string [.str [97], .str [98, 99]])]] ∧
    AskS sampleEnv (fun _ => false) (fun b _ => .ok b) ⟨some (exLine ((if ctx.options.pingBeforeQuery then [4] else []) ++ exAnswerBytes) n), ctx,
      .attached⟩ [] (.select sampleQuery skip (bs.length + 1)) (.items (bs.map .block ++ [.ended])) h' := by
  obtain ⟨n, bs, said', g1, g2, g3⟩ := C89_served_partial sampleEnv (fun _ => false) (fun b _ => .ok b) exAnswerInfo ctx sampleQuery skip []
    (tz := "UTC".toList) rfl exAnswer_laid exAnswer_readable (fun _ => ⟨[], _, _, _, rfl, nofun⟩)
  rw [g1.2.2 exSaid_mapless] at g2
  obtain ⟨h', h⟩ := g3 (exLine ((if ctx.options.pingBeforeQuery then [4] else []) ++ exAnswerBytes) (n + 1)) (exLine_issued _ _ _) rfl rfl rfl (exLine_bytes _ _) (by
    intro e he
    simp only [exLine, List.mem_cons, List.not_mem_nil, or_false] at he
    rcases he with rfl | rfl
    · exact .inl rfl
    · exact .inr ⟨_, by simp [exAnswerBytes], rfl⟩) (by
    intro e he
    rw [List.eq_of_mem_replicate (show e ∈ List.replicate (n + 1) (.wrote 1) from he)]
    exact nofun) (by
    rw [show (exLine ((if ctx.options.pingBeforeQuery then [4] else []) ++ exAnswerBytes) (n + 1)).writer.evs = List.replicate (n + 1) (.wrote 1) from rfl, exLine_accepts]
    show n + 0 < n + 1
    omega)
  exact ⟨n + 1, bs, h', g2, h⟩

/-- The hypotheses of `C89_whole_partial`, for every query so answered. -/
example : ∃ n bs h', AskS sampleEnv (fun _ => false) (fun b _ => .ok b) ⟨some (exLine exAnswerBytes n), uncheckedCtx, .attached⟩ []
      (.select sampleQuery true (bs.length + 1)) (.items (bs.map .block ++ [.ended])) h' ∧
    answerRows bs = [[.ok (.array .string [.str [97], .str [98, 99]])]] := by
  obtain ⟨n, bs, h', -, h⟩ := exLine_served uncheckedCtx true
  obtain ⟨said', g1, g2⟩ := C89_whole_partial _ _ _ _ _ _ _ _ _ _ _ _ (exLine_issued _ _ _) rfl h (tz := "UTC".toList) (more := []) rfl
    (by rw [exLine_bytes, List.append_nil]; rfl) exAnswer_laid exAnswer_readable (fun _ => ⟨[], _, _, _, rfl, nofun⟩)
  rw [g1.2.2 exSaid_mapless] at g2
  exact ⟨n, bs, h', h, g2⟩

/-- The hypotheses of `C89_checked_partial`. -/
example : ∃ n bs h', AskS sampleEnv (fun _ => false) (fun b _ => .ok b) ⟨some (exLine (4 :: exAnswerBytes) n), sampleCtx, .attached⟩ []
      (.select sampleQuery true (bs.length + 1)) (.items (bs.map .block ++ [.ended])) h' ∧
    answerRows bs = [[.ok (.array .string [.str [97], .str [98, 99]])]] := by
  obtain ⟨n, bs, h', -, h⟩ := exLine_served sampleCtx true
  obtain ⟨k, said', -, g1, g2⟩ := C89_checked_partial _ _ _ _ _ _ _ _ _ [] (fun k e => by cases e; exact exLine_issued _ _ _) (fun k hk => absurd hk List.not_mem_nil) rfl h
    (fun _ => exSaid) (by
      rintro k (e | e)
      · cases e
        exact ⟨rfl, exAnswer_readable, "UTC".toList, exAnswerBytes, [], rfl, by rw [exLine_bytes, List.append_nil]; rfl, exAnswer_laid⟩
      · cases e) (fun _ _ _ => ⟨[], _, _, _, rfl, nofun⟩)
  rw [g1.2.2 exSaid_mapless] at g2
  exact ⟨n, bs, h', h, g2⟩

/-- The hypotheses of `C89_checked_cut_partial`: a connection that ends within the answer, and another, which reconnecting gives, too. -/
example (n m : Nat) (bs : List Block) (h' : HandleS) :
    ¬ AskS sampleEnv (fun _ => false) (fun b _ => .ok b) ⟨some (exLine (4 :: exAnswerBytes.take 20) n), sampleCtx, .attached⟩
      [none, some (exLine [] m)] (.select sampleQuery true (bs.length + 1)) (.items (bs.map .block ++ [.ended])) h' := by
  refine C89_checked_cut_partial _ _ _ _ _ _ _ _ _ [] (fun k e => by cases e; exact exLine_issued _ _ _) (by
    intro k hk
    simp only [List.mem_cons, reduceCtorEq, Option.some.injEq, List.not_mem_nil, or_false, false_or] at hk
    subst hk
    exact ⟨[], exLine_issued _ _ _⟩) rfl ?_
  rintro k (e | e)
  · cases e
    refine ⟨rfl, "UTC".toList, exSaid, exAnswerBytes, exAnswerBytes.drop 20, exAnswer_readable, rfl, ?_, ?_, exAnswer_laid⟩
    · rw [exLine_bytes, List.cons_append, List.take_append_drop]
    · intro h
      have := congrArg List.length h
      rw [List.length_drop, List.length_nil] at this
      have : 20 < exAnswerBytes.length := by simp [exAnswerBytes, exHeaderBytes, putFrame, frameHeader]; omega
      omega
  · simp only [List.mem_cons, reduceCtorEq, Option.some.injEq, List.not_mem_nil, or_false, false_or] at e
    subst e
    exact ⟨rfl, "UTC".toList, exSaid, exAnswerBytes, 4 :: exAnswerBytes, exAnswer_readable, rfl, by rw [exLine_bytes]; rfl, nofun, exAnswer_laid⟩

/-- The hypotheses of `C89_prefix_partial`. -/
example : ∃ (n : Nat) (bs : List Block) (h' : HandleS) (ps : List Packet), AskS sampleEnv (fun _ => false) (fun b _ => .ok b) ⟨some (exLine exAnswerBytes n), uncheckedCtx, .attached⟩ []
      (.select sampleQuery true (bs.length + 1)) (.items (bs.map .block ++ [.ended])) h' ∧ ps.length = 3 ∧
    blocksGot (bs.map .block ++ [.ended]) <+: resultBlocks true (ps.map .packet) := by
  obtain ⟨n, bs, h', -, h⟩ := exLine_served uncheckedCtx true
  obtain ⟨ps, said', g1, g2, -, g3⟩ := C89_prefix_partial _ _ _ _ _ _ _ _ _ _ _ _ _ (exLine_issued _ _ _) rfl h (tz := "UTC".toList)
    (missing := []) rfl (by rw [exLine_bytes, List.append_nil]; exact exAnswer_laid) exAnswer_readable
  exact ⟨n, bs, h', ps, h, g2.trans g1.1, g3⟩

/-- The hypotheses of `C89_cut_partial`: the answer with the message that ends it cut off. -/
example (n : Nat) (bs : List Block) (h' : HandleS) :
    ¬ AskS sampleEnv (fun _ => false) (fun b _ => .ok b) ⟨some (exLine (exAnswerBytes.take (exAnswerBytes.length - 1)) n), uncheckedCtx, .attached⟩ []
      (.select sampleQuery true (bs.length + 1)) (.items (bs.map .block ++ [.ended])) h' :=
  C89_cut_partial _ _ _ _ _ _ _ _ _ _ _ _ (exLine_issued _ _ _) rfl (tz := "UTC".toList)
    (missing := exAnswerBytes.drop (exAnswerBytes.length - 1)) rfl (by rw [exLine_bytes, List.take_append_drop]; exact exAnswer_laid)
    (by
      intro h
      have := congrArg List.length h
      rw [List.length_drop, List.length_nil] at this
      have : 0 < exAnswerBytes.length := by simp [exAnswerBytes]
      omega) exAnswer_readable

/-- The hypotheses of `C89_exception_partial`: after the header and a row, an exception. -/
example : ∃ x, exAnswerBytes = x ++ [5] ∧ ∀ (n : Nat) (bs : List Block) (h' : HandleS),
    ¬ AskS sampleEnv (fun _ => false) (fun b _ => .ok b)
      ⟨some (exLine (x ++ encException ⟨60, "DB::Exception", "Table does not exist", ""⟩) n), uncheckedCtx, .attached⟩ []
      (.select sampleQuery true (bs.length + 1)) (.items (bs.map .block ++ [.ended])) h' := by
  obtain ⟨x, g1, g2⟩ := exAnswer_laid
  exact ⟨x, g2, fun n bs h' => C89_exception_partial _ _ _ _ _ _ _ _ _ _ _ _ (exLine_issued _ _ _) rfl (tz := "UTC".toList) (more := []) rfl
    (by rw [exLine_bytes, List.append_nil]) g1 ⟨by decide, by decide, by decide, by decide⟩ exAnswer_readable⟩

/-- The hypotheses of `C89_unanswered_partial`: a connection on which the ping is answered and then an exception comes. -/
example (n : Nat) (h' : HandleS) : ¬ AskS sampleEnv (fun _ => false) (fun b _ => .ok b)
    ⟨some (exLine (4 :: encException ⟨60, "DB::Exception", "Table does not exist", ""⟩) n), sampleCtx, .attached⟩ [] (.execute sampleQuery) (.items []) h' := by
  refine (C89_unanswered_partial _ _ _ _ _ _ _ false [] [] (fun k e => by cases e; exact exLine_issued _ _ _)
    (fun k hk => absurd hk List.not_mem_nil) ?_).1
  rintro k (e | e)
  · cases e
    exact ⟨rfl, .exception (tz := "UTC".toList) (said := []) (x := []) (more := []) rfl (by rw [exLine_bytes, List.append_nil]; rfl) .nil
      ⟨by decide, by decide, by decide, by decide⟩ nofun⟩
  · cases e

end CH.Props
