import Verif.Spec.Cancel
import Verif.Lemmas.Outage

namespace CH.Cancel
open CH CH.Spec CH.Socket CH.Outage

/-! ### Waiting streams -/

theorem stalls_awaits {env : Env} {s s1 s' : PStream} {revs revs1 left : List ReadEv} {w w1 w' : Writer} {r : PPoll}
    (h : Stalls env s revs w s1 revs1 w1) : AwaitsS env s1 revs1 w1 r s' left w' → AwaitsS env s revs w r s' left w' := by
  induction h with
  | once h => exact .again h
  | more h _ ih => exact fun ha => .again h (ih ha)

theorem awaits_stalls {env : Env} {s s1 s' : PStream} {revs revs1 left : List ReadEv} {w w1 w' : Writer} {r : PPoll}
    (h : Stalls env s revs w s1 revs1 w1) : AwaitsS env s revs w r s' left w' → AwaitsS env s1 revs1 w1 r s' left w' := by
  induction h with
  | once h =>
    intro ha
    cases ha with
    | ready h' hr => rw [h] at h'; cases h'; exact absurd rfl hr
    | again h' t => rw [h] at h'; cases h'; exact t
  | more h _ ih =>
    intro ha
    cases ha with
    | ready h' hr => rw [h] at h'; cases h'; exact absurd rfl hr
    | again h' t => rw [h] at h'; cases h'; exact ih t

theorem stalls_issued {env : Env} {s s1 : PStream} {revs revs1 : List ReadEv} {w w1 : Writer} {lg : List Cmd}
    (h : Stalls env s revs w s1 revs1 w1) : IssuedS env s w lg → IssuedS env s1 w1 lg := by
  induction h with
  | once h => exact fun hi => (poll_hears h hi).2.1
  | more h _ ih => exact fun hi => ih (poll_hears h hi).2.1

theorem stalls_inner {env : Env} {s s1 : PStream} {revs revs1 : List ReadEv} {w w1 : Writer} (h : Stalls env s revs w s1 revs1 w1) :
    s.inner ≠ none := by
  cases h with
  | once h => intro e; exact absurd (poll_none e h).2.1 (by simp)
  | more h => intro e; exact absurd (poll_none e h).2.1 (by simp)

theorem pending_inner {env : Env} {s s' : PStream} {out : Bytes} {revs left : List ReadEv} {wevs wleft : List WriteEv}
    (h : s.pollNext env revs wevs = (.pending, out, s', left, wleft)) : ∃ t, s'.inner = some t := by
  cases hi : s.inner with
  | none => exact absurd (poll_none hi h).2.1 (by simp)
  | some t =>
    by_cases hd : s.state = .done
    · obtain ⟨inner, st, b⟩ := s
      simp only at hi hd
      subst hi hd
      simp [PStream.pollNext, PStream.finish] at h
    · obtain ⟨used, t', _, _, _, _, _, _, _, _, _, h7⟩ := pstream_poll_spec hi hd h
      rcases h7 with ⟨i1, _⟩ | ⟨_, _, _, e, _⟩
      · exact ⟨t', i1⟩
      · cases e

theorem stalls_has {env : Env} {s s1 : PStream} {revs revs1 : List ReadEv} {w w1 : Writer} (h : Stalls env s revs w s1 revs1 w1) :
    ∃ t, s1.inner = some t := by
  induction h with
  | once h => exact pending_inner h
  | more _ _ ih => exact ih

theorem stalls_taken {env : Env} {s s1 : PStream} {revs revs1 : List ReadEv} {w w1 : Writer} {lg : List Cmd}
    (h : Stalls env s revs w s1 revs1 w1) (hi : IssuedS env s w lg) : w1.out <+: cmdBytes env.codec lg := by
  obtain ⟨t, e⟩ := stalls_has h
  exact ⟨_, (stalls_issued h hi t e).2⟩

theorem loopCut_inner {σ : Type} {env : Env} {f : σ → Except Err (Packet × Option Sock) → σ ⊕ OpErr} {v : σ} {s : PStream}
    {revs : List ReadEv} {w : Writer} {o : Bytes} (h : LoopCut env f v s revs w o) : s.inner ≠ none := by
  cases h with
  | here h => exact stalls_inner h
  | item ha => intro e; cases (await_none ha e).2
  | bad ha => intro e; cases (await_none ha e).2
  | broken _ ha => intro e; cases (await_none ha e).2

/-- A waiting loop has sent nothing but what was to be sent. -/
theorem loopCut_taken {σ : Type} {env : Env} {f : σ → Except Err (Packet × Option Sock) → σ ⊕ OpErr} {v : σ} {s : PStream}
    {revs : List ReadEv} {w : Writer} {o : Bytes} {lg : List Cmd} (h : LoopCut env f v s revs w o) :
    IssuedS env s w lg → o <+: cmdBytes env.codec lg := by
  induction h with
  | here h => exact stalls_taken h
  | item ha _ _ ih => exact fun hi => ih (await_hears ha hi (by simp)).2.1
  | bad ha _ _ ih => exact fun hi => ih (await_hears ha hi (by simp)).2.1
  | broken _ ha _ _ ih => exact fun hi => ih (await_hears ha hi (by simp)).2.1

theorem next_silent {lg : List Cmd} {s : PStream} {cs : CStream} (hl : Like lg [] s cs) (hn : s.inner ≠ none) (hd : s.state ≠ .done) :
    ∃ cs', cs.next = (.waits, cs') := by
  cases hl with
  | gone => exact absurd rfl hn
  | @has t st b =>
    have : decide (st = PState.done) = false := by simpa using hd
    rw [this]
    exact ⟨_, next_nil rfl⟩

theorem stalls_state {env : Env} {s s1 : PStream} {revs revs1 : List ReadEv} {w w1 : Writer} (h : Stalls env s revs w s1 revs1 w1) :
    s.state ≠ .done := by
  have hi := stalls_inner h
  obtain ⟨inner, st, b⟩ := s
  rintro rfl
  cases inner with
  | none => exact hi rfl
  | some t => cases h with
    | once h => simp [PStream.pollNext, PStream.finish] at h
    | more h => simp [PStream.pollNext, PStream.finish] at h

/-- A waiting loop over the socket is one on messages that waits. -/
theorem loopCut_hears {σ τ : Type} {env : Env} {held : σ → Option Sock} {R : (Sock → Conn → Prop) → σ → τ → Prop}
    {f : σ → Except Err (Packet × Option Sock) → σ ⊕ OpErr} {g : τ → Except Err (Packet × Option Conn) → τ ⊕ OpErr}
    (hb : Holding held R f g) {lg : List Cmd} {v : σ} {s : PStream} {revs : List ReadEv} {w : Writer} {o : Bytes}
    (h : LoopCut env f v s revs w o) : IssuedS env s w lg →
    ∃ xs, HearsS env s revs w.evs xs ∧ ∀ u cs, R (Hear lg []) v u → Like lg xs s cs → cs.loop g u = .waits := by
  induction h with
  | here h =>
    refine fun _ => ⟨[], fun _ _ => .stop, fun u cs _ hl => ?_⟩
    obtain ⟨cs', e⟩ := next_silent hl (stalls_inner h) (stalls_state h)
    exact loop_waits e
  | @item v v' s revs w s' left w' p t o ha hf hl ih =>
    intro hi
    obtain ⟨g1, g2, g3⟩ := await_hears ha hi (by simp)
    cases t with
    | some t => exact absurd (await_taken ha rfl) (loopCut_inner hl)
    | none =>
      obtain ⟨xs', hx', hc⟩ := ih g2
      obtain ⟨xs, hx, hfo⟩ := g1 .overflow xs' hx'
      refine ⟨xs, hx, fun u cs hu hlk => ?_⟩
      obtain ⟨x, cs', hn, hl', hm⟩ := hfo cs hlk
      cases hm
      have hst := (hb.same (Hear lg [])).item p (o := none) (o' := none) hu .none
      rw [show f v (.ok (p, none)) = .inl v' from hf] at hst
      cases hg : g u (.ok (p, none)) with
      | inl u' =>
        rw [hg] at hst
        cases hst with
        | go hu' => rw [loop_item hn, hg]; exact hc u' cs' hu' hl'
      | inr e => rw [hg] at hst; cases hst
  | @bad v v' s revs w s' left w' e o ha hf _ ih =>
    intro hi
    obtain ⟨g1, g2, g3⟩ := await_hears ha hi (by simp)
    obtain ⟨xs', hx', hc⟩ := ih g2
    obtain ⟨xs, hx, hfo⟩ := g1 e xs' hx'
    refine ⟨xs, hx, fun u cs hu hlk => ?_⟩
    obtain ⟨x, cs', hn, hl', hm⟩ := hfo cs hlk
    cases hm
    have hst := (hb.same (Hear lg [])).error e hu
    rw [hf] at hst
    cases hg : g u (.error e) with
    | inl u' =>
      rw [hg] at hst
      cases hst with
      | go hu' => rw [loop_error hn, hg]; exact hc u' cs' hu' hl'
    | inr e => rw [hg] at hst; cases hst
  | @broken v v' s revs w s' left w' o e ha hf _ ih =>
    intro hi
    obtain ⟨g1, g2, g3⟩ := await_hears ha hi (by simp)
    obtain ⟨xs', hx', hc⟩ := ih g2
    obtain ⟨xs, hx, hfo⟩ := g1 e xs' hx'
    refine ⟨xs, hx, fun u cs hu hlk => ?_⟩
    obtain ⟨x, cs', hn, hl', hm⟩ := hfo cs hlk
    cases hm
    have hst := (hb.same (Hear lg [])).error e hu
    rw [hf] at hst
    cases hg : g u (.error e) with
    | inl u' =>
      rw [hg] at hst
      cases hst with
      | go hu' => rw [loop_error hn, hg]; exact hc u' cs' hu' hl'
    | inr e => rw [hg] at hst; cases hst


/-! ### Operations on a connection -/

theorem clear_issued {env : Env} {k k' : Sock} {lg : List Cmd} (h : Issued env k lg) (hr : ClearS env k (.ok k')) :
    Issued env k' (lg ++ cancelFirst k) := by
  rw [ClearS] at hr
  rw [cancelFirst]
  split at hr
  · next hi =>
    rw [if_pos hi]
    cases hr with
    | @ok a _ hu hq =>
      cases hq
      cases hu with
      | some hl =>
        have := (loop_call holding_clear h ⟨_, rfl⟩ hl).1
        exact ⟨this.encodable, this.written⟩
  · next hi =>
    cases hr
    rw [if_neg hi, List.append_nil]
    exact h

theorem readOne_issued {env : Env} {k k' : Sock} {lg : List Cmd} {cmd : Cmd} {b : Option Block} (h : Issued env k lg)
    (hc : ∃ b, cmd.encode env.codec = .ok b) (hr : ReadOneS env k cmd (.ok (k', b))) : Issued env k' (lg ++ [cmd]) := by
  have hi : IssuedS env { k.t.call cmd with readBlock := true } k.writer (lg ++ [cmd]) := call_issued h hc
  cases hr with
  | done hl => exact (loop_hears holding_readBlock hl hi nofun).1 k' rfl

theorem sendInsert_issued {env : Env} {k : Sock} {lg : List Cmd} {ctx : Context} {q : Query} {x : Sock × Block} (h : Issued env k lg)
    (hr : SendInsertS env k ctx q (.ok x)) : Issued env x.1 (lg ++ [.sendQuery q ctx]) := by
  cases hr with
  | @ok a _ h1 hq =>
    obtain ⟨k', o⟩ := a
    cases o with
    | none => cases hq
    | some d => cases hq; exact readOne_issued h (query_encodes env q ctx) h1

theorem insertBlock_issued {env : Env} {k k' : Sock} {lg : List Cmd} {ctx : Context} {b : Block} (h : Issued env k lg)
    (hb : ∃ x, (Cmd.union (.sendData b ctx) (.sendData Block.new ctx)).encode env.codec = .ok x) (hr : InsertBlockS env k ctx b (.ok k')) :
    Issued env k' (lg ++ [.union (.sendData b ctx) (.sendData Block.new ctx)]) := by
  cases hr with
  | @ok a _ h1 hq =>
    obtain ⟨k', o⟩ := a
    cases hq
    exact readOne_issued h hb h1

theorem readOne_taken {env : Env} {k : Sock} {lg : List Cmd} {cmd : Cmd} {o : Bytes} (h : Issued env k lg)
    (hc : ∃ b, cmd.encode env.codec = .ok b) (hr : ReadOneCut env k cmd o) : o <+: cmdBytes env.codec (lg ++ [cmd]) :=
  loopCut_taken hr (call_issued h hc)

theorem clear_taken {env : Env} {k : Sock} {lg : List Cmd} {o : Bytes} (h : Issued env k lg) (hr : ClearCut env k o) :
    o <+: cmdBytes env.codec (lg ++ cancelFirst k) := by
  rw [cancelFirst, if_pos hr.1]
  exact loopCut_taken hr.2 (call_issued h ⟨_, rfl⟩)

theorem taken_more {env : Env} {lg l : List Cmd} {o : Bytes} (h : o <+: cmdBytes env.codec lg) : o <+: cmdBytes env.codec (lg ++ l) := by
  rw [cmdBytes_append]
  exact h.trans (List.prefix_append _ _)

theorem execute_taken {env : Env} {k : Sock} {lg : List Cmd} {q : Query} {ctx : Context} {o : Bytes} (h : Issued env k lg)
    (hr : ExecuteCut env k q ctx o) : o <+: cmdBytes env.codec (lg ++ cancelFirst k ++ [.sendQuery q ctx]) := by
  cases hr with
  | first hc => exact taken_more (clear_taken h hc)
  | second hc hd => exact loopCut_taken hd (call_issued (clear_issued h hc) (query_encodes env q ctx))

theorem ping_taken {env : Env} {k : Sock} {lg : List Cmd} {o : Bytes} (h : Issued env k lg)
    (hr : PingCut env k o) : o <+: cmdBytes env.codec (lg ++ cancelFirst k ++ [.ping]) := by
  cases hr with
  | first hc => exact taken_more (clear_taken h hc)
  | second hc hd => exact loopCut_taken hd (call_issued (clear_issued h hc) ⟨_, rfl⟩)

theorem insertTail_taken {env : Env} {ctx : Context} {q : Query} (bs : List Block)
    (hb : ∀ b ∈ bs, ∃ x, (Cmd.union (.sendData b ctx) (.sendData Block.new ctx)).encode env.codec = .ok x) :
    ∀ {k : Sock} {lg : List Cmd} {o : Bytes}, Issued env k lg → InsertTailCut env ctx q bs k o →
      o <+: cmdBytes env.codec (lg ++ bs.flatMap fun b => [.sendQuery q ctx, .union (.sendData b ctx) (.sendData Block.new ctx)]) := by
  induction bs with
  | nil => intro k lg o _ hr; exact hr.elim
  | cons b bs ih =>
    intro k lg o h hr
    rw [InsertTailCut] at hr
    have e : lg ++ (b :: bs).flatMap (fun b => [.sendQuery q ctx, .union (.sendData b ctx) (.sendData Block.new ctx)]) =
        lg ++ [.sendQuery q ctx] ++ [.union (.sendData b ctx) (.sendData Block.new ctx)] ++
          bs.flatMap fun b => [.sendQuery q ctx, .union (.sendData b ctx) (.sendData Block.new ctx)] := by simp
    rw [e]
    cases hr with
    | first hc => exact taken_more (taken_more (readOne_taken h (query_encodes env q ctx) hc))
    | second hs hd =>
      have h1 := sendInsert_issued h hs
      cases hd with
      | first hc => exact taken_more (readOne_taken h1 (hb b (.head _)) hc)
      | second hs hd =>
        exact ih (fun b hm => hb b (.tail _ hm)) (insertBlock_issued h1 (hb b (.head _)) hs) hd

theorem insert_taken {env : Env} {cast : Block → Block → Out Block} {k : Sock} {lg : List Cmd} {ctx : Context} {q t : Query} {b : Block}
    {o : Bytes} (h : Issued env k lg) (hb : DataEncodes env cast ctx (.insert t b)) (hr : InsertCut env cast k q ctx b o) :
    o <+: cmdBytes env.codec (lg ++ cancelFirst k ++ [.sendQuery q ctx]) ∨
    ∃ d b' chs, cast b d = .ok b' ∧ insertChunks b' = .ok chs ∧ o <+: cmdBytes env.codec (lg ++ cancelFirst k ++
      chs.flatMap fun ch => [.sendQuery q ctx, .union (.sendData ch ctx) (.sendData Block.new ctx)]) := by
  cases hr with
  | first hc => exact .inl (taken_more (clear_taken h hc))
  | second hc hd =>
    have h1 := clear_issued h hc
    cases hd with
    | first hs => exact .inl (readOne_taken h1 (query_encodes env q ctx) hs)
    | @second x _ hs hd =>
      obtain ⟨b', ch, chs, hca, hch, hd⟩ := hd
      have h2 := sendInsert_issued h1 hs
      have he := fun c => hb _ b' _ c hca hch
      refine .inr ⟨x.2, b', _, hca, hch, ?_⟩
      have e : lg ++ cancelFirst k ++ (ch :: chs).flatMap (fun b => [.sendQuery q ctx, .union (.sendData b ctx) (.sendData Block.new ctx)]) =
          lg ++ cancelFirst k ++ [.sendQuery q ctx] ++ [.union (.sendData ch ctx) (.sendData Block.new ctx)] ++
            chs.flatMap fun b => [.sendQuery q ctx, .union (.sendData b ctx) (.sendData Block.new ctx)] := by simp
      rw [e]
      cases hd with
      | first hc => exact taken_more (readOne_taken h2 (he ch (.head _)) hc)
      | second hs hd =>
        exact insertTail_taken chs (fun b hm => he b (.tail _ hm)) (insertBlock_issued h2 (he ch (.head _)) hs) hd

/-! ### A ping that times out -/

theorem clear_waits {env : Env} {k : Sock} {lg : List Cmd} {o : Bytes} (h : Issued env k lg) (hr : ClearCut env k o) :
    ∃ xs, HearsOn env k xs ∧ (heardConn k lg xs).clear = .waits := by
  obtain ⟨xs, hx, hf⟩ := loopCut_hears holding_clear hr.2 (call_issued h ⟨_, rfl⟩)
  refine ⟨xs, call_hears hx, ?_⟩
  rw [clear_eq, if_pos (show (heardConn k lg xs).inconsistent = true from hr.1), hf none _ .none (call_like k lg _ xs)]
  rfl

theorem pingC_waits {env : Env} {k : Sock} {lg : List Cmd} {o : Bytes} (h : Issued env k lg) (hr : PingCut env k o) :
    ∃ xs, HearsOn env k xs ∧ pingC (heardConn k lg xs) = .waits := by
  cases hr with
  | first hc =>
    obtain ⟨xs, hx, e⟩ := clear_waits h hc
    exact ⟨xs, hx, by rw [pingC, e]; rfl⟩
  | second hc hd =>
    obtain ⟨lg', hi, hf⟩ := clear_sim h hc
    obtain ⟨ys, hy, hw⟩ := loopCut_hears holding_ping hd (call_issued hi ⟨_, rfl⟩)
    obtain ⟨xs, hx, e⟩ := hf ys (call_hears hy)
    refine ⟨xs, hx, ?_⟩
    rw [pingC, e]
    show pingEnd _ = _
    rw [hw none _ .none (call_like _ _ _ ys)]
    rfl

/-! ### Handles -/

theorem ping_timeout {c : Conn} {ctx : Context} {b : Binding} (hx : pingC c = .waits) :
    (Handle.mk (some c) ctx b).ping = (.err .timeout, ⟨none, ctx, b⟩) := by
  rw [pingC] at hx
  simp only [Handle.ping]
  cases hc : c.clear with
  | ok c1 =>
    rw [hc] at hx
    simp only [andThen] at hx
    cases hl : (c1.call .ping).loop pingBody none with
    | fell v => rw [hl] at hx; cases v <;> simp [pingEnd] at hx
    | failed e => rw [hl] at hx; simp [pingEnd] at hx
    | waits => simp [hl]
  | err e => rw [hc] at hx; simp [andThen] at hx
  | panic => rw [hc] at hx; simp [andThen] at hx
  | waits => rfl

theorem pingT_sim {env : Env} {h h' : HandleS} {lg : List Cmd} {r : OpRes Unit} (hi : IssuedIn env h lg) (hp : PingT env h r h')
    (hn : r ≠ .waits) : SimH env h lg Handle.ping r h' := by
  cases hp with
  | done hp => exact ping_sim hi hp
  | @timeout k o hk hc =>
    obtain ⟨xs, hx, e⟩ := pingC_waits (hi k hk) hc
    refine ⟨[], nofun, fun ys _ => ⟨xs, fun k' e' => by rw [hk] at e'; cases e'; exact hx, ?_⟩⟩
    simp only [heardHandle, hk, Option.map_some, Option.map_none]
    exact ping_timeout e
  | abandoned => exact absurd rfl hn

theorem attemptT_sim {env : Env} {skip : Bool} {h h' : HandleS} {lg : List Cmd} {r : OpRes Unit} (hi : IssuedIn env h lg)
    (hp : AttemptT env skip h r h') (hn : r ≠ .waits) :
    SimH env h lg (fun hc => if skip then (OpRes.err OpErr.connect, hc) else hc.ping) r h' := by
  rw [AttemptT] at hp
  cases skip with
  | true =>
    obtain ⟨rfl, rfl⟩ := hp
    exact ⟨lg, hi, fun ys hy => ⟨ys, hy, rfl⟩⟩
  | false => exact pingT_sim hi hp hn

theorem retryT_sim {env : Env} {pooled skip : Bool} {max a : Nat} {h h' : HandleS} {w w' : WorldS} {r : OpRes Unit}
    (hr : RetryT env pooled max a skip h w r h' w') : r ≠ .waits → ∀ {lg : List Cmd}, IssuedIn env h lg → IssuedWorld env w →
      SimW env h w lg (retryLoop pooled max a skip) r h' w' := by
  induction hr with
  | ok ha =>
    intro hn0 lg hi hw
    obtain ⟨lg', hi', hf⟩ := attemptT_sim hi ha nofun
    refine ⟨lg', hi', hw, fun ys wc' hy hwc => ?_⟩
    obtain ⟨xs, hx, e⟩ := hf ys hy
    exact ⟨xs, wc', hx, hwc, by simp only at e; rw [retryLoop_eq, e]⟩
  | panic ha =>
    intro hn0 lg hi hw
    obtain ⟨lg', hi', hf⟩ := attemptT_sim hi ha nofun
    refine ⟨lg', hi', hw, fun ys wc' hy hwc => ?_⟩
    obtain ⟨xs, hx, e⟩ := hf ys hy
    exact ⟨xs, wc', hx, hwc, by simp only at e; rw [retryLoop_eq, e]⟩
  | last ha hm =>
    intro hn0 lg hi hw
    obtain ⟨lg', hi', hf⟩ := attemptT_sim hi ha nofun
    refine ⟨lg', hi', hw, fun ys wc' hy hwc => ?_⟩
    obtain ⟨xs, hx, e⟩ := hf ys hy
    exact ⟨xs, wc', hx, hwc, by simp only at e; rw [retryLoop_eq, e]; simp [hm]⟩
  | @refused a skip h w h' er ha hs hm =>
    intro hn0 lg hi hw
    obtain ⟨lg', hi', hf⟩ := attemptT_sim hi ha nofun
    refine ⟨lg', hi', fun k hk => hw k (List.mem_cons_of_mem _ hk), fun ys wc' hy hwc => ?_⟩
    obtain ⟨xs, hx, e⟩ := hf ys hy
    have : skip = true := hs.resolve_right (by omega)
    subst this
    exact ⟨xs, none :: wc', hx, .refused hwc, by
      rw [retryLoop_eq, show (if true = true then (OpRes.err OpErr.connect, heardHandle h lg xs) else (heardHandle h lg xs).ping) = _ from e]
      simp [hm]⟩
  | @again a skip h w h' er r h'' w'' ha hm _ ih =>
    intro hn0 lg hi hw
    obtain ⟨lg', hi', hf⟩ := attemptT_sim hi ha nofun
    obtain ⟨lg2, hi2, hw2, hf2⟩ := ih hn0 hi' (fun k hk => hw k (List.mem_cons_of_mem _ hk))
    refine ⟨lg2, hi2, hw2, fun ys wc' hy hwc => ?_⟩
    obtain ⟨xs2, wc2, hx2, hwc2, e2⟩ := hf2 ys wc' hy hwc
    obtain ⟨xs, hx, e⟩ := hf xs2 hx2
    have hn : ¬ max ≤ a := by omega
    exact ⟨xs, none :: wc2, hx, .refused hwc2, by simp only at e; rw [retryLoop_eq, e]; simp [hn, e2]⟩
  | @reconnected a skip h w h' er k r h'' w'' ha hs _ ih =>
    intro hn0 lg hi hw
    obtain ⟨lg', hi', hf⟩ := attemptT_sim hi ha nofun
    obtain ⟨lgk, hik⟩ := hw k List.mem_cons_self
    obtain ⟨lg2, hi2, hw2, hf2⟩ := ih hn0 (lg := lgk) (fun k' e => by cases e; exact hik) (fun k hk => hw k (List.mem_cons_of_mem _ hk))
    refine ⟨lg2, hi2, hw2, fun ys wc' hy hwc => ?_⟩
    obtain ⟨xs2, wc2, hx2, hwc2, e2⟩ := hf2 ys wc' hy hwc
    obtain ⟨xs, hx, e⟩ := hf [] (fun _ _ => .stop)
    refine ⟨xs, some (heardConn k lgk xs2) :: wc2, hx, .opened hik (hx2 k rfl) hwc2, ?_⟩
    simp only at e
    rw [retryLoop_eq, e]
    have hn : (!skip && decide (max ≤ a)) = false := by
      rcases hs with hs | hs
      · simp [hs]
      · have : ¬ max ≤ a := by omega
        simp [this]
    have e2' : retryLoop pooled max a false ⟨some (heardConn k lgk xs2), h'.context, if pooled then .attached else .none⟩ wc2 = _ := e2
    simp [hn, heardHandle, e2']
  | pinging => intro hn0; exact absurd rfl hn0
  | opening => intro hn0; exact absurd rfl hn0
  | sleeping => intro hn0; exact absurd rfl hn0

theorem precheckT_sim {env : Env} {h h' : HandleS} {w w' : WorldS} {r : OpRes Unit} {lg : List Cmd} (hp : PrecheckT env h w r h' w') (hnw : r ≠ .waits)
    (hi : IssuedIn env h lg) (hw : IssuedWorld env w) : SimW env h w lg Handle.precheck r h' w' := by
  cases hp with
  | off hp =>
    refine ⟨lg, hi, hw, fun ys wc' hy hwc => ⟨ys, wc', hy, hwc, ?_⟩⟩
    rw [Handle.precheck, show (heardHandle h lg ys).context = h.context from rfl, hp]; rfl
  | unbound hp hb =>
    refine ⟨lg, hi, hw, fun ys wc' hy hwc => ⟨ys, wc', hy, hwc, ?_⟩⟩
    rw [Handle.precheck, show (heardHandle h lg ys).context = h.context from rfl, if_pos hp, Handle.checkConnection,
      show (heardHandle h lg ys).binding = h.binding from rfl, hb]; rfl
  | @ok b h1 _ hp hb hr =>
    obtain ⟨lg', hi', hw', hf⟩ := retryT_sim hr nofun (lg := lg) hi hw
    refine ⟨lg', hi', hw', fun ys wc' hy hwc => ?_⟩
    obtain ⟨xs, wc, hx, hwc', e⟩ := hf ys wc' hy hwc
    refine ⟨xs, wc, hx, hwc', ?_⟩
    have e' : retryLoop true h.context.options.sendRetries 0 false ⟨(heardHandle h lg xs).inner, h.context, b⟩ wc = _ := e
    rw [Handle.precheck, show (heardHandle h lg xs).context = h.context from rfl, if_pos hp, Handle.checkConnection,
      show (heardHandle h lg xs).binding = h.binding from rfl, hb]
    simp only [retryGuard]
    rw [show (heardHandle h lg xs).context = h.context from rfl, e']
    rfl
  | @failed b _ h1 _ hp hb hn hr =>
    obtain ⟨lg', hi', hw', hf⟩ := retryT_sim hr hnw (lg := lg) hi hw
    refine ⟨lg', hi', hw', fun ys wc' hy hwc => ?_⟩
    obtain ⟨xs, wc, hx, hwc', e⟩ := hf ys wc' hy hwc
    refine ⟨xs, wc, hx, hwc', ?_⟩
    have e' : retryLoop true h.context.options.sendRetries 0 false ⟨(heardHandle h lg xs).inner, h.context, b⟩ wc = _ := e
    rw [Handle.precheck, show (heardHandle h lg xs).context = h.context from rfl, if_pos hp, Handle.checkConnection,
      show (heardHandle h lg xs).binding = h.binding from rfl, hb]
    simp only [retryGuard]
    rw [show (heardHandle h lg xs).context = h.context from rfl, e']
    cases r with
    | ok u => exact absurd rfl hn
    | _ => rfl

theorem pingT_context {env : Env} {h h' : HandleS} {r : OpRes Unit} (hp : PingT env h r h') : h'.context = h.context := by
  cases hp with
  | done hp => exact Socket.ping_context hp
  | timeout => rfl
  | abandoned => rfl

theorem attemptT_context {env : Env} {skip : Bool} {h h' : HandleS} {r : OpRes Unit} (hp : AttemptT env skip h r h') :
    h'.context = h.context := by
  rw [AttemptT] at hp
  cases skip with
  | true => rw [hp.2]
  | false => exact pingT_context hp

theorem retryT_context {env : Env} {pooled skip : Bool} {max a : Nat} {h h' : HandleS} {w w' : WorldS} {r : OpRes Unit}
    (hr : RetryT env pooled max a skip h w r h' w') : h'.context = h.context := by
  induction hr with
  | ok ha => exact attemptT_context ha
  | panic ha => exact attemptT_context ha
  | last ha => exact attemptT_context ha
  | refused ha => exact attemptT_context ha
  | again ha _ _ ih => rw [ih]; exact attemptT_context ha
  | reconnected ha _ _ ih => rw [ih]; exact (attemptT_context ha :)
  | pinging ha => exact attemptT_context ha
  | opening ha => exact attemptT_context ha
  | sleeping ha => exact attemptT_context ha

theorem precheckT_context {env : Env} {h h' : HandleS} {w w' : WorldS} {r : OpRes Unit} (hp : PrecheckT env h w r h' w') :
    h'.context = h.context := by
  cases hp with
  | off => rfl
  | unbound => rfl
  | ok _ _ hr => exact (retryT_context hr :)
  | failed _ _ _ hr => exact (retryT_context hr :)

theorem checkedT_sim {env : Env} {P : Sock → Context → OpRes Sock → Prop} {F : Conn → Context → OpRes Conn} {h h' : HandleS}
    {w w' : WorldS} {C : Sock → Context → Bytes → Prop} {r : OpRes Unit} {lg : List Cmd}
    (hP : ∀ k lg r, Issued env k lg → P k h.context r → SimC env k lg (fun c => F c h.context) r) (hi : IssuedIn env h lg)
    (hw : IssuedWorld env w) (hr : CheckedT env P C h w r h' w') (hnw : r ≠ .waits) (hnt : r ≠ .err .timeout) : SimW env h w lg (checkedC F) r h' w' := by
  cases hr with
  | failed hp hn =>
    obtain ⟨lg', hi', hw', hf⟩ := precheckT_sim hp hnw hi hw
    refine ⟨lg', hi', hw', fun ys wc' hy hwc => ?_⟩
    obtain ⟨xs, wc, hx, hwc', e⟩ := hf ys wc' hy hwc
    refine ⟨xs, wc, hx, hwc', ?_⟩
    rw [checkedC, e]
    cases r with
    | ok u => exact absurd rfl hn
    | _ => rfl
  | gone hp hin =>
    obtain ⟨lg', hi', hw', hf⟩ := precheckT_sim hp nofun hi hw
    refine ⟨lg', hi', hw', fun ys wc' hy hwc => ?_⟩
    obtain ⟨xs, wc, hx, hwc', e⟩ := hf ys wc' hy hwc
    refine ⟨xs, wc, hx, hwc', ?_⟩
    rw [checkedC, e]
    simp [heardHandle, hin]
  | @done h1 _ k _ _ hp hin hd =>
    obtain ⟨lg1, hi1, hw', hf⟩ := precheckT_sim hp nofun hi hw
    have hctx := precheckT_context hp
    obtain ⟨-, lg', hi', hf'⟩ := put_sim (F := fun c => F c h.context) (fun r hr => hP k lg1 r (hi1 k hin) (by rw [hctx] at hr; exact hr)) hd
    refine ⟨lg', hi', hw', fun ys wc' hy hwc => ?_⟩
    obtain ⟨zs, hz, e1⟩ := hf' ys hy
    obtain ⟨xs, wc, hx, hwc', e⟩ := hf zs wc' (fun k' e' => by rw [hin] at e'; cases e'; exact hz) hwc
    refine ⟨xs, wc, hx, hwc', ?_⟩
    have e2 := e1 (some (heardConn k lg1 zs))
    rw [checkedC, e]
    simp only [heardHandle, hin, Option.map_some, hctx] at e2 ⊢
    rw [e2]
  | checkTimeout => exact absurd rfl hnt
  | timeout => exact absurd rfl hnt
  | abandoned => exact absurd rfl hnw

theorem openT_sim {env : Env} {h h' : HandleS} {w w' : WorldS} {q : Query} {skip : Bool} {s : BStreamS} {lg : List Cmd}
    (hi : IssuedIn env h lg) (hw : IssuedWorld env w) (hr : OpenT env h q skip w (.ok s) h' w') :
    ∃ lg', IssuedB env s h' lg' ∧ ∀ ys, HearsB env s h' ys → ∃ xs wc b wc', HearsIn env h xs ∧ HearsWorld env w wc ∧
      (heardHandle h lg xs).openStream q skip wc = (.ok b, heardHandle h' lg' ys, wc') ∧ LikeB lg' ys s b := by
  cases hr with
  | @opened h1 _ bd k hp hb hin =>
    obtain ⟨lg1, hi1, hw1, hf⟩ := precheckT_sim hp nofun hi hw
    refine ⟨lg1 ++ [.sendQuery q h1.context], ⟨call_issued (hi1 k hin) (query_encodes env q _), nofun, nofun⟩, fun ys hy => ?_⟩
    obtain ⟨wc1, hwc1⟩ := world_some hw1
    obtain ⟨xs, wc, hx, hwc, e⟩ := hf ys wc1 (fun k' e' => by rw [hin] at e'; cases e'; exact call_hears hy.stream) hwc1
    refine ⟨xs, wc, ⟨(heardConn k lg1 ys).call (.sendQuery q h1.context), .reading, 0, skip⟩, wc1, hx, hwc, ?_, ⟨call_like k lg1 (.sendQuery q h1.context) ys, rfl, rfl, rfl⟩⟩
    rw [Handle.openStream, e]
    simp only [heardHandle, hb, hin, Option.map_some]
    rfl

theorem openT_err_sim {env : Env} {h h' : HandleS} {w w' : WorldS} {q : Query} {skip : Bool} {er : OpErr} {lg : List Cmd}
    (hi : IssuedIn env h lg) (hw : IssuedWorld env w) (hr : OpenT env h q skip w (.err er) h' w') :
    ∃ lg', IssuedIn env h' lg' ∧ ∀ ys, HearsIn env h' ys → ∃ xs wc wc', HearsIn env h xs ∧ HearsWorld env w wc ∧
      (heardHandle h lg xs).openStream q skip wc = (.err er, heardHandle h' lg' ys, wc') := by
  cases hr with
  | failed hp =>
    obtain ⟨lg1, hi1, hw1, hf⟩ := precheckT_sim hp nofun hi hw
    obtain ⟨wc1, hwc1⟩ := world_some hw1
    refine ⟨lg1, hi1, fun ys hy => ?_⟩
    obtain ⟨xs, wc, hx, hwc, e⟩ := hf ys wc1 hy hwc1
    exact ⟨xs, wc, wc1, hx, hwc, by rw [Handle.openStream, e]⟩
  | @gone h1 _ bd hp hb hin =>
    obtain ⟨lg1, hi1, hw1, hf⟩ := precheckT_sim hp nofun hi hw
    obtain ⟨wc1, hwc1⟩ := world_some hw1
    refine ⟨lg1, hi1, fun ys hy => ?_⟩
    obtain ⟨xs, wc, hx, hwc, e⟩ := hf ys wc1 hy hwc1
    refine ⟨xs, wc, wc1, hx, hwc, ?_⟩
    rw [Handle.openStream, e]
    simp only [heardHandle, hb, hin, Option.map_none]

theorem insertT_sim {env : Env} {numeric : Char → Bool} {cast : Block → Block → Out Block} {h h' : HandleS}
    {w w' : WorldS} {t : Query} {b : Block} {r : OpRes Unit} {lg : List Cmd} (hi : IssuedIn env h lg) (hw : IssuedWorld env w)
    (hb : DataEncodes env cast h.context (.insert t b)) (hr : h.insertT env numeric cast t b w r h' w') (hnw : r ≠ .waits) (hnt : r ≠ .err .timeout) :
    SimW env h w lg (fun hc wc => hc.insert numeric cast t b wc) r h' w' := by
  rw [funext fun hc => funext fun wc => insert_checked numeric cast hc t b wc]
  rw [HandleS.insertT] at hr
  cases hq : makeQuery numeric t b with
  | ok q =>
    rw [hq] at hr
    exact checkedT_sim (fun k lg r hk hr => insert_sim (t := t) hk hb hr) hi hw hr hnw hnt
  | err e =>
    rw [hq] at hr
    obtain ⟨rfl, rfl, rfl⟩ := hr
    exact ⟨lg, hi, hw, fun ys wc hy hwc => ⟨ys, wc, hy, hwc, rfl⟩⟩
  | panic =>
    rw [hq] at hr
    obtain ⟨rfl, rfl, rfl⟩ := hr
    exact ⟨lg, hi, hw, fun ys wc hy hwc => ⟨ys, wc, hy, hwc, rfl⟩⟩

theorem executeT_sim {env : Env} {h h' : HandleS} {w w' : WorldS} {q : Query} {r : OpRes Unit} {lg : List Cmd} (hi : IssuedIn env h lg)
    (hw : IssuedWorld env w) (hr : h.executeT env q w r h' w') (hnw : r ≠ .waits) (hnt : r ≠ .err .timeout) : SimW env h w lg (fun hc wc => hc.execute q wc) r h' w' := by
  rw [funext fun hc => funext fun wc => execute_checked hc q wc]
  exact checkedT_sim (fun k lg r hk hr => execute_sim hk hr) hi hw hr hnw hnt

/-- What a user's program comes to if nothing in it is abandoned. -/
theorem askT_sim {env : Env} {numeric : Char → Bool} {cast : Block → Block → Out Block} {h h' : HandleS} {w : WorldS} {a : Wish}
    {r : Reply} {lg : List Cmd} (ha : AskT env numeric cast h w a (some r) h') (hr : a = .ping ∨ r ≠ .failed .timeout)
    (hi : IssuedIn env h lg) (hw : IssuedWorld env w) (he : DataEncodes env cast h.context a) :
    ∃ lg', IssuedIn env h' lg' ∧ ∀ ys, HearsIn env h' ys → ∃ xs wc, HearsIn env h xs ∧ HearsWorld env w wc ∧
      askW numeric cast (heardHandle h lg xs) wc a = some (r, heardHandle h' lg' ys) := by
  have plain : ∀ {F : Handle → World → OpRes Unit × Handle × World} {x : OpRes Unit} {w' : WorldS},
      SimW env h w lg F x h' w' →
      (∀ hc wc hc' wc', F hc wc = (x, hc', wc') → askW numeric cast hc wc a = some (r, hc')) →
      ∃ lg', IssuedIn env h' lg' ∧ ∀ ys, HearsIn env h' ys → ∃ xs wc, HearsIn env h xs ∧ HearsWorld env w wc ∧
        askW numeric cast (heardHandle h lg xs) wc a = some (r, heardHandle h' lg' ys) := by
    rintro F x w' ⟨lg', hi', hw', hf⟩ hF
    obtain ⟨wc', hwc'⟩ := world_some hw'
    refine ⟨lg', hi', fun ys hy => ?_⟩
    obtain ⟨xs, wc, hx, hwc, e⟩ := hf ys wc' hy hwc'
    exact ⟨xs, wc, hx, hwc, hF _ _ _ _ e⟩
  cases ha with
  | @ping x _ _ hp hg =>
    have hx : x ≠ .waits := by rintro rfl; cases hg
    obtain ⟨lg', hi', hf⟩ := pingT_sim hi hp hx
    obtain ⟨wc, hwc⟩ := world_some hw
    refine ⟨lg', hi', fun ys hy => ?_⟩
    obtain ⟨xs, hx, e⟩ := hf ys hy
    exact ⟨xs, wc, hx, hwc, by cases hg <;> simp [askW, e]⟩
  | execute hx hg =>
    have hr := hr.resolve_left nofun
    cases hg with
    | ok => exact plain (executeT_sim hi hw hx nofun nofun) fun hc wc hc' wc' e => by simp [askW, e]
    | err er =>
      exact plain (executeT_sim hi hw hx nofun (by intro e; cases e; exact hr rfl)) fun hc wc hc' wc' e => by simp [askW, e]
  | insert hx hg =>
    have hr := hr.resolve_left nofun
    cases hg with
    | ok => exact plain (insertT_sim hi hw he hx nofun nofun) fun hc wc hc' wc' e => by simp [askW, e]
    | err er =>
      exact plain (insertT_sim hi hw he hx nofun (by intro e; cases e; exact hr rfl)) fun hc wc hc' wc' e => by simp [askW, e]
  | select ho hrun hd =>
    obtain ⟨lg', hi1, hf⟩ := openT_sim hi hw ho
    obtain ⟨hi2, hf2⟩ := run_sim hrun hi1
    obtain ⟨hi3, hf3⟩ := drop_sim hd hi2
    refine ⟨lg', hi3, fun ys hy => ?_⟩
    obtain ⟨vs, hv, e3⟩ := hf3 ys hy
    obtain ⟨zs, hz, e2⟩ := hf2 vs hv
    obtain ⟨xs, wc, b, wc', hx, hwc, e, hl⟩ := hf zs hz
    obtain ⟨b', hl', e2⟩ := e2 b hl
    exact ⟨xs, wc, hx, hwc, by simp [askW, e, e2, e3 b' hl']⟩
  | selectErr ho =>
    obtain ⟨lg', hi1, hf⟩ := openT_err_sim hi hw ho
    refine ⟨lg', hi1, fun ys hy => ?_⟩
    obtain ⟨xs, wc, wc', hx, hwc, e⟩ := hf ys hy
    exact ⟨xs, wc, hx, hwc, by simp [askW, e]⟩
  | checkAbandoned _ ha => 
    rcases ha with ha | ha
    · cases ha
    · cases ha; exact absurd rfl (hr.resolve_left nofun)
  | nextAbandoned _ _ _ _ ha => 
    rcases ha with ha | ha
    · cases ha
    · cases ha; exact absurd rfl (hr.resolve_left nofun)

/-! ### Awaiting a block, given up and taken up again -/

theorem awaits_det {env : Env} {s s1 s2 : PStream} {revs l1 l2 : List ReadEv} {w w1 w2 : Writer} {r1 r2 : PPoll}
    (h : AwaitsS env s revs w r1 s1 l1 w1) : AwaitsS env s revs w r2 s2 l2 w2 → r1 = r2 ∧ s1 = s2 ∧ l1 = l2 ∧ w1 = w2 := by
  induction h with
  | ready h hr =>
    intro h'
    cases h' with
    | ready h' hr' => rw [h] at h'; cases h'; exact ⟨rfl, rfl, rfl, rfl⟩
    | again h' _ => rw [h] at h'; cases h'; exact absurd rfl hr
  | again h _ ih =>
    intro h'
    cases h' with
    | ready h' hr' => rw [h] at h'; cases h'; exact absurd rfl hr'
    | again h' t => rw [h] at h'; cases h'; exact ih t

theorem read_stall {env : Env} {s : BStreamS} {i : PStream} {l : List ReadEv} {wl : Writer} (h : Stalls env s.inner s.revs s.writer i l wl)
    {hd hd' : HandleS} {it : BItem} {s' : BStreamS} (hr : ReadS env { s with inner := i, revs := l, writer := wl } hd it s' hd') :
    ReadS env s hd it s' hd' := by
  cases hr with
  | ended ha => exact .ended (stalls_awaits h ha)
  | bad ha => exact .bad (stalls_awaits h ha)
  | broken ha => exact .broken (stalls_awaits h ha)
  | eof ha x1 => exact .eof (stalls_awaits h ha) x1
  | eofAttach ha x1 x2 => exact .eofAttach (stalls_awaits h ha) x1 x2
  | eofPanic ha x1 x2 => exact .eofPanic (stalls_awaits h ha) x1 x2
  | profile ha x1 => exact .profile (stalls_awaits h ha) x1
  | progress ha x1 => exact .progress (stalls_awaits h ha) x1
  | exception ha => exact .exception (stalls_awaits h ha)
  | block ha x1 => exact .block (stalls_awaits h ha) x1
  | skipped ha x1 x2 => exact .skipped (stalls_awaits h ha) x1 x2
  | unexpected ha x1 x2 x3 x4 x5 => exact .unexpected (stalls_awaits h ha) x1 x2 x3 x4 x5

theorem read_unstall {env : Env} {s : BStreamS} {i : PStream} {l : List ReadEv} {wl : Writer} (h : Stalls env s.inner s.revs s.writer i l wl)
    {hd hd' : HandleS} {it : BItem} {s' : BStreamS} (hr : ReadS env s hd it s' hd') :
    ReadS env { s with inner := i, revs := l, writer := wl } hd it s' hd' := by
  cases hr with
  | ended ha => exact .ended (awaits_stalls h ha)
  | bad ha => exact .bad (awaits_stalls h ha)
  | broken ha => exact .broken (awaits_stalls h ha)
  | eof ha x1 => exact .eof (awaits_stalls h ha) x1
  | eofAttach ha x1 x2 => exact .eofAttach (awaits_stalls h ha) x1 x2
  | eofPanic ha x1 x2 => exact .eofPanic (awaits_stalls h ha) x1 x2
  | profile ha x1 => exact .profile (awaits_stalls h ha) x1
  | progress ha x1 => exact .progress (awaits_stalls h ha) x1
  | exception ha => exact .exception (awaits_stalls h ha)
  | block ha x1 => exact .block (awaits_stalls h ha) x1
  | skipped ha x1 x2 => exact .skipped (awaits_stalls h ha) x1 x2
  | unexpected ha x1 x2 x3 x4 x5 => exact .unexpected (awaits_stalls h ha) x1 x2 x3 x4 x5

theorem readWaits_state {env : Env} {s s1 : BStreamS} (h : ReadWaits env s s1) : s1.state = s.state ∧ ∃ t, s1.inner.inner = some t := by
  induction h with
  | here h => exact ⟨rfl, stalls_has h⟩
  | profile _ _ ih => exact ih
  | progress _ _ ih => exact ih
  | skipped _ _ _ ih => exact ih

theorem read_resumed {env : Env} {s s1 : BStreamS} (h : ReadWaits env s s1) {hd hd' : HandleS} {it : BItem} {s' : BStreamS} :
    ReadS env s1 hd it s' hd' ↔ ReadS env s hd it s' hd' := by
  induction h with
  | here h => exact ⟨read_stall h, read_unstall h⟩
  | profile ha _ ih =>
    refine ih.trans ⟨fun hr => .profile ha hr, fun hr => ?_⟩
    cases hr with
    | ended ha' => cases (awaits_det ha ha').1
    | bad ha' => cases (awaits_det ha ha').1
    | broken ha' => cases (awaits_det ha ha').1
    | eof ha' x1 => cases (awaits_det ha ha').1
    | eofAttach ha' x1 x2 => cases (awaits_det ha ha').1
    | eofPanic ha' x1 x2 => cases (awaits_det ha ha').1
    | profile ha' x1 =>
      obtain ⟨-, rfl, rfl, rfl⟩ := awaits_det ha ha'
      exact x1
    | progress ha' x1 => cases (awaits_det ha ha').1
    | exception ha' => cases (awaits_det ha ha').1
    | block ha' x1 => cases (awaits_det ha ha').1
    | skipped ha' x1 x2 => cases (awaits_det ha ha').1
    | unexpected ha' x1 x2 x3 x4 x5 =>
      obtain ⟨e, -⟩ := awaits_det ha ha'
      cases e
      exact absurd rfl (x2 _)
  | progress ha _ ih =>
    refine ih.trans ⟨fun hr => .progress ha hr, fun hr => ?_⟩
    cases hr with
    | ended ha' => cases (awaits_det ha ha').1
    | bad ha' => cases (awaits_det ha ha').1
    | broken ha' => cases (awaits_det ha ha').1
    | eof ha' x1 => cases (awaits_det ha ha').1
    | eofAttach ha' x1 x2 => cases (awaits_det ha ha').1
    | eofPanic ha' x1 x2 => cases (awaits_det ha ha').1
    | profile ha' x1 => cases (awaits_det ha ha').1
    | progress ha' x1 =>
      obtain ⟨-, rfl, rfl, rfl⟩ := awaits_det ha ha'
      exact x1
    | exception ha' => cases (awaits_det ha ha').1
    | block ha' x1 => cases (awaits_det ha ha').1
    | skipped ha' x1 x2 => cases (awaits_det ha ha').1
    | unexpected ha' x1 x2 x3 x4 x5 =>
      obtain ⟨e, -⟩ := awaits_det ha ha'
      cases e
      exact absurd rfl (x3 _)
  | skipped ha hk _ ih =>
    refine ih.trans ⟨fun hr => .skipped ha hk hr, fun hr => ?_⟩
    cases hr with
    | ended ha' => cases (awaits_det ha ha').1
    | bad ha' => cases (awaits_det ha ha').1
    | broken ha' => cases (awaits_det ha ha').1
    | eof ha' x1 => cases (awaits_det ha ha').1
    | eofAttach ha' x1 x2 => cases (awaits_det ha ha').1
    | eofPanic ha' x1 x2 => cases (awaits_det ha ha').1
    | profile ha' x1 => cases (awaits_det ha ha').1
    | progress ha' x1 => cases (awaits_det ha ha').1
    | exception ha' => cases (awaits_det ha ha').1
    | block ha' x1 =>
      obtain ⟨e, -⟩ := awaits_det ha ha'
      cases e
      rw [hk] at x1
      cases x1
    | skipped ha' x1 x2 =>
      obtain ⟨-, rfl, rfl, rfl⟩ := awaits_det ha ha'
      exact x2
    | unexpected ha' x1 x2 x3 x4 x5 =>
      obtain ⟨e, -⟩ := awaits_det ha ha'
      cases e
      exact absurd rfl (x5 _)

/-! ### What an abandoned operation leaves -/

theorem pingS_none {env : Env} {h h' : HandleS} {r : OpRes Unit} (hp : PingS env h r h') (hr : r ≠ .ok ()) : h'.inner = none := by
  rw [PingS] at hp
  cases hi : h.inner with
  | none => rw [hi] at hp; rw [hp.2]; exact hi
  | some k =>
    rw [hi] at hp
    cases hp with
    | ok => exact absurd rfl hr
    | err => rfl
    | panic => rfl

theorem pingT_none {env : Env} {h h' : HandleS} {r : OpRes Unit} (hp : PingT env h r h') (hr : r ≠ .ok ()) : h'.inner = none := by
  cases hp with
  | done hp => exact pingS_none hp hr
  | timeout => rfl
  | abandoned => rfl

theorem pingT_binding {env : Env} {h h' : HandleS} {r : OpRes Unit} (hp : PingT env h r h') : h'.binding = h.binding := by
  cases hp with
  | done hp =>
    rw [PingS] at hp
    cases hi : h.inner with
    | none => rw [hi] at hp; rw [hp.2]
    | some k => rw [hi] at hp; cases hp <;> rfl
  | timeout => rfl
  | abandoned => rfl

theorem attemptT_none {env : Env} {skip : Bool} {h h' : HandleS} {r : OpRes Unit} (hp : AttemptT env skip h r h')
    (hs : skip = true → h.inner = none) (hr : r ≠ .ok ()) : h'.inner = none := by
  rw [AttemptT] at hp
  cases skip with
  | true => rw [hp.2]; exact hs rfl
  | false => exact pingT_none hp hr

theorem attemptT_binding {env : Env} {skip : Bool} {h h' : HandleS} {r : OpRes Unit} (hp : AttemptT env skip h r h') :
    h'.binding = h.binding := by
  rw [AttemptT] at hp
  cases skip with
  | true => rw [hp.2]
  | false => exact pingT_binding hp

theorem retryT_none {env : Env} {pooled skip : Bool} {max a : Nat} {h h' : HandleS} {w w' : WorldS} {r : OpRes Unit}
    (hr : RetryT env pooled max a skip h w r h' w') : (skip = true → h.inner = none) → r ≠ .ok () → h'.inner = none := by
  induction hr with
  | ok => intro _ hn; exact absurd rfl hn
  | panic ha => exact fun hs _ => attemptT_none ha hs nofun
  | last ha => exact fun hs _ => attemptT_none ha hs nofun
  | refused ha => exact fun hs _ => attemptT_none ha hs nofun
  | again ha _ _ ih => exact fun hs hn => ih (fun _ => attemptT_none ha hs nofun) hn
  | reconnected ha _ _ ih => exact fun hs hn => ih nofun hn
  | pinging ha => exact fun hs _ => attemptT_none ha hs nofun
  | opening ha => exact fun hs _ => attemptT_none ha hs nofun
  | sleeping ha => exact fun hs _ => attemptT_none ha hs nofun

theorem retryT_binding {env : Env} {skip : Bool} {max a : Nat} {h h' : HandleS} {w w' : WorldS} {r : OpRes Unit}
    (hr : RetryT env true max a skip h w r h' w') : h'.binding = h.binding ∨ h'.binding = .attached := by
  induction hr with
  | ok ha => exact .inl (attemptT_binding ha)
  | panic ha => exact .inl (attemptT_binding ha)
  | last ha => exact .inl (attemptT_binding ha)
  | refused ha => exact .inl (attemptT_binding ha)
  | again ha _ _ ih => rw [← attemptT_binding ha]; exact ih
  | reconnected ha _ _ ih => rcases ih with ih | ih <;> exact .inr ih
  | pinging ha => exact .inl (attemptT_binding ha)
  | opening ha => exact .inl (attemptT_binding ha)
  | sleeping ha => exact .inl (attemptT_binding ha)

theorem detach_some {b b' : Binding} (h : b.detach = some b') : b = .attached ∧ b' = .detached := by
  cases b <;> simp [Binding.detach] at h; exact ⟨rfl, h.symm⟩

/-- A check that does not come to its end well. -/
theorem precheckT_left {env : Env} {h h' : HandleS} {w w' : WorldS} {r : OpRes Unit} (hp : PrecheckT env h w r h' w') (hr : r ≠ .ok ())
    (hn : r ≠ .panic) : h.context.options.pingBeforeQuery = true ∧ h'.inner = none ∧ (h'.binding = .attached ∨ h'.binding = .detached) := by
  cases hp with
  | off => exact absurd rfl hr
  | unbound => exact absurd rfl hn
  | ok => exact absurd rfl hr
  | failed hp hb _ ht =>
    obtain ⟨_, rfl⟩ := detach_some hb
    exact ⟨hp, retryT_none ht nofun hr, (retryT_binding ht).symm⟩

theorem precheckT_binding {env : Env} {h h' : HandleS} {w w' : WorldS} (hp : PrecheckT env h w (.ok ()) h' w') :
    h'.binding = h.binding := by
  cases hp with
  | off => rfl
  | ok hp hb ht =>
    obtain ⟨e, rfl⟩ := detach_some hb
    rw [e]
    show (if _ then _ else _) = _
    rcases retryT_binding ht with hx | hx
    · rw [hx]; rfl
    · rw [hx]; rfl
  | failed _ _ hn => exact absurd rfl hn

/-- What an operation that was abandoned or timed out leaves: no connection, and a pool binding that is as it was, unless the check of the
connection was abandoned. -/
theorem checkedT_left {env : Env} {P : Sock → Context → OpRes Sock → Prop} {C : Sock → Context → Bytes → Prop} {h h' : HandleS}
    {w w' : WorldS} {r : OpRes Unit} (hc : CheckedT env P C h w r h' w') (hr : r = .waits ∨ r = .err .timeout) :
    h'.context = h.context ∧ h'.inner = none ∧ (h'.binding = h.binding ∨ h.context.options.pingBeforeQuery = true ∧
      (h'.binding = .attached ∨ h'.binding = .detached)) := by
  cases hc with
  | failed hp hn =>
    obtain ⟨a, b, c⟩ := precheckT_left hp hn (by rintro rfl; rcases hr with e | e <;> cases e)
    exact ⟨precheckT_context hp, b, .inr ⟨a, c⟩⟩
  | checkTimeout hp =>
    obtain ⟨a, b, c⟩ := precheckT_left hp nofun nofun
    exact ⟨precheckT_context hp, b, .inr ⟨a, c⟩⟩
  | gone => rcases hr with e | e <;> cases e
  | done hp hi hd =>
    refine ⟨by rw [put_context hd]; exact precheckT_context hp, ?_, .inl ?_⟩
    · cases hd with
      | ok => rcases hr with e | e <;> cases e
      | err => rfl
      | panic => rfl
    · rw [← precheckT_binding hp]; cases hd <;> rfl
  | timeout hp => exact ⟨(precheckT_context hp :), rfl, .inl (precheckT_binding hp :)⟩
  | abandoned hp => exact ⟨(precheckT_context hp :), rfl, .inl (precheckT_binding hp :)⟩

theorem insertT_left {env : Env} {numeric : Char → Bool} {cast : Block → Block → Out Block} {h h' : HandleS} {w w' : WorldS} {t : Query}
    {b : Block} {r : OpRes Unit} (hc : h.insertT env numeric cast t b w r h' w') (hr : r = .waits ∨ r = .err .timeout) :
    h'.context = h.context ∧ h'.inner = none ∧ (h'.binding = h.binding ∨ h.context.options.pingBeforeQuery = true ∧
      (h'.binding = .attached ∨ h'.binding = .detached)) := by
  rw [HandleS.insertT] at hc
  cases hq : makeQuery numeric t b with
  | ok q => rw [hq] at hc; exact checkedT_left hc hr
  | err e => rw [hq] at hc; rw [hc.1] at hr; rcases hr with e | e <;> cases e
  | panic => rw [hq] at hc; rw [hc.1] at hr; rcases hr with e | e <;> cases e

theorem openT_context {env : Env} {h h' : HandleS} {w w' : WorldS} {q : Query} {skip : Bool} {r : OpRes BStreamS}
    (hr : OpenT env h q skip w r h' w') : h'.context = h.context := by
  cases hr with
  | failed hp => exact precheckT_context hp
  | panic hp => exact precheckT_context hp
  | abandoned hp => exact precheckT_context hp
  | unbound hp _ => exact (precheckT_context hp :)
  | gone hp _ _ => exact (precheckT_context hp :)
  | opened hp _ _ => exact (precheckT_context hp :)

/-- A stream of blocks dropped while it is awaited leaves its connection, marked. -/
theorem drop_waits {env : Env} {s s1 : BStreamS} {h h' : HandleS} (hw : NextWaits env s s1) (hd : s1.drop h = some h') :
    h'.binding = .attached ∧ ∃ k, h'.inner = some k ∧ k.t.inconsistent = true := by
  obtain ⟨hs, t, ht⟩ := readWaits_state hw.2
  rw [BStreamS.drop, hs, hw.1] at hd
  simp only [ht] at hd
  split at hd
  · cases hd
  · next b hb =>
    cases hd
    refine ⟨?_, _, rfl, rfl⟩
    show b = _
    split at hb
    · cases hb; rfl
    · cases hx : h.binding <;> rw [hx] at hb <;> simp [Binding.attach] at hb; exact hb.symm

end CH.Cancel
