import Verif.Lemmas.Total
import Verif.Lemmas.Cancel

/-! Lemmas for C87: an operation that waits for ever may be abandoned where it waits. -/

namespace CH.Total
open CH CH.Spec

variable {env : Env}

theorem silent_stalls {s : PStream} {revs : List ReadEv} {w : Writer} (h : Silent env .waits s revs w) : ∃ s' left w', Stalls env s revs w s' left w' := by
  obtain ⟨out, s', left, wl, hp, -⟩ := h 1
  exact ⟨_, _, _, .once hp⟩

theorem loop_cut {σ : Type} {f : σ → Except Err (Packet × Option Sock) → σ ⊕ OpErr} {v : σ} {s : PStream} {revs : List ReadEv} {w : Writer}
    (h : LoopSilent env .waits f v s revs w) : ∃ o, LoopCut env f v s revs w o := by
  induction h with
  | here h =>
    obtain ⟨_, _, _, h⟩ := silent_stalls h
    exact ⟨_, .here h⟩
  | item h hf _ ih =>
    obtain ⟨o, ih⟩ := ih
    exact ⟨o, .item h hf ih⟩

theorem then_cut {α : Type} {P : OpRes α → Prop} {N : Prop} {M : α → Prop} {C : Bytes → Prop} {D : α → Bytes → Prop} (h : ThenSilent P N M)
    (hn : N → ∃ o, C o) (hm : ∀ a, M a → ∃ o, D a o) : ∃ o, ThenCut P C D o := by
  rcases h with h | ⟨h, hd⟩
  · obtain ⟨o, h⟩ := hn h
    exact ⟨o, .first h⟩
  · obtain ⟨o, hd⟩ := hm _ hd
    exact ⟨o, .second h hd⟩

theorem clear_cut {k : Sock} (h : ClearSilent env .waits k) : ∃ o, ClearCut env k o := by
  obtain ⟨o, ho⟩ := loop_cut h.2
  exact ⟨o, h.1, ho⟩

theorem execute_cut {k : Sock} {q : Query} {ctx : Context} (h : ExecuteSilent env .waits k q ctx) : ∃ o, ExecuteCut env k q ctx o :=
  then_cut h clear_cut fun _ => loop_cut

theorem insertTail_cut {ctx : Context} {q : Query} (bs : List Block) : ∀ {k : Sock}, InsertTailSilent env .waits ctx q bs k →
    ∃ o, InsertTailCut env ctx q bs k o := by
  induction bs with
  | nil => exact nofun
  | cons b bs ih => exact fun h => then_cut h loop_cut fun _ h => then_cut h loop_cut fun _ => ih

theorem insert_cut {cast : Block → Block → Out Block} {k : Sock} {q : Query} {ctx : Context} {b : Block}
    (h : InsertSilent env .waits cast k q ctx b) : ∃ o, InsertCut env cast k q ctx b o := by
  refine then_cut h clear_cut fun k h => then_cut h loop_cut ?_
  rintro x ⟨b', ch, chs, h1, h2, h3⟩
  obtain ⟨o, h3⟩ := then_cut h3 loop_cut fun _ => insertTail_cut chs
  exact ⟨o, b', ch, chs, h1, h2, h3⟩

theorem ping_cut {h : HandleS} (hp : PingSilent env .waits h) : ∃ k o, h.inner = some k ∧ PingCut env k o := by
  obtain ⟨k, hi, hk⟩ := hp
  obtain ⟨o, ho⟩ := then_cut hk clear_cut fun _ => loop_cut
  exact ⟨k, o, hi, ho⟩

theorem attempt_done {skip : Bool} {h h' : HandleS} {r : OpRes Unit} (ha : AttemptS env skip h r h') : AttemptT env skip h r h' := by
  unfold AttemptS at ha
  unfold AttemptT
  split <;> rename_i hs
  · rw [if_pos hs] at ha; exact ha
  · rw [if_neg hs] at ha; exact .done ha

theorem retry_cut {pooled : Bool} {max a : Nat} {skip : Bool} {h : HandleS} {w : WorldS} (hr : RetrySilent env .waits pooled max a skip h w) :
    ∃ h' w', RetryT env pooled max a skip h w .waits h' w' := by
  induction hr with
  | pinging hp =>
    obtain ⟨k, o, hi, ho⟩ := ping_cut hp
    exact ⟨_, _, .pinging (by unfold AttemptT; rw [if_neg nofun]; exact .abandoned hi ho)⟩
  | opening _ ha hs => exact ⟨_, _, .opening (attempt_done ha) hs⟩
  | again ha hm _ ih =>
    obtain ⟨_, _, ih⟩ := ih
    exact ⟨_, _, .again (attempt_done ha) hm ih⟩
  | reconnected ha hs _ ih =>
    obtain ⟨_, _, ih⟩ := ih
    exact ⟨_, _, .reconnected (attempt_done ha) hs ih⟩

theorem retry_done {pooled : Bool} {max a : Nat} {skip : Bool} {h h' : HandleS} {w w' : WorldS} {r : OpRes Unit}
    (hr : RetryS env pooled max a skip h w r h' w') : RetryT env pooled max a skip h w r h' w' := by
  induction hr with
  | ok ha => exact .ok (attempt_done ha)
  | panic ha => exact .panic (attempt_done ha)
  | last ha hm => exact .last (attempt_done ha) hm
  | refused ha hs hm => exact .refused (attempt_done ha) hs hm
  | again ha hm _ ih => exact .again (attempt_done ha) hm ih
  | reconnected ha hs _ ih => exact .reconnected (attempt_done ha) hs ih

theorem precheck_done {h h' : HandleS} {w w' : WorldS} {r : OpRes Unit} (hp : PrecheckS env h w r h' w') : PrecheckT env h w r h' w' := by
  cases hp with
  | off hp => exact .off hp
  | unbound hp hb => exact .unbound hp hb
  | ok hp hb hr => exact .ok hp hb (retry_done hr)
  | failed hp hb hn hr => exact .failed hp hb hn (retry_done hr)

theorem precheck_cut {h : HandleS} {w : WorldS} (hp : PrecheckSilent env .waits h w) : ∃ h' w', PrecheckT env h w .waits h' w' := by
  obtain ⟨h1, b, h2, h3⟩ := hp
  obtain ⟨h', w', h3⟩ := retry_cut h3
  exact ⟨h', w', .failed h1 h2 nofun h3⟩

theorem checked_cut {P : Sock → Context → OpRes Sock → Prop} {N : Sock → Context → Prop} {C : Sock → Context → Bytes → Prop} {h : HandleS}
    {w : WorldS} (hc : CheckedSilent env .waits N h w) (hn : ∀ k ctx, N k ctx → ∃ o, C k ctx o) :
    ∃ h' w', CheckedT env P C h w .waits h' w' := by
  rcases hc with hp | ⟨hp, hi, hk⟩
  · obtain ⟨h', w', hp⟩ := precheck_cut hp
    exact ⟨h', w', .failed hp nofun⟩
  · obtain ⟨o, ho⟩ := hn _ _ hk
    exact ⟨_, _, .abandoned (precheck_done hp) hi ho⟩

theorem checked_done {P : Sock → Context → OpRes Sock → Prop} {C : Sock → Context → Bytes → Prop} {h h' : HandleS} {w w' : WorldS}
    {r : OpRes Unit} (hc : Checked env P h w r h' w') : CheckedT env P C h w r h' w' := by
  cases hc with
  | failed hp hn => exact .failed (precheck_done hp) hn
  | gone hp hi => exact .gone (precheck_done hp) hi
  | done hp hi hd => exact .done (precheck_done hp) hi hd

theorem open_done {h h' : HandleS} {q : Query} {skip : Bool} {w w' : WorldS} {r : OpRes BStreamS} (ho : OpenS env h q skip w r h' w') :
    OpenT env h q skip w r h' w' := by
  cases ho with
  | failed hp => exact .failed (precheck_done hp)
  | panic hp => exact .panic (precheck_done hp)
  | unbound hp hb => exact .unbound (precheck_done hp) hb
  | gone hp hb hi => exact .gone (precheck_done hp) hb hi
  | opened hp hb hi => exact .opened (precheck_done hp) hb hi

theorem read_cut {s : BStreamS} (h : ReadSilent env .waits s) : ∃ s', ReadWaits env s s' := by
  induction h with
  | here h =>
    obtain ⟨_, _, _, h⟩ := silent_stalls h
    exact ⟨_, .here h⟩
  | profile ha _ ih =>
    obtain ⟨_, ih⟩ := ih
    exact ⟨_, .profile ha ih⟩
  | progress ha _ ih =>
    obtain ⟨_, ih⟩ := ih
    exact ⟨_, .progress ha ih⟩
  | skipped ha hk _ ih =>
    obtain ⟨_, ih⟩ := ih
    exact ⟨_, .skipped ha hk ih⟩

theorem read_detached {s s' : BStreamS} {h h' : HandleS} {it : BItem} (hb : h.binding = .detached) (hr : ReadS env s h it s' h') :
    s'.state = .reading → h'.binding = .detached := by
  induction hr with
  | eof _ _ => exact nofun
  | eofAttach _ _ _ => exact nofun
  | eofPanic _ _ hat => rw [hb] at hat; cases hat
  | profile _ _ ih => exact ih hb
  | progress _ _ ih => exact ih hb
  | skipped _ _ _ ih => exact ih hb
  | _ => exact fun _ => hb

theorem next_detached {s s' : BStreamS} {h h' : HandleS} {it : BItem} (hb : s.state = .reading → h.binding = .detached)
    (hn : NextS env s h it s' h') : s'.state = .reading → h'.binding = .detached := by
  unfold NextS at hn
  split at hn
  · next hs => exact read_detached (hb hs) hn
  · next hs => obtain ⟨-, rfl, rfl⟩ := hn; exact hb
  · next hs => obtain ⟨-, rfl, rfl⟩ := hn; exact hb

theorem run_cut {n : Nat} {s : BStreamS} {h : HandleS} (hr : RunSilent env .waits n s h) (hb : s.state = .reading → h.binding = .detached) :
    ∃ m is s' h' s'' h'', m < n ∧ RunS env m s h is s' h' ∧ NextWaits env s' s'' ∧ s''.drop h' = some h'' := by
  induction hr with
  | @here n s h hs hr =>
    obtain ⟨s'', hw⟩ := read_cut hr
    have h1 := Cancel.readWaits_state hw
    obtain ⟨t, ht⟩ := h1.2
    refine ⟨0, [], s, h, s'', { h with binding := .attached, inner := some ⟨{ t with inconsistent := true }, s''.revs, s''.writer⟩ },
      Nat.succ_pos _, .zero, ⟨hs, hw⟩, ?_⟩
    unfold BStreamS.drop
    rw [h1.1, hs, hb hs, ht]
    rfl
  | next hn _ ih =>
    obtain ⟨m, is, s', h', s'', h'', h0, h1, h2⟩ := ih (next_detached hb hn)
    exact ⟨m + 1, _, _, _, _, _, Nat.succ_lt_succ h0, .succ hn h1, h2⟩

theorem ask_cut {numeric : Char → Bool} {cast : Block → Block → Out Block} {h : HandleS} {w : WorldS} {a : Wish}
    (hs : AskSilent env .waits numeric cast h w a) : ∃ h', AskT env numeric cast h w a none h' := by
  cases hs with
  | ping hp =>
    obtain ⟨k, o, hi, ho⟩ := ping_cut hp
    exact ⟨_, .ping (.abandoned hi ho) .abandoned⟩
  | execute hx =>
    obtain ⟨_, _, hx⟩ := checked_cut (P := fun k ctx => ExecuteS env k _ ctx) hx fun k ctx => execute_cut
    exact ⟨_, .execute hx .abandoned⟩
  | @insert t b q hq hx =>
    obtain ⟨h', w', hx⟩ := checked_cut (P := fun k ctx => InsertS env cast k q ctx b) hx fun k ctx => insert_cut
    refine ⟨_, .insert (r := .waits) (h' := h') (w' := w') ?_ .abandoned⟩
    unfold HandleS.insertT
    rw [hq]
    exact hx
  | opening ho =>
    obtain ⟨_, _, ho⟩ := precheck_cut ho
    exact ⟨_, .checkAbandoned (.abandoned ho) (.inl rfl)⟩
  | reading ho hr =>
    have hb : ∀ {s h1 w1 q skip}, OpenS env h q skip w (.ok s) h1 w1 → h1.binding = .detached := by
      intro s h1 w1 q skip ho
      cases ho with
      | opened _ hb _ => exact (Cancel.detach_some hb).2
    obtain ⟨m, is, s', h', s'', h'', -, h1, h2, h3⟩ := run_cut hr fun _ => hb ho
    exact ⟨_, .nextAbandoned (open_done ho) h1 h2 h3 (.inl rfl)⟩

theorem ask_done {numeric : Char → Bool} {cast : Block → Block → Out Block} {h h' : HandleS} {w : WorldS} {a : Wish} {r : Reply}
    (ha : AskS env numeric cast h w a r h') : AskT env numeric cast h w a (some r) h' := by
  have hins : ∀ {t b r w'}, h.insert env numeric cast t b w r h' w' → h.insertT env numeric cast t b w r h' w' := by
    intro t b r w' hi
    unfold HandleS.insert at hi
    unfold HandleS.insertT
    cases hq : makeQuery numeric t b with
    | ok q => rw [hq] at hi; exact checked_done hi
    | err e => rw [hq] at hi; exact hi
    | panic => rw [hq] at hi; exact hi
  cases ha with
  | ping hp => exact .ping (.done hp) .ok
  | pingErr hp => exact .ping (.done hp) (.err _)
  | execute hx => exact .execute (checked_done hx) .ok
  | executeErr hx => exact .execute (checked_done hx) (.err _)
  | select ho hr hd => exact .select (open_done ho) hr hd
  | selectErr ho => exact .selectErr (open_done ho)
  | insert hi => exact .insert (hins hi) .ok
  | insertErr hi => exact .insert (hins hi) (.err _)

end CH.Total
