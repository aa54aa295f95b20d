import Verif.Lemmas.Socket
import Verif.Lemmas.Service

/-!
A connection on which the answers to all commands to come are on their way already gives every operation the same result as the
one on which they come upon the commands.
-/

namespace CH.Feed
open CH CH.Spec CH.Socket

theorem replies_append (server : List Cmd → List Inc) (a b : List Cmd) (log : List Cmd) :
    replies server log (a ++ b) = replies server log a ++ replies server (log ++ a) b := by
  induction a generalizing log with
  | nil => simp [replies]
  | cons x a ih => simp [replies, ih, List.append_assoc]

/-- `e` is `c` with `x` following what is on its way, and nothing more upon commands. -/
structure Fed (x : List Inc) (e c : Conn) : Prop where
  incoming : e.incoming = c.incoming ++ x
  marked : e.inconsistent = c.inconsistent
  mute : ∀ log, e.server log = []
  same : e.sent = c.sent

/-- The same, `c` being a connection to the server `server` that has received `log`. -/
structure FedAt (server : List Cmd → List Inc) (log : List Cmd) (x : List Inc) (c e : Conn) : Prop where
  fed : Fed x e c
  server : c.server = server
  sent : c.sent = log

/-- The same for streams of messages. -/
inductive FedStream (server : List Cmd → List Inc) (log : List Cmd) (x : List Inc) : CStream → CStream → Prop where
  | gone {f b} : FedStream server log x ⟨none, f, b⟩ ⟨none, f, b⟩
  | has {c e f b} (h : FedAt server log x c e) : FedStream server log x ⟨some c, f, b⟩ ⟨some e, f, b⟩

/-- The same for what they give. -/
inductive FedItem (server : List Cmd → List Inc) (log : List Cmd) (x : List Inc) : CItem → CItem → Prop where
  | item {p c e} (h : Both (FedAt server log x) c e) : FedItem server log x (.item p c) (.item p e)
  | error {e} : FedItem server log x (.error e) (.error e)
  | ended : FedItem server log x .ended .ended

variable {server : List Cmd → List Inc} {log : List Cmd} {x : List Inc}

theorem FedAt.rest {c e : Conn} {i : Inc} {rest : List Inc} (h : FedAt server log x c e) (hi : c.incoming = i :: rest) :
    e.incoming = i :: (rest ++ x) ∧ FedAt server log x { c with incoming := rest } { e with incoming := rest ++ x } := by
  refine ⟨by rw [h.fed.incoming, hi]; rfl, ⟨⟨rfl, h.fed.marked, h.fed.mute, h.fed.same⟩, h.server, h.sent⟩⟩

theorem next_fed {cs es : CStream} (h : FedStream server log x cs es) (hn : cs.next.1 ≠ .waits) :
    FedItem server log x cs.next.1 es.next.1 ∧ FedStream server log x cs.next.2 es.next.2 := by
  cases h with
  | gone => exact ⟨.ended, .gone⟩
  | @has c e f b h =>
    cases f with
    | true => rw [next_finished, next_finished]; exact ⟨.item (.some h), .gone⟩
    | false =>
      cases hi : c.incoming with
      | nil => rw [next_nil hi] at hn; exact absurd rfl hn
      | cons i rest =>
        obtain ⟨h1, h2⟩ := h.rest hi
        cases i with
        | packet p =>
          cases hp : p.takesConn with
          | true => rw [next_taken hi hp, next_taken h1 hp]; exact ⟨.item (.some h2), .gone⟩
          | false => rw [next_packet hi hp, next_packet h1 hp]; exact ⟨.item .none, .has h2⟩
        | error e => rw [next_err hi, next_err h1]; exact ⟨.error, .has h2⟩
        | closed => rw [next_closed hi, next_closed h1]; exact ⟨.ended, .has h2⟩

theorem loop_fed {σ : Type} {R : σ → σ → Prop} {f : σ → Except Err (Packet × Option Conn) → σ ⊕ OpErr}
    (hb : SameBody (FedAt server log x) R f f) (n : Nat) : ∀ {v u : σ} {cs es : CStream}, cs.fuel = n → FedStream server log x cs es →
      R v u → cs.loop f v ≠ .waits → SameEnd R (cs.loop f v) (es.loop f u) := by
  induction n using Nat.strongRecOn with
  | _ n ih =>
    intro v u cs es hf hs hv hw
    have hnw : cs.next.1 ≠ .waits := by
      intro hx
      apply hw
      cases hn : cs.next with
      | mk i cs' => rw [hn] at hx; exact loop_waits (by rw [hn]; exact congrArg (·, cs') hx)
    obtain ⟨g1, g2⟩ := next_fed hs hnw
    cases hn : cs.next with
    | mk i cs' =>
      cases hn' : es.next with
      | mk j es' =>
        rw [hn, hn'] at g1 g2
        simp only at g1 g2
        cases g1 with
        | @item p c e ho =>
          rw [loop_item hn] at hw ⊢
          rw [loop_item hn']
          have := hb.item p hv ho
          cases h1 : f v (.ok (p, c)) with
          | inl v' =>
            rw [h1] at this hw
            cases h2 : f u (.ok (p, e)) with
            | inl u' =>
              rw [h2] at this
              cases this with
              | go hr => exact ih _ (by rw [← hf]; exact CStream.next_item hn) rfl g2 hr hw
            | inr _ => rw [h2] at this; cases this
          | inr er =>
            rw [h1] at this
            cases h2 : f u (.ok (p, e)) with
            | inl u' => rw [h2] at this; cases this
            | inr _ => rw [h2] at this; cases this; exact .failed
        | @error e =>
          rw [loop_error hn] at hw ⊢
          rw [loop_error hn']
          have := hb.error e hv
          cases h1 : f v (.error e) with
          | inl v' =>
            rw [h1] at this hw
            cases h2 : f u (.error e) with
            | inl u' =>
              rw [h2] at this
              cases this with
              | go hr => exact ih _ (by rw [← hf]; exact CStream.next_error hn) rfl g2 hr hw
            | inr _ => rw [h2] at this; cases this
          | inr er =>
            rw [h1] at this
            cases h2 : f u (.error e) with
            | inl u' => rw [h2] at this; cases this
            | inr _ => rw [h2] at this; cases this; exact .failed
        | ended =>
          rw [loop_ended hn, loop_ended hn']
          exact .fell hv

/-! ### Operations on a connection -/

/-- Results of an operation on `c` and on the other connection, when the commands `cmds` were sent. -/
def Alike {α β : Type} (pr : α → Conn) (val : α → β) (c : Conn) (cmds : List Cmd) (x : List Inc) (a b : α) : Prop :=
  FedAt c.server (c.sent ++ cmds) x (pr a) (pr b) ∧ val a = val b

/-- An operation that does not wait sends certain commands and gives the same on a connection that has the answers to them already. -/
def Follows {α β : Type} (pr : α → Conn) (val : α → β) (f : Conn → OpRes α) : Prop :=
  ∀ c, f c ≠ .waits → ∃ cmds, ∀ x e, Fed (replies c.server c.sent cmds ++ x) e c → SameRes (Alike pr val c cmds x) (f c) (f e)

/-- Operations that give a connection only. -/
def one (_ : Conn) : Unit := ()

theorem follows_then {α β γ δ : Type} {pr : α → Conn} {val : α → β} {pr' : γ → Conn} {val' : γ → δ} {f : Conn → OpRes α}
    {g : β → Conn → OpRes γ} (hf : Follows pr val f) (hg : ∀ b, Follows pr' val' (g b)) :
    Follows pr' val' (fun c => andThen (f c) fun a => g (val a) (pr a)) := by
  intro c hw
  have hfw : f c ≠ .waits := by intro h; apply hw; simp only [h, andThen]
  obtain ⟨cmds, h1⟩ := hf c hfw
  cases ha : f c with
  | ok a =>
    rw [ha] at h1
    have hgw : g (val a) (pr a) ≠ .waits := by intro h; apply hw; simp only [ha, andThen, h]
    obtain ⟨cmds', h2⟩ := hg (val a) (pr a) hgw
    refine ⟨cmds ++ cmds', fun x e he => ?_⟩
    rw [replies_append, List.append_assoc] at he
    have h1 := h1 _ _ he
    generalize hy : f e = y at h1
    cases h1 with
    | @ok _ b hab =>
      obtain ⟨⟨fd, sv, st⟩, hv⟩ := hab
      have := h2 x (pr b) (by rw [sv, st]; exact fd)
      simp only [ha, andThen, hy, ← hv]
      generalize g (val a) (pr a) = r1 at this
      generalize g (val a) (pr b) = r2 at this
      cases this with
      | ok hh =>
        obtain ⟨k1, k2⟩ := hh
        rw [sv, st, List.append_assoc] at k1
        exact .ok ⟨k1, k2⟩
      | err => exact .err
      | panic => exact .panic
  | err er =>
    rw [ha] at h1
    refine ⟨cmds, fun x e he => ?_⟩
    have h1 := h1 _ _ he
    generalize hy : f e = y at h1
    cases h1
    simp only [ha, andThen, hy]
    exact .err
  | panic =>
    rw [ha] at h1
    refine ⟨cmds, fun x e he => ?_⟩
    have h1 := h1 _ _ he
    generalize hy : f e = y at h1
    cases h1
    simp only [ha, andThen, hy]
    exact .panic
  | waits => exact absurd ha hfw

/-- An operation that sends nothing. -/
theorem follows_pure {α β : Type} {pr : α → Conn} {val : α → β} {f : Conn → OpRes α}
    (h : ∀ c x e, Fed x e c → SameRes (Alike pr val c [] x) (f c) (f e)) : Follows pr val f :=
  fun c _ => ⟨[], fun x e he => h c x e he⟩

theorem fed_call {c e : Conn} {cmd : Cmd} (he : Fed (replies c.server c.sent [cmd] ++ x) e c) :
    FedStream c.server (c.sent ++ [cmd]) x (c.call cmd) (e.call cmd) :=
  .has ⟨⟨by simp [he.incoming, he.mute, replies], he.marked, he.mute, by simp only [he.same]⟩, rfl, rfl⟩

theorem follows_loop (cmd : Cmd) {f : Option Conn → Except Err (Packet × Option Conn) → Option Conn ⊕ OpErr}
    {E : LoopEnd (Option Conn) → OpRes Conn} (hE : E .waits = .waits)
    (hb : ∀ K : Conn → Conn → Prop, SameBody K (Both K) f f)
    (hr : ∀ (K : Conn → Conn → Prop) r r', SameEnd (Both K) r r' → SameRes K (E r) (E r')) :
    Follows id one (fun c => E ((c.call cmd).loop f none)) := by
  intro c hw
  refine ⟨[cmd], fun x e he => ?_⟩
  have hl := loop_fed (hb _) _ rfl (fed_call he) (.none : Both (FedAt _ _ _) none none) (by intro h; apply hw; simp only [h, hE])
  have := hr _ _ _ hl
  show SameRes _ (E ((c.call cmd).loop f none)) (E ((e.call cmd).loop f none))
  generalize E ((c.call cmd).loop f none) = r at this
  generalize E ((e.call cmd).loop f none) = r' at this
  cases this with
  | ok h => exact .ok ⟨h, rfl⟩
  | err => exact .err
  | panic => exact .panic

theorem unwrapEnd_same (K : Conn → Conn → Prop) (r r' : LoopEnd (Option Conn)) (h : SameEnd (Both K) r r') :
    SameRes K (unwrapEnd r) (unwrapEnd r') := by
  cases h with
  | fell h => cases h with
    | none => exact .panic
    | some h => exact .ok h
  | failed => exact .err

theorem pingEnd_same' (K : Conn → Conn → Prop) (r r' : LoopEnd (Option Conn)) (h : SameEnd (Both K) r r') :
    SameRes K (pingEnd r) (pingEnd r') := by
  cases h with
  | fell h => cases h with
    | none => exact .err
    | some h => exact .ok h
  | failed => exact .err

theorem follows_clear : Follows id one Conn.clear := by
  have h1 : Follows id one (fun c => andThen (unwrapEnd ((c.call .cancel).loop clearBody none)) fun c => .ok { c with inconsistent := false }) :=
    follows_then (g := fun _ c => .ok { c with inconsistent := false }) (follows_loop .cancel rfl (fun _ => same_clear) unwrapEnd_same)
      (fun _ => follows_pure fun c x e he => .ok ⟨⟨⟨he.incoming, rfl, he.mute, he.same⟩, rfl, by simp⟩, rfl⟩)
  intro c hw
  rw [clear_eq] at hw
  cases hi : c.inconsistent with
  | true =>
    rw [hi] at hw
    obtain ⟨cmds, h⟩ := h1 c hw
    refine ⟨cmds, fun x e he => ?_⟩
    rw [clear_eq, clear_eq, he.marked, hi]
    exact h x e he
  | false =>
    refine ⟨[], fun x e he => ?_⟩
    rw [clear_eq, clear_eq, he.marked, hi]
    exact .ok ⟨⟨he, rfl, by simp⟩, rfl⟩

theorem follows_execute (q : Query) (ctx : Context) : Follows id one (fun c => c.execute q ctx) := by
  have : (fun c : Conn => c.execute q ctx) = fun c => andThen c.clear fun a =>
      (fun (_ : Unit) (c : Conn) => unwrapEnd ((c.call (.sendQuery q ctx)).loop executeBody none)) (one a) (id a) := by
    funext c; exact execute_eq c q ctx
  rw [this]
  exact follows_then follows_clear (fun _ => follows_loop _ rfl (fun _ => same_execute) unwrapEnd_same)

theorem follows_ping : Follows id one pingC :=
  follows_then (g := fun _ c => pingEnd ((c.call .ping).loop pingBody none)) follows_clear
    (fun _ => follows_loop _ rfl (fun _ => same_ping) pingEnd_same')

theorem follows_readOne (cmd : Cmd) : Follows Prod.fst Prod.snd (fun c => (c.call cmd).readOneBlock) := by
  intro c hw
  refine ⟨[cmd], fun x e he => ?_⟩
  have hs := fed_call he
  have hs' : FedStream c.server (c.sent ++ [cmd]) x { c.call cmd with readBlock := true } { e.call cmd with readBlock := true } := by
    cases hs with
    | has h => exact .has h
  have hl := loop_fed (same_readBlock (K := FedAt _ _ _)) _ rfl hs' (⟨.none, rfl⟩ : BlockVars (FedAt _ _ _) (none, none) (none, none))
    (by intro h; apply hw; simp only [CStream.readOneBlock, h])
  simp only [CStream.readOneBlock]
  generalize CStream.loop readBlockBody (none, none) { c.call cmd with readBlock := true } = r at hl
  generalize CStream.loop readBlockBody (none, none) { e.call cmd with readBlock := true } = r' at hl
  cases hl with
  | @fell a b h =>
    obtain ⟨a1, a2⟩ := a
    obtain ⟨b1, b2⟩ := b
    obtain ⟨h1, h2⟩ := h
    cases h1 with
    | none => exact .panic
    | some h => exact .ok ⟨h, h2⟩
  | failed => exact .err

theorem follows_sendInsert (ctx : Context) (q : Query) : Follows Prod.fst Prod.snd (fun c => c.sendInsertQuery ctx q) := by
  have : (fun c : Conn => c.sendInsertQuery ctx q) = fun c => andThen (c.call (.sendQuery q ctx)).readOneBlock fun a =>
      (fun (o : Option Block) (c : Conn) => match o with | some b => OpRes.ok (c, b) | none => .panic) a.2 a.1 := by
    funext c
    rw [sendInsert_eq]
    congr 1
    funext x
    obtain ⟨c, o⟩ := x
    cases o <;> rfl
  rw [this]
  refine follows_then (g := fun (o : Option Block) (c : Conn) => match o with | some b => OpRes.ok (c, b) | none => .panic)
    (follows_readOne _) fun o => follows_pure fun c x e he => ?_
  cases o with
  | none => exact .panic
  | some b => exact .ok ⟨⟨he, rfl, by simp⟩, rfl⟩

theorem follows_insertBlock (ctx : Context) (b : Block) : Follows id one (fun c => c.insertBlock ctx b) := by
  have : (fun c : Conn => c.insertBlock ctx b) = fun c =>
      andThen (c.call (.union (.sendData b ctx) (.sendData Block.new ctx))).readOneBlock fun a =>
      (fun (_ : Option Block) (c : Conn) => OpRes.ok c) a.2 a.1 := by
    funext c
    exact insertBlock_eq c ctx b
  rw [this]
  exact follows_then (g := fun (_ : Option Block) (c : Conn) => OpRes.ok c) (follows_readOne _) fun o => follows_pure fun c x e he => .ok ⟨⟨he, rfl, by simp⟩, rfl⟩

theorem follows_insertTail (ctx : Context) (q : Query) (bs : List Block) : Follows id one (fun c => c.insertTail ctx q bs) := by
  induction bs with
  | nil => exact follows_pure fun c x e he => .ok ⟨⟨he, rfl, by simp⟩, rfl⟩
  | cons b bs ih =>
    have : (fun c : Conn => c.insertTail ctx q (b :: bs)) = fun c => andThen (c.sendInsertQuery ctx q) fun a =>
        (fun (_ : Block) (c : Conn) => andThen (c.insertBlock ctx b) fun a => (fun (_ : Unit) (c : Conn) => c.insertTail ctx q bs) (one a) (id a))
          a.2 a.1 := by
      funext c
      exact insertTail_eq c ctx q b bs
    rw [this]
    exact follows_then (follows_sendInsert ctx q) fun _ => follows_then (follows_insertBlock ctx b) fun _ => ih

theorem follows_insert (cast : Block → Block → Out Block) (q : Query) (ctx : Context) (b : Block) :
    Follows id one (fun c => c.insert cast q ctx b) := by
  have : (fun c : Conn => c.insert cast q ctx b) = fun c => andThen c.clear fun a =>
      (fun (_ : Unit) (c : Conn) => andThen (c.sendInsertQuery ctx q) fun a =>
        (fun (d : Block) (c : Conn) =>
          match cast b d with
          | .err e => .err (.other e)
          | .panic => .panic
          | .ok b =>
            match insertChunks b with
            | .ok (ch :: chs) => andThen (c.insertBlock ctx ch) fun c => c.insertTail ctx q chs
            | _ => .panic) a.2 a.1) (one a) (id a) := by
    funext c
    exact insert_eq cast c q ctx b
  rw [this]
  refine follows_then (g := fun (_ : Unit) (c : Conn) => andThen (c.sendInsertQuery ctx q) fun a =>
        (fun (d : Block) (c : Conn) =>
          match cast b d with
          | .err e => .err (.other e)
          | .panic => .panic
          | .ok b =>
            match insertChunks b with
            | .ok (ch :: chs) => andThen (c.insertBlock ctx ch) fun c => c.insertTail ctx q chs
            | _ => .panic) a.2 a.1) follows_clear fun _ => ?_
  refine follows_then (g := fun (d : Block) (c : Conn) =>
          match cast b d with
          | .err e => .err (.other e)
          | .panic => .panic
          | .ok b =>
            match insertChunks b with
            | .ok (ch :: chs) => andThen (c.insertBlock ctx ch) fun c => c.insertTail ctx q chs
            | _ => .panic) (follows_sendInsert ctx q) fun d => ?_
  cases cast b d with
  | err e => exact follows_pure fun c x e he => .err
  | panic => exact follows_pure fun c x e he => .panic
  | ok b' =>
    simp only
    cases insertChunks b' with
    | err e => exact follows_pure fun c x e he => .panic
    | panic => exact follows_pure fun c x e he => .panic
    | ok chs =>
      cases chs with
      | nil => exact follows_pure fun c x e he => .panic
      | cons ch chs =>
        exact follows_then (g := fun (_ : Unit) (c : Conn) => c.insertTail ctx q chs) (follows_insertBlock ctx ch)
          fun _ => follows_insertTail ctx q chs

/-! ### Handles -/

/-- An operation that succeeded: the commands it sent, and that it succeeds alike with the answers there already. -/
theorem follows_ok {F : Conn → OpRes Conn} (hF : Follows id one F) {c c' : Conn} (h : F c = .ok c') :
    ∃ cmds, c'.server = c.server ∧ c'.sent = c.sent ++ cmds ∧
      ∀ x e, Fed (replies c.server c.sent cmds ++ x) e c → ∃ e', F e = .ok e' ∧ Fed x e' c' := by
  obtain ⟨cmds, hc⟩ := hF c (by rw [h]; exact nofun)
  have key : ∀ x e, Fed (replies c.server c.sent cmds ++ x) e c → ∃ e', F e = .ok e' ∧ FedAt c.server (c.sent ++ cmds) x c' e' := by
    intro x e he
    have := hc x e he
    rw [h] at this
    generalize hy : F e = y at this
    cases this with
    | ok hh => exact ⟨_, rfl, hh.1⟩
  obtain ⟨e0, -, h0⟩ := key [] { c with incoming := c.incoming ++ (replies c.server c.sent cmds ++ []), server := fun _ => [] }
    ⟨rfl, rfl, fun _ => rfl, rfl⟩
  refine ⟨cmds, h0.server, h0.sent, fun x e he => ?_⟩
  obtain ⟨e', e1, h1⟩ := key x e he
  exact ⟨e', e1, h1.fed⟩

/-- The check before a query, as an operation on the connection. -/
def prePing (ctx : Context) (c : Conn) : OpRes Conn := if ctx.options.pingBeforeQuery then pingC c else .ok c

theorem follows_prePing (ctx : Context) : Follows id one (prePing ctx) := by
  cases hp : ctx.options.pingBeforeQuery with
  | true =>
    have : prePing ctx = pingC := by funext c; simp [prePing, hp]
    rw [this]; exact follows_ping
  | false =>
    have : prePing ctx = fun c => .ok c := by funext c; simp [prePing, hp]
    rw [this]; exact follows_pure fun c x e he => .ok ⟨⟨he, rfl, by simp⟩, rfl⟩

theorem ping_ok_iff {c : Conn} {ctx : Context} {b : Binding} {h' : Handle} (h : (Handle.mk (some c) ctx b).ping = (.ok (), h')) :
    ∃ c', pingC c = .ok c' ∧ h' = ⟨some c', ctx, b⟩ := by
  have hw : pingC c ≠ .waits := by
    intro hw
    rw [pingC] at hw
    simp only [Handle.ping] at h
    cases hc : c.clear with
    | ok c1 =>
      rw [hc] at hw h
      simp only [andThen] at hw h
      cases hl : (c1.call .ping).loop pingBody none with
      | fell o => rw [hl] at hw; cases o <;> simp [pingEnd] at hw
      | failed e => rw [hl] at hw; simp [pingEnd] at hw
      | waits => rw [hl] at h; simp at h
    | err e => rw [hc] at h; simp at h
    | panic => rw [hc] at h; simp at h
    | waits => rw [hc] at h; simp at h
  rw [ping_eq hw] at h
  cases hp : pingC c with
  | ok c' => rw [hp] at h; simp only [putC, Prod.mk.injEq] at h; exact ⟨c', rfl, h.2.symm⟩
  | err e => rw [hp] at h; simp [putC] at h
  | panic => rw [hp] at h; simp [putC] at h
  | waits => exact absurd hp hw

theorem ping_of {c c' : Conn} {ctx : Context} {b : Binding} (h : pingC c = .ok c') :
    (Handle.mk (some c) ctx b).ping = (.ok (), ⟨some c', ctx, b⟩) := by
  rw [ping_eq (by rw [h]; exact nofun), h]; rfl

theorem precheck_ok {c : Conn} {ctx : Context} {b : Binding} {h1 : Handle} {w1 : World}
    (h : (Handle.mk (some c) ctx b).precheck [] = (.ok (), h1, w1)) :
    ∃ c1 b1, h1 = ⟨some c1, ctx, b1⟩ ∧ prePing ctx c = .ok c1 ∧
      ∀ e e1, prePing ctx e = .ok e1 → (Handle.mk (some e) ctx b).precheck [] = (.ok (), ⟨some e1, ctx, b1⟩, []) := by
  cases hp : ctx.options.pingBeforeQuery with
  | false =>
    simp only [Handle.precheck, hp, Bool.false_eq_true, if_false, Prod.mk.injEq, true_and] at h
    refine ⟨c, b, h.1.symm, by simp [prePing, hp], fun e e1 he => ?_⟩
    simp only [prePing, hp, Bool.false_eq_true, if_false, OpRes.ok.injEq] at he
    subst he
    simp [Handle.precheck, hp]
  | true =>
    simp only [Handle.precheck, hp, if_true, Handle.checkConnection] at h
    cases hd : b.detach with
    | none => rw [hd] at h; simp at h
    | some b' =>
      rw [hd] at h
      simp only [retryGuard] at h
      rw [retryLoop_eq] at h
      simp only [Bool.false_eq_true, if_false] at h
      generalize hq : (Handle.mk (some c) ctx b').ping = q at h
      obtain ⟨r, g⟩ := q
      cases r with
      | ok u =>
        simp only [Prod.mk.injEq, true_and] at h
        obtain ⟨c', e1, rfl⟩ := ping_ok_iff hq
        refine ⟨c', if b' = .detached then .attached else b', h.1.symm, by simp [prePing, hp, e1], fun e e1 he => ?_⟩
        simp only [prePing, hp, if_true] at he
        simp only [Handle.precheck, hp, if_true, Handle.checkConnection, hd, retryGuard]
        rw [retryLoop_eq]
        simp only [Bool.false_eq_true, if_false, ping_of he]
      | err e =>
        simp only at h
        split at h
        · rename_i heq
          split at heq <;> simp at heq
        · rename_i hne
          split at h <;> simp at h
      | panic => simp at h
      | waits => simp at h

/-! ### Result streams -/

/-- Handles that differ in that. -/
structure FedHandle (server : List Cmd → List Inc) (log : List Cmd) (x : List Inc) (h g : Handle) : Prop where
  inner : Both (FedAt server log x) h.inner g.inner
  context : h.context = g.context
  binding : h.binding = g.binding

/-- Result streams that differ in that. -/
structure FedB (server : List Cmd → List Inc) (log : List Cmd) (x : List Inc) (s t : BStream) : Prop where
  inner : FedStream server log x s.inner t.inner
  state : s.state = t.state
  index : s.blockIndex = t.blockIndex
  skip : s.skipFirst = t.skipFirst

theorem read_fed (n : Nat) : ∀ {s t : BStream} {h g : Handle}, s.inner.fuel = n → FedB server log x s t → FedHandle server log x h g →
    (s.read h).1 ≠ .waits → (t.read g).1 = (s.read h).1 ∧ FedB server log x (s.read h).2.1 (t.read g).2.1 ∧
      FedHandle server log x (s.read h).2.2 (t.read g).2.2 := by
  induction n using Nat.strongRecOn with
  | _ n ih =>
    intro s t h g hn hs hh hw
    obtain ⟨si, ss, sx, sk⟩ := s
    obtain ⟨ti, ts, tx, tk⟩ := t
    obtain ⟨hi, h1, h2, h3⟩ := hs
    simp only at hi h1 h2 h3 hn
    subst h1 h2 h3
    have hnw : si.next.1 ≠ .waits := by
      intro hx
      apply hw
      cases hq : si.next with
      | mk i cs' =>
        rw [hq] at hx
        simp only at hx
        subst hx
        rw [read_waits (s := ⟨si, ss, sx, sk⟩) hq]
    obtain ⟨g1, g2⟩ := next_fed hi hnw
    cases e1 : si.next with
    | mk i cs' =>
      cases e2 : ti.next with
      | mk j es' =>
        rw [e1, e2] at g1 g2
        simp only at g1 g2
        have less : ∀ {p c}, i = .item p c → cs'.fuel < n := by
          intro p c hx
          subst hx
          rw [← hn]; exact CStream.next_item e1
        cases g1 with
        | error =>
          rw [read_error (s := ⟨si, ss, sx, sk⟩) e1, read_error (s := ⟨ti, ss, sx, sk⟩) e2]
          exact ⟨rfl, ⟨g2, rfl, rfl, rfl⟩, hh⟩
        | ended =>
          rw [read_ended (s := ⟨si, ss, sx, sk⟩) e1, read_ended (s := ⟨ti, ss, sx, sk⟩) e2]
          exact ⟨rfl, ⟨g2, rfl, rfl, rfl⟩, hh⟩
        | @item p c e ho =>
          cases p with
          | eof =>
            rw [read_eof (s := ⟨si, ss, sx, sk⟩) e1, read_eof (s := ⟨ti, ss, sx, sk⟩) e2, ← hh.binding]
            by_cases hb : h.binding = .attached
            · rw [if_pos hb, if_pos hb]
              exact ⟨rfl, ⟨g2, rfl, rfl, rfl⟩, ⟨ho, hh.context, rfl⟩⟩
            · rw [if_neg hb, if_neg hb]
              cases h.binding.attach with
              | none => exact ⟨rfl, ⟨g2, rfl, rfl, rfl⟩, ⟨ho, hh.context, rfl⟩⟩
              | some b => exact ⟨rfl, ⟨g2, rfl, rfl, rfl⟩, ⟨ho, hh.context, rfl⟩⟩
          | profileInfo q =>
            rw [read_profile (s := ⟨si, ss, sx, sk⟩) e1] at hw ⊢
            rw [read_profile (s := ⟨ti, ss, sx, sk⟩) e2]
            exact ih _ (less rfl) rfl ⟨g2, rfl, rfl, rfl⟩ hh hw
          | progress q =>
            rw [read_progress (s := ⟨si, ss, sx, sk⟩) e1] at hw ⊢
            rw [read_progress (s := ⟨ti, ss, sx, sk⟩) e2]
            exact ih _ (less rfl) rfl ⟨g2, rfl, rfl, rfl⟩ hh hw
          | exception q =>
            rw [read_exception (s := ⟨si, ss, sx, sk⟩) e1, read_exception (s := ⟨ti, ss, sx, sk⟩) e2]
            exact ⟨rfl, ⟨g2, rfl, rfl, rfl⟩, hh⟩
          | block b =>
            rw [read_block (s := ⟨si, ss, sx, sk⟩) e1] at hw ⊢
            rw [read_block (s := ⟨ti, ss, sx, sk⟩) e2]
            simp only at hw ⊢
            split
            · exact ⟨rfl, ⟨g2, rfl, rfl, rfl⟩, hh⟩
            · rename_i hc
              rw [if_neg hc] at hw
              exact ih _ (less rfl) rfl ⟨g2, rfl, rfl, rfl⟩ hh hw
          | _ =>
            rw [read_other (s := ⟨si, ss, sx, sk⟩) e1 (by exact nofun) (by exact nofun) (by exact nofun) (by exact nofun) (by exact nofun),
              read_other (s := ⟨ti, ss, sx, sk⟩) e2 (by exact nofun) (by exact nofun) (by exact nofun) (by exact nofun) (by exact nofun)]
            exact ⟨rfl, ⟨g2, rfl, rfl, rfl⟩, hh⟩

theorem run_fed (n : Nat) : ∀ {s t : BStream} {h g : Handle}, FedB server log x s t → FedHandle server log x h g →
    BItem.waits ∉ (run n s h).1 → (run n t g).1 = (run n s h).1 ∧ FedB server log x (run n s h).2.1 (run n t g).2.1 ∧
      FedHandle server log x (run n s h).2.2 (run n t g).2.2 := by
  induction n with
  | zero => intro s t h g hs hh _; exact ⟨rfl, hs, hh⟩
  | succ n ih =>
    intro s t h g hs hh hw
    have hstep : BItem.waits ≠ (s.next h).1 ∧ BItem.waits ∉ (run n (s.next h).2.1 (s.next h).2.2).1 := by
      simp only [run, List.mem_cons, not_or] at hw
      exact hw
    have h1 : (t.next g).1 = (s.next h).1 ∧ FedB server log x (s.next h).2.1 (t.next g).2.1 ∧
        FedHandle server log x (s.next h).2.2 (t.next g).2.2 := by
      have hst := hs.state
      have hne := hstep.1
      simp only [BStream.next] at hne ⊢
      rw [← hst]
      cases hss : s.state with
      | reading =>
        rw [hss] at hne
        exact read_fed _ rfl hs hh (Ne.symm hne)
      | finished => exact ⟨rfl, hs, hh⟩
      | error => exact ⟨rfl, hs, hh⟩
    obtain ⟨a1, a2, a3⟩ := h1
    obtain ⟨b1, b2, b3⟩ := ih a2 a3 hstep.2
    refine ⟨?_, b2, b3⟩
    simp only [run]
    rw [a1, b1]

theorem drop_fed {s t : BStream} {h g h' : Handle} (hs : FedB server log x s t) (hh : FedHandle server log x h g) (hd : s.drop h = some h') :
    ∃ g', t.drop g = some g' ∧ FedHandle server log x h' g' := by
  rw [BStream.drop] at hd ⊢
  rw [← hs.state, ← hh.binding]
  cases hss : s.state with
  | reading =>
    rw [hss] at hd
    simp only at hd ⊢
    cases hat : (if h.binding = .attached then some Binding.attached else h.binding.attach) with
    | none => rw [hat] at hd; simp at hd
    | some b =>
      rw [hat] at hd
      simp only at hd ⊢
      have hi := hs.inner
      obtain ⟨si, ss, sx, sk⟩ := s
      obtain ⟨ti, ts, tx, tk⟩ := t
      simp only at hi hd ⊢
      cases hi with
      | gone =>
        simp only [Option.some.injEq] at hd
        subst hd
        exact ⟨_, rfl, ⟨hh.inner, hh.context, rfl⟩⟩
      | @has c e f r hf =>
        simp only [Option.some.injEq] at hd
        subst hd
        exact ⟨_, rfl, ⟨.some ⟨⟨hf.fed.incoming, rfl, hf.fed.mute, hf.fed.same⟩, hf.server, hf.sent⟩, hh.context, rfl⟩⟩
  | finished => rw [hss] at hd; simp only [Option.some.injEq] at hd; subst hd; exact ⟨g, rfl, hh⟩
  | error => rw [hss] at hd; simp only [Option.some.injEq] at hd; subst hd; exact ⟨g, rfl, hh⟩

/-- The answers to what an operation asks may all be there before it starts. -/
theorem ask_fed {numeric : Char → Bool} {cast : Block → Block → Out Block} {c : Conn} {ctx : Context} {b : Binding} {a : Wish}
    {o : List BItem} {c' : Conn} {ctx' : Context} {b' : Binding}
    (h : ask numeric cast ⟨some c, ctx, b⟩ a = some (o, ⟨some c', ctx', b'⟩)) (hw : BItem.waits ∉ o) :
    ∃ cmds, c'.server = c.server ∧ c'.sent = c.sent ++ cmds ∧
      ∀ x e, Fed (replies c.server c.sent cmds ++ x) e c →
        ∃ e', ask numeric cast ⟨some e, ctx, b⟩ a = some (o, ⟨some e', ctx', b'⟩) ∧ Fed x e' c' := by
  have put : ∀ {h1 : Handle} {F : OpRes Conn} {g : Handle} {u : OpRes Unit}, ((putC h1 F).1, (putC h1 F).2) = (u, g) → u = .ok () →
      ∃ d, F = .ok d ∧ g = { h1 with inner := some d } := by
    intro h1 F g u hp hu
    subst hu
    cases F with
    | ok d => simp only [putC, Prod.mk.injEq, true_and] at hp; exact ⟨d, rfl, hp.symm⟩
    | err e => simp [putC] at hp
    | panic => simp [putC] at hp
    | waits => simp [putC] at hp
  have checked : ∀ {F : Conn → OpRes Conn} {G : Handle}, (hF : Follows id one F) →
      (r : World) → checkedC (fun c _ => F c) ⟨some c, ctx, b⟩ [] = (.ok (), G, r) → G = ⟨some c', ctx', b'⟩ →
      ∃ cmds, c'.server = c.server ∧ c'.sent = c.sent ++ cmds ∧
        ∀ x e, Fed (replies c.server c.sent cmds ++ x) e c →
          ∃ e' r', checkedC (fun c _ => F c) ⟨some e, ctx, b⟩ [] = (.ok (), ⟨some e', ctx', b'⟩, r') ∧ Fed x e' c' := by
    intro F G hF r hc hG
    rw [checkedC] at hc
    generalize hp : (Handle.mk (some c) ctx b).precheck [] = q at hc
    obtain ⟨u, h1, w1⟩ := q
    cases u with
    | ok u =>
      obtain ⟨c1, b1, rfl, p1, p2⟩ := precheck_ok hp
      simp only [Prod.mk.injEq] at hc
      obtain ⟨k1, k2, k3⟩ := hc
      obtain ⟨d, hd, hg⟩ := put (h1 := ⟨some c1, ctx, b1⟩) (F := F c1) (u := .ok ()) (g := G) (by rw [k1, k2]) rfl
      rw [hG] at hg
      simp only [Handle.mk.injEq, Option.some.injEq] at hg
      obtain ⟨rfl, rfl, rfl⟩ := hg
      have hf : Follows id one (fun c => andThen (prePing ctx' c) fun a => (fun (_ : Unit) (c : Conn) => F c) (one a) (id a)) :=
        follows_then (g := fun (_ : Unit) (c : Conn) => F c) (follows_prePing ctx') (fun _ => hF)
      obtain ⟨cmds, s1, s2, s3⟩ := follows_ok hf (c := c) (c' := c') (by simp only [p1, andThen, id]; exact hd)
      refine ⟨cmds, s1, s2, fun x e he => ?_⟩
      obtain ⟨e', q1, q2⟩ := s3 x e he
      simp only [id] at q1
      cases hpe : prePing ctx' e with
      | ok e1 =>
        rw [hpe] at q1
        simp only [andThen] at q1
        refine ⟨e', [], ?_, q2⟩
        rw [checkedC, p2 e e1 hpe]
        simp only [q1, putC]
      | err er => rw [hpe] at q1; simp [andThen] at q1
      | panic => rw [hpe] at q1; simp [andThen] at q1
      | waits => rw [hpe] at q1; simp [andThen] at q1
    | err e => simp at hc
    | panic => simp at hc
    | waits => simp at hc
  cases a with
  | ping =>
    simp only [ask] at h
    generalize hp : (Handle.mk (some c) ctx b).ping = q at h
    obtain ⟨u, h1⟩ := q
    cases u with
    | ok u =>
      obtain ⟨c1, p1, rfl⟩ := ping_ok_iff hp
      simp only [Option.some.injEq, Prod.mk.injEq, Handle.mk.injEq] at h
      obtain ⟨rfl, rfl, rfl, rfl⟩ := h
      obtain ⟨cmds, s1, s2, s3⟩ := follows_ok follows_ping p1
      refine ⟨cmds, s1, s2, fun x e he => ?_⟩
      obtain ⟨e', q1, q2⟩ := s3 x e he
      exact ⟨e', by simp only [ask, ping_of q1], q2⟩
    | err e => simp at h
    | panic => simp at h
    | waits => simp at h
  | execute q =>
    simp only [ask] at h
    have hq : ∀ c : Conn, (Handle.mk (some c) ctx b).execute q [] = checkedC (fun c _ => c.execute q ctx) ⟨some c, ctx, b⟩ [] := by
      intro c
      rw [execute_checked, checkedC, checkedC]
      generalize hp : (Handle.mk (some c) ctx b).precheck [] = z
      obtain ⟨u, h1, w1⟩ := z
      cases u with
      | ok u => obtain ⟨c1, b1, rfl, -, -⟩ := precheck_ok hp; rfl
      | _ => rfl
    rw [hq] at h
    generalize hz : checkedC (fun c _ => c.execute q ctx) ⟨some c, ctx, b⟩ [] = z at h
    obtain ⟨u, h1, w1⟩ := z
    cases u with
    | ok u =>
      simp only [Option.some.injEq, Prod.mk.injEq] at h
      obtain ⟨rfl, hg⟩ := h
      obtain ⟨cmds, s1, s2, s3⟩ := checked (F := fun c => c.execute q ctx) (follows_execute q ctx) w1 hz hg
      refine ⟨cmds, s1, s2, fun x e he => ?_⟩
      obtain ⟨e', r', q1, q2⟩ := s3 x e he
      exact ⟨e', by simp only [ask, hq, q1], q2⟩
    | err e => simp at h
    | panic => simp at h
    | waits => simp at h
  | insert tb blk =>
    simp only [ask] at h
    rw [insert_checked] at h
    cases hm : makeQuery numeric tb blk with
    | err e => rw [hm] at h; simp at h
    | panic => rw [hm] at h; simp at h
    | ok q =>
      rw [hm] at h
      simp only at h
      have hq : ∀ c : Conn, checkedC (fun c ctx => c.insert cast q ctx blk) ⟨some c, ctx, b⟩ [] =
          checkedC (fun c _ => c.insert cast q ctx blk) ⟨some c, ctx, b⟩ [] := by
        intro c
        rw [checkedC, checkedC]
        generalize hp : (Handle.mk (some c) ctx b).precheck [] = z
        obtain ⟨u, h1, w1⟩ := z
        cases u with
        | ok u => obtain ⟨c1, b1, rfl, -, -⟩ := precheck_ok hp; rfl
        | _ => rfl
      rw [hq] at h
      generalize hz : checkedC (fun c _ => c.insert cast q ctx blk) ⟨some c, ctx, b⟩ [] = z at h
      obtain ⟨u, h1, w1⟩ := z
      cases u with
      | ok u =>
        simp only [Option.some.injEq, Prod.mk.injEq] at h
        obtain ⟨rfl, hg⟩ := h
        obtain ⟨cmds, s1, s2, s3⟩ := checked (F := fun c => c.insert cast q ctx blk) (follows_insert cast q ctx blk) w1 hz hg
        refine ⟨cmds, s1, s2, fun x e he => ?_⟩
        obtain ⟨e', r', q1, q2⟩ := s3 x e he
        exact ⟨e', by simp only [ask, insert_checked, hm, hq, q1], q2⟩
      | err e => simp at h
      | panic => simp at h
      | waits => simp at h
  | select q skip n =>
    simp only [ask, Handle.openStream] at h
    generalize hp : (Handle.mk (some c) ctx b).precheck [] = z at h
    obtain ⟨u, h1, w1⟩ := z
    cases u with
    | ok u =>
      obtain ⟨c1, b1, rfl, p1, p2⟩ := precheck_ok hp
      simp only at h
      cases hd : b1.detach with
      | none => rw [hd] at h; simp at h
      | some b2 =>
        rw [hd] at h
        simp only at h
        generalize hr : run n (BStream.new (c1.call (.sendQuery q ctx)) skip) ⟨none, ctx, b2⟩ = z at h
        obtain ⟨is, s', h'⟩ := z
        simp only [Option.map_eq_some_iff, Prod.mk.injEq] at h
        obtain ⟨g, hdrop, rfl, rfl⟩ := h
        obtain ⟨cmds, s1, s2, s3⟩ := follows_ok (follows_prePing ctx) p1
        have key : ∀ x e, Fed (replies c.server c.sent (cmds ++ [.sendQuery q ctx]) ++ x) e c →
            ∃ g', ask numeric cast ⟨some e, ctx, b⟩ (.select q skip n) = some (is, g') ∧
              FedHandle c.server (c.sent ++ (cmds ++ [.sendQuery q ctx])) x ⟨some c', ctx', b'⟩ g' := by
          intro x e he
          rw [replies_append, List.append_assoc] at he
          obtain ⟨e1, q1, q2⟩ := s3 _ e he
          have hst : FedB c.server (c.sent ++ (cmds ++ [.sendQuery q ctx])) x (BStream.new (c1.call (.sendQuery q ctx)) skip)
              (BStream.new (e1.call (.sendQuery q ctx)) skip) := by
            refine ⟨?_, rfl, rfl, rfl⟩
            have := fed_call (x := x) (c := c1) (e := e1) (cmd := .sendQuery q ctx) (by rw [s1, s2]; exact q2)
            rw [s1, s2, List.append_assoc] at this
            exact this
          obtain ⟨r1, r2, r3⟩ := run_fed n hst (⟨.none, rfl, rfl⟩ : FedHandle _ _ _ ⟨none, ctx, b2⟩ ⟨none, ctx, b2⟩) (by rw [hr]; exact hw)
          rw [hr] at r1 r2 r3
          obtain ⟨g', d1, d2⟩ := drop_fed r2 r3 hdrop
          refine ⟨g', ?_, d2⟩
          simp only [ask, Handle.openStream, p2 e e1 q1, hd]
          rw [d1, r1]
          rfl
        have un : ∀ {x : List Inc} {g' : Handle}, FedHandle c.server (c.sent ++ (cmds ++ [.sendQuery q ctx])) x ⟨some c', ctx', b'⟩ g' →
            ∃ e', g' = ⟨some e', ctx', b'⟩ ∧ FedAt c.server (c.sent ++ (cmds ++ [.sendQuery q ctx])) x c' e' := by
          intro x g' hg
          obtain ⟨gi, gc, gb⟩ := g'
          obtain ⟨k1, k2, k3⟩ := hg
          simp only at k1 k2 k3
          cases k1 with
          | some k => exact ⟨_, by rw [k2, k3], k⟩
        obtain ⟨g0, -, f0⟩ := key [] { c with incoming := c.incoming ++ (replies c.server c.sent (cmds ++ [.sendQuery q ctx]) ++ []), server := fun _ => [] }
          ⟨rfl, rfl, fun _ => rfl, rfl⟩
        obtain ⟨e0, -, f0⟩ := un f0
        refine ⟨cmds ++ [.sendQuery q ctx], f0.server, f0.sent, fun x e he => ?_⟩
        obtain ⟨g', k1, k2⟩ := key x e he
        obtain ⟨e', rfl, k3⟩ := un k2
        exact ⟨e', k1, k3.fed⟩
    | err e => simp at h
    | panic => simp at h
    | waits => simp at h

end CH.Feed
