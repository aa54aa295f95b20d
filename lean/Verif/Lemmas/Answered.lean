import Verif.Lemmas.Outage
import Verif.Props.Verdict

/-!
What the operations have heard when they have succeeded, for C84.
-/

namespace CH.Outage
open CH CH.Spec CH.Socket CH.Props

theorem judged_finished {skips ends : Packet → Prop} {ms : List Inc} {v : Verdict} (h : Judged skips ends ms v) :
    ∀ {p rest}, v = .finished p rest → ∃ ps, ms = (ps ++ [p]).map .packet ++ rest ∧ (∀ p ∈ ps, skips p) ∧ ends p := by
  induction h with
  | skip h _ ih =>
    intro p rest e
    obtain ⟨ps, h1, h2, h3⟩ := ih e
    exact ⟨_ :: ps, by rw [h1]; rfl, (by
      intro q hq
      rcases List.mem_cons.mp hq with rfl | hq
      · exact h
      · exact h2 q hq), h3⟩
  | finished h => intro p rest e; cases e; exact ⟨[], rfl, nofun, h⟩
  | _ => intro p rest e; cases e

/-- Nothing comes upon a command. -/
def Mute (c : Conn) : Prop := ∀ l, c.server l = []

theorem mute_in {c : Conn} (h : Mute c) (l : List Cmd) : c.incoming ++ c.server l = c.incoming := by rw [h, List.append_nil]

theorem clear_heard {c c1 : Conn} (hm : Mute c) (h : c.clear = .ok c1) :
    ∃ ps, Cleared c.inconsistent ps ∧ c.incoming = ps.map .packet ++ c1.incoming ∧ Mute c1 ∧ c1.inconsistent = false := by
  cases hi : c.inconsistent with
  | false =>
    have hc : c.clear = .ok c := by simp [Conn.clear, hi]
    rw [hc] at h
    cases h
    exact ⟨[], rfl, rfl, hm, hi⟩
  | true =>
    obtain ⟨v, hv⟩ := C71_total LeftOver EndsLeftOver (c.incoming ++ c.server (c.sent ++ [.cancel]))
    rw [C71_clear c v hi hv] at h
    cases v with
    | finished p rest =>
      obtain ⟨ps, h1, h2, h3⟩ := judged_finished hv rfl
      cases h
      rw [mute_in hm] at h1
      exact ⟨ps ++ [p], ⟨ps, p, rfl, h2, h3⟩, h1, hm, rfl⟩
    | _ => cases h

theorem ping_heard {c c1 : Conn} (hm : Mute c) (h : pingC c = .ok c1) :
    ∃ ps, Cleared c.inconsistent ps ∧ c.incoming = (ps ++ [Packet.pong]).map .packet ++ c1.incoming ∧ Mute c1 ∧ c1.inconsistent = false := by
  rw [pingC] at h
  cases hc : c.clear with
  | ok c2 =>
    obtain ⟨ps, g1, g2, g3, g4⟩ := clear_heard hm hc
    rw [hc] at h
    simp only [andThen] at h
    obtain ⟨v, hv⟩ := C71_total NoSkips IsPong (c2.incoming ++ c2.server (c2.sent ++ [.ping]))
    have hl := pingLoop hv { c2 with incoming := c2.incoming ++ c2.server (c2.sent ++ [.ping]), sent := c2.sent ++ [.ping] } rfl
    rw [Conn.call, hl] at h
    cases v with
    | finished p rest =>
      obtain ⟨qs, h1, h2, h3⟩ := judged_finished hv rfl
      cases h3
      cases h
      rw [mute_in g3] at h1
      cases qs with
      | cons q _ => exact (h2 q List.mem_cons_self).elim
      | nil => exact ⟨ps, g1, by rw [g2, h1]; simp, g3, g4⟩
    | _ => cases h
  | _ => rw [hc] at h; cases h

theorem execute_heard {c c1 : Conn} {q : Query} {ctx : Context} (hm : Mute c) (h : c.execute q ctx = .ok c1) :
    ∃ ls ps, Cleared c.inconsistent ls ∧ WholeExecute ps ∧ c.incoming = (ls ++ ps).map .packet ++ c1.incoming := by
  rw [execute_eq] at h
  cases hc : c.clear with
  | ok c2 =>
    obtain ⟨ls, g1, g2, g3, g4⟩ := clear_heard hm hc
    rw [hc] at h
    simp only [andThen] at h
    obtain ⟨v, hv⟩ := C71_total ExecuteSkips IsEnd (c2.incoming ++ c2.server (c2.sent ++ [.sendQuery q ctx]))
    have h2 : c2.execute q ctx = .ok c1 := by
      rw [execute_eq, show c2.clear = .ok c2 by simp [Conn.clear, g4]]
      exact h
    rw [C71_execute c2 q ctx v g4 hv] at h2
    cases v with
    | finished p rest =>
      obtain ⟨ps, h1, h3, h4⟩ := judged_finished hv rfl
      cases h4
      cases h2
      rw [mute_in g3] at h1
      exact ⟨ls, ps ++ [.eof], g1, ⟨ps, rfl, h3⟩, by rw [g2, h1]; simp⟩
    | _ => cases h2
  | _ => rw [hc] at h; cases h

theorem sendInsert_heard {c c1 : Conn} {q : Query} {ctx : Context} {d : Block} (hm : Mute c) (h : c.sendInsertQuery ctx q = .ok (c1, d)) :
    ∃ cs, (∀ p ∈ cs, InsertSkips p) ∧ c.incoming = (cs ++ [.block d]).map .packet ++ c1.incoming ∧ Mute c1 := by
  obtain ⟨v, hv⟩ := C71_total InsertSkips InsertEnds (c.incoming ++ c.server (c.sent ++ [.sendQuery q ctx]))
  rw [C71_insert_query c q ctx v hv] at h
  cases v with
  | finished p rest =>
    obtain ⟨ps, h1, h3, h4⟩ := judged_finished hv rfl
    rw [mute_in hm] at h1
    cases h4 with
    | block => cases h; exact ⟨ps, h3, h1, hm⟩
    | eof => cases h
  | _ => cases h

theorem insertBlock_heard {c c1 : Conn} {ctx : Context} {b : Block} (hm : Mute c) (h : c.insertBlock ctx b = .ok c1) :
    ∃ cs e, (∀ p ∈ cs, InsertSkips p) ∧ InsertEnds e ∧ c.incoming = (cs ++ [e]).map .packet ++ c1.incoming ∧ Mute c1 := by
  obtain ⟨v, hv⟩ := C71_total InsertSkips InsertEnds (c.incoming ++ c.server (c.sent ++ [.union (.sendData b ctx) (.sendData Block.new ctx)]))
  rw [C71_insert_block c b ctx v hv] at h
  cases v with
  | finished p rest =>
    obtain ⟨ps, h1, h3, h4⟩ := judged_finished hv rfl
    rw [mute_in hm] at h1
    cases h
    exact ⟨ps, p, h3, h4, h1, hm⟩
  | _ => cases h

theorem insertTail_heard {ctx : Context} {q : Query} (bs : List Block) : ∀ {c c1 : Conn}, Mute c → c.insertTail ctx q bs = .ok c1 → bs ≠ [] →
    ∃ d ps, Rounds bs.length d ps ∧ c.incoming = ps.map .packet ++ c1.incoming := by
  induction bs with
  | nil => intro c c1 _ _ h; exact absurd rfl h
  | cons b bs ih =>
    intro c c1 hm h _
    rw [insertTail_eq] at h
    cases hs : c.sendInsertQuery ctx q with
    | ok x =>
      obtain ⟨c2, d⟩ := x
      obtain ⟨cs, g1, g2, g3⟩ := sendInsert_heard hm hs
      rw [hs] at h
      simp only [andThen] at h
      cases hb : c2.insertBlock ctx b with
      | ok c3 =>
        obtain ⟨cs', e, k1, k2, k3, k4⟩ := insertBlock_heard g3 hb
        rw [hb] at h
        simp only at h
        have h1 : Rounds 1 d ((cs ++ [.block d]) ++ (cs' ++ [e])) := .one g1 k1 k2
        cases bs with
        | nil =>
          cases h
          exact ⟨d, _, h1, by rw [g2, k3]; simp⟩
        | cons b' bs =>
          obtain ⟨d', qs, i1, i2⟩ := ih k4 h (by simp)
          exact ⟨d, _, .more h1 i1, by rw [g2, k3, i2]; simp⟩
      | _ => rw [hb] at h; cases h
    | _ => rw [hs] at h; cases h

theorem insert_heard {cast : Block → Block → Out Block} {c c1 : Conn} {q : Query} {ctx : Context} {b : Block} (hm : Mute c)
    (h : c.insert cast q ctx b = .ok c1) :
    ∃ ls ps, Cleared c.inconsistent ls ∧ WholeInsert cast b ps ∧ c.incoming = (ls ++ ps).map .packet ++ c1.incoming := by
  rw [insert_eq] at h
  cases hc : c.clear with
  | ok c2 =>
    obtain ⟨ls, g1, g2, g3, g4⟩ := clear_heard hm hc
    rw [hc] at h
    simp only [andThen] at h
    cases hs : c2.sendInsertQuery ctx q with
    | ok x =>
      obtain ⟨c3, d⟩ := x
      obtain ⟨cs, k1, k2, k3⟩ := sendInsert_heard g3 hs
      rw [hs] at h
      simp only at h
      cases hb : cast b d with
      | ok b' =>
        rw [hb] at h
        simp only at h
        cases hch : insertChunks b' with
        | ok chs =>
          rw [hch] at h
          cases chs with
          | nil => cases h
          | cons ch chs =>
            simp only at h
            cases hi : c3.insertBlock ctx ch with
            | ok c4 =>
              obtain ⟨cs', e, m1, m2, m3, m4⟩ := insertBlock_heard k3 hi
              rw [hi] at h
              simp only at h
              have h1 : Rounds 1 d ((cs ++ [.block d]) ++ (cs' ++ [e])) := .one k1 m1 m2
              cases chs with
              | nil =>
                cases h
                exact ⟨ls, _, g1, ⟨d, b', [ch], hb, hch, h1⟩, by rw [g2, k2, m3]; simp⟩
              | cons ch' chs =>
                obtain ⟨d', qs, i1, i2⟩ := insertTail_heard _ m4 h (by simp)
                exact ⟨ls, _, g1, ⟨d, b', _, hb, hch, .more h1 i1⟩, by rw [g2, k2, m3, i2]; simp⟩
            | _ => rw [hi] at h; cases h
        | _ => rw [hch] at h; cases h
      | _ => rw [hb] at h; cases h
    | _ => rw [hs] at h; cases h
  | _ => rw [hc] at h; cases h

theorem middle_packets (body : List Inc) : (∀ x ∈ body, Middle x) → ∃ ps : List Packet, body = ps.map .packet := by
  induction body with
  | nil => exact fun _ => ⟨[], rfl⟩
  | cons x l ih =>
    intro h
    obtain ⟨ps, rfl⟩ := ih fun y hy => h y (List.mem_cons_of_mem _ hy)
    cases h x List.mem_cons_self with
    | block b => exact ⟨.block b :: ps, rfl⟩
    | progress p => exact ⟨.progress p :: ps, rfl⟩
    | profileInfo p => exact ⟨.profileInfo p :: ps, rfl⟩

/-! ### The check beforehand -/

/-- `ping` of a connection over its socket, as in `PingS` (/repo/src/lib.rs:331-366). -/
def PingOn (env : Env) (k : Sock) : OpRes Sock → Prop :=
  Then (ClearS env k) fun k => PingEnd (LoopS env pingBody none (k.t.call .ping) k.revs k.writer)

theorem pingOn_sim {env : Env} {k : Sock} {lg : List Cmd} {r : OpRes Sock} (hi : Issued env k lg) (h : PingOn env k r) : SimC env k lg pingC r :=
  then_sim (fun _ hr => clear_sim hi hr) (fun _ _ _ hi hr => pingEnd_sim holding_ping hi ⟨_, rfl⟩ hr) h

theorem attempt_err {env : Env} {skip : Bool} {h h' : HandleS} {e : OpErr} (ha : AttemptS env skip h (.err e) h') :
    ∀ k, h'.inner = some k → h.inner = some k := by
  rw [AttemptS] at ha
  split at ha
  · rw [ha.2]; exact fun _ h => h
  · rw [PingS] at ha
    split at ha
    · rw [ha.2]; exact fun _ h => h
    · cases ha
      exact nofun

theorem retry_used {env : Env} {pooled skip : Bool} {max a : Nat} {h h' : HandleS} {w w' : WorldS} {r : OpRes Unit}
    (hr : RetryS env pooled max a skip h w r h' w') (hok : r = .ok ()) :
    ∃ k k1, (h.inner = some k ∨ some k ∈ w) ∧ PingOn env k (.ok k1) ∧ h'.inner = some k1 := by
  induction hr with
  | @ok a skip h w h' ha =>
    rw [AttemptS] at ha
    split at ha
    · cases ha.1
    · rw [PingS] at ha
      cases hk : h.inner with
      | none => rw [hk] at ha; cases ha.1
      | some k =>
        rw [hk] at ha
        cases ha with
        | ok hp => exact ⟨k, _, .inl rfl, hp, rfl⟩
  | panic => cases hok
  | last => cases hok
  | refused => cases hok
  | again ha hm _ ih =>
    obtain ⟨k, k1, g1, g2, g3⟩ := ih hok
    exact ⟨k, k1, g1.elim (fun h => .inl (attempt_err ha k h)) (fun h => .inr (List.mem_cons_of_mem _ h)), g2, g3⟩
  | reconnected ha hs _ ih =>
    obtain ⟨k, k1, g1, g2, g3⟩ := ih hok
    refine ⟨k, k1, .inr ?_, g2, g3⟩
    rcases g1 with g1 | g1
    · cases g1; exact List.mem_cons_self
    · exact List.mem_cons_of_mem _ g1

theorem precheck_used {env : Env} {h h' : HandleS} {w w' : WorldS} (hp : PrecheckS env h w (.ok ()) h' w')
    (hb : h.context.options.pingBeforeQuery = true) :
    ∃ k k1, (h.inner = some k ∨ some k ∈ w) ∧ PingOn env k (.ok k1) ∧ h'.inner = some k1 := by
  cases hp with
  | off hp => rw [hb] at hp; cases hp
  | ok _ _ hr => exact (retry_used hr rfl :)
  | failed _ _ hn _ => exact absurd rfl hn

/-- What a successful operation after a successful check has heard. -/
theorem checked_heard {env : Env} {k k1 k2 : Sock} {lg : List Cmd} {P : Sock → OpRes Sock → Prop} {F : Conn → OpRes Conn} (hi : Issued env k lg)
    (hp : PingOn env k (.ok k1)) (hx : P k1 (.ok k2)) (hF : ∀ k lg r, Issued env k lg → P k r → SimC env k lg F r) {W : List Packet → Prop}
    (hW : ∀ c c1, Mute c → c.inconsistent = false → F c = .ok c1 → ∃ ps, W ps ∧ c.incoming = ps.map .packet ++ c1.incoming) :
    ∃ ls ps, Cleared k.t.inconsistent ls ∧ W ps ∧ Delivers env k (ls ++ [.pong] ++ ps) := by
  have hs : SimC env k lg (fun c => andThen (pingC c) F) (.ok k2) :=
    then_sim (Q := P) (fun _ hr => pingOn_sim hi hr) (fun k lg' r hi hr => hF k lg' r hi hr) (.ok hp hx)
  obtain ⟨lg', -, hf⟩ := hs
  obtain ⟨xs, hx, e⟩ := hf [] .stop
  simp only at e
  cases hpc : pingC (heardConn k lg xs) with
  | ok c1 =>
    rw [hpc] at e
    obtain ⟨ls, g1, g2, g3, g4⟩ := ping_heard (c := heardConn k lg xs) (fun _ => rfl) hpc
    obtain ⟨ps, k1, k2⟩ := hW c1 _ g3 g4 e
    refine ⟨ls, ps, g1, k1, ?_⟩
    rw [k2, ← List.append_assoc, ← List.map_append] at g2
    have hx : Hears _ _ _ _ _ xs := hx
    rw [show xs = _ from g2] at hx
    exact hears_packets hx
  | _ => rw [hpc] at e; cases e

/-- The same without a check. -/
theorem unchecked_heard {env : Env} {k k2 : Sock} {lg : List Cmd} {F : Conn → OpRes Conn} (hs : SimC env k lg F (.ok k2)) {W : List Packet → Prop}
    (hW : ∀ c c1, Mute c → c.inconsistent = k.t.inconsistent → F c = .ok c1 → ∃ ps, W ps ∧ c.incoming = ps.map .packet ++ c1.incoming) :
    ∃ ps, W ps ∧ Delivers env k ps := by
  obtain ⟨lg', -, hf⟩ := hs
  obtain ⟨xs, hx, e⟩ := hf [] .stop
  obtain ⟨ps, k1, k2⟩ := hW (heardConn k lg xs) _ (fun _ => rfl) rfl e
  refine ⟨ps, k1, ?_⟩
  have hx : Hears _ _ _ _ _ xs := hx
  rw [show xs = _ from k2] at hx
  exact hears_packets hx

end CH.Outage
