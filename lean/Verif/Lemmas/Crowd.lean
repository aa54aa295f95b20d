import Verif.Spec.Crowd
import Verif.Props.Faults

/-! Lemmas for C86. -/

namespace CH
open CH.Spec CH.Props CH.Faults

namespace Crowds

variable {σ : Type} {db : Shaky σ} {s : σ} {o : Options}

/-- A connection between operations, whatever its server does. -/
def Loose (c : Conn) : Prop :=
  (c.inconsistent = false ∧ Tail c.incoming) ∨
    (c.inconsistent = true ∧ ∃ body x t, c.incoming = body ++ x :: t ∧ (∀ y ∈ body, Middle y) ∧
      (x = .packet .eof ∨ ∃ e, Fault x e) ∧ Tail t)

theorem loose_gets {c : Conn} (h : Loose c) {x : Inc} (hx : Tail [x]) : Loose (gets x c) := by
  rcases h with ⟨h1, h2⟩ | ⟨h1, body, y, t, h2, h3, h4, h5⟩
  · exact .inl ⟨h1, tail_append h2 hx⟩
  · exact .inr ⟨h1, body, y, t ++ [x], by simp [gets, h2], h3, h4, tail_append h5 hx⟩

theorem good_loose {c : Conn} (h : GoodConn db c s) : Loose c := by
  obtain ⟨_, _, _, _, _, h1, h2⟩ := h
  exact .inl ⟨h1, by rw [h2]; exact .none⟩

theorem serves_from {k : List Cmd → List Inc} (h : ServesShaky db 0 s k) (n : Nat) : ServesShaky db n s fun log => k (log.drop n) where
  ping log hn := by simp only [drop_snoc hn]; exact h.ping _ (Nat.zero_le _)
  cancel log hn := by simp only [drop_snoc hn]; exact h.cancel _ (Nat.zero_le _)
  statement log q ctx hn hq := by
    have := h.statement (log.drop n) q ctx (Nat.zero_le _) hq
    simp only [drop_snoc hn]; exact this
  insert log q ctx hn hq := by
    have := h.insert (log.drop n) q ctx (Nat.zero_le _) hq
    simp only [drop_snoc hn]; exact this
  data log q t b e ctx hn hs := by
    have := h.data (log.drop n) q t b e ctx (Nat.zero_le _) hs
    simp only [drop_snoc hn]; exact this

theorem loose_link {c : Conn} (h : Loose c) {k : Served} (hk : ∀ c, ServesShaky db 0 s (k c)) : Link db (facing k c) s :=
  ⟨⟨c.sent.length, s, serves_from (hk c) _, Nat.le_refl _, by simp [facing, Shaky.state]⟩, h⟩

/-- A handle between operations. -/
structure OkHandle (o : Options) (h : Handle) : Prop where
  options : h.context.options = o
  bound : h.binding = .attached
  conn : h.inner = none ∨ ∃ c, h.inner = some c ∧ Loose c

/-- A handle in the pool. -/
structure OkIdle (o : Options) (h : Handle) : Prop where
  options : h.context.options = o
  conn : ∃ c, h.inner = some c ∧ Loose c

theorem ready_ok {h : Handle} (hr : Ready db h.context h s) (ho : h.context.options = o) : OkHandle o h :=
  ⟨ho, hr.bound, by
    rcases hr.conn with h | ⟨c, h, hl⟩
    · exact .inl h
    · exact .inr ⟨c, h, hl.rest⟩⟩

theorem ok_ready {h : Handle} (ho : OkHandle o h) {k : Served} (hk : ∀ c, ServesShaky db 0 s (k c)) :
    Ready db h.context (facingH k h) s :=
  ⟨rfl, ho.bound, by
    rcases ho.conn with h | ⟨c, h, hl⟩
    · exact .inl (by simp [facingH, h])
    · exact .inr ⟨_, by simp [facingH, h], loose_link hl hk⟩⟩

theorem opens_reopens {r : Nat} {w : World} (h : Opens db s r w) : Reopens db s r w := by
  obtain ⟨k, c, w', rfl, hk, hc⟩ := h
  induction k generalizing r with
  | zero => exact .good hc
  | succ k ih =>
    cases r with
    | zero => omega
    | succ r => exact .failed (ih (by omega))

/-- The idle connections come first when a connection is needed; any of them may be good. -/
theorem pool_reopens {r : Nat} {w : World} (hw : Opens db s r w) (hr : 0 < r) {k : Served} (hk : ∀ c, ServesShaky db 0 s (k c)) :
    ∀ (idle : List Handle), (∀ h ∈ idle, OkIdle o h) → Reopens db s r (poolWorld (idle.map (facingH k)) w)
  | [], _ => opens_reopens hw
  | h :: idle, hi => by
    have ih := pool_reopens hw hr hk idle fun g hg => hi g (List.mem_cons_of_mem _ hg)
    obtain ⟨c, hc, hl⟩ := (hi h List.mem_cons_self).conn
    have e : poolWorld ((h :: idle).map (facingH k)) w = some (facing k c) :: poolWorld (idle.map (facingH k)) w := by
      simp [poolWorld, facingH, hc]
    rw [e]
    cases r with
    | zero => omega
    | succ r => exact .used (loose_link hl hk) ih

/-- Opening a stream. -/
theorem ready_open {h : Handle} {ctx : Context} {w : World} (hr : Ready db ctx h s) (hp : ctx.options.pingBeforeQuery = true)
    (hm : 0 < ctx.options.sendRetries) (hw : Reopens db s ctx.options.sendRetries w) {q : Query} (skip : Bool) (hq : db.isInsert q = false) :
    ∃ c w', h.openStream q skip w = (.ok (reading c 0 skip), ⟨none, ctx, .detached⟩, w') ∧ c.inconsistent = false ∧
      c.incoming = db.answer s q ++ [closing (db.refuses s q)] := by
  obtain ⟨n0, s0, c, used, w', hused, hpre, hs⟩ := ready_precheck hr hp hm hw
  refine ⟨⟨c.incoming ++ c.server (c.sent ++ [.sendQuery q ctx]), c.server, c.inconsistent, c.sent ++ [.sendQuery q ctx]⟩, w', ?_,
    hs.calm, ?_⟩
  · simp only [Handle.openStream, hpre, Binding.detach]
    rfl
  · show c.incoming ++ c.server (c.sent ++ [.sendQuery q ctx]) = _
    rw [hs.empty, hs.serves.statement _ _ _ hs.long hq, hs.state]; rfl

/-- What is at the end of a query's result. -/
inductive EndsWith : Inc → Ending → Prop where
  | whole : EndsWith (.packet .eof) .whole
  | refused {e} : EndsWith (.packet (.exception e)) (.refused e)
  | cut {e} : EndsWith (.error e) .cut

theorem EndsWith.fault {x : Inc} {e : Ending} (h : EndsWith x e) : x = .packet .eof ∨ ∃ e, Fault x e := by
  cases h with
  | whole => exact .inl rfl
  | refused => exact .inr ⟨_, .exception _⟩
  | cut => exact .inr ⟨_, .socket _⟩

/-- Awaiting more when an exception comes. -/
theorem read_refused {skip : Bool} {h : Handle} {t : List Inc} {e : ServerError} : ∀ (body : List Inc) {c : Conn} {idx : Nat},
    c.incoming = body ++ .packet (.exception e) :: t → (∀ x ∈ body, Middle x) → wantedFrom skip idx body = [] →
    ∃ s', (reading c idx skip).next h = (.err (.server e), s', h) ∧ s'.state = .finished
  | [], c, idx, hc, _, _ => by
    rw [next_reading, read_exception (next_packet (p := .exception e) (rest := t) hc rfl)]
    exact ⟨_, rfl, rfl⟩
  | x :: xs, c, idx, hc, hb, hw => by
    have hxs : ∀ y ∈ xs, Middle y := fun y hy => hb y (by simp [hy])
    have ih := fun idx => read_refused (skip := skip) (h := h) xs (c := { c with incoming := xs ++ .packet (.exception e) :: t }) (idx := idx) rfl hxs
    cases hb x (by simp) with
    | progress p =>
      rw [wantedFrom_other (by simp)] at hw
      rw [next_reading, reading_progress hc, ← next_reading]
      exact ih idx hw
    | profileInfo p =>
      rw [wantedFrom_other (by simp)] at hw
      rw [next_reading, reading_profile hc, ← next_reading]
      exact ih idx hw
    | block b =>
      rw [wantedFrom_block] at hw
      rw [next_reading, reading_block hc]
      split
      · next hw' => rw [if_pos hw'] at hw; cases hw
      · next hw' =>
        rw [if_neg hw'] at hw
        rw [← next_reading]
        exact ih (idx + 1) hw

/-- A task's handle, and what the task is doing. -/
inductive SeatOk (o : Options) : Doing → Seat → Prop where
  | free {h} : OkHandle o h → SeatOk o .free (.resting h)
  | reading {c ctx idx skip body x t e} : ctx.options = o → c.inconsistent = false → c.incoming = body ++ x :: t →
      (∀ y ∈ body, Middle y) → EndsWith x e → Tail t →
      SeatOk o (.reading (wantedFrom skip idx body) e) (.streaming (reading c idx skip) ⟨none, ctx, .detached⟩)
  | done {st h} : st.state = .finished → OkHandle o h → SeatOk o (.reading [] .whole) (.streaming st h)
  | refused {st h} : st.state = .finished → h.inner = none → SeatOk o .refused (.streaming st h)
  | spent {h} : h.inner = none → SeatOk o .spent (.resting h)
  | gone : SeatOk o .gone .gone

/-- Everything is as it should be. -/
structure AllOk (o : Options) (l : List Doing) (p : Crowd) : Prop where
  idle : ∀ h ∈ p.idle, OkIdle o h
  length : l.length = p.seats.length
  seats : ∀ (i : Nat) pl st, l[i]? = some pl → p.seats[i]? = some st → SeatOk o pl st

theorem AllOk.at {l : List Doing} {p : Crowd} (h : AllOk o l p) {i : Nat} {pl : Doing} (hi : l[i]? = some pl) :
    ∃ st, p.seats[i]? = some st ∧ SeatOk o pl st := by
  have hl : i < l.length := by
    rw [List.getElem?_eq_some_iff] at hi
    exact hi.1
  have hs : p.seats[i]? = some (p.seats[i]'(by rw [← h.length]; exact hl)) := List.getElem?_eq_getElem _
  exact ⟨_, hs, h.seats i _ _ hi hs⟩

theorem AllOk.set {l : List Doing} {p : Crowd} (h : AllOk o l p) (i : Nat) {pl : Doing} {st : Seat} (hs : SeatOk o pl st)
    {idle : List Handle} (hi : ∀ h ∈ idle, OkIdle o h) : AllOk o (l.set i pl) ⟨idle, p.seats.set i st⟩ := by
  refine ⟨hi, by simp [h.length], fun j pl' st' h1 h2 => ?_⟩
  simp only [List.getElem?_set] at h1 h2
  by_cases hij : i = j
  · subst hij
    simp only [if_true] at h1 h2
    split at h1
    · rw [if_pos (by rw [← h.length]; assumption)] at h2
      cases h1; cases h2; exact hs
    · cases h1
  · rw [if_neg hij] at h1 h2
    exact h.seats j _ _ h1 h2

/-- The place keeps what it is. -/
theorem AllOk.keep {l : List Doing} {p : Crowd} (h : AllOk o l p) {i : Nat} {pl : Doing} (hl : l[i]? = some pl) {st : Seat} (hs : SeatOk o pl st)
    {idle : List Handle} (hi : ∀ h ∈ idle, OkIdle o h) : AllOk o l ⟨idle, p.seats.set i st⟩ := by
  have := h.set i hs hi
  have e : l.set i pl = l := by
    apply List.ext_getElem?
    intro j
    rw [List.getElem?_set]
    split
    · next e =>
      subst e
      split
      · exact hl.symm
      · next hn => rw [List.getElem?_eq_none (by omega)]
    · rfl
  rwa [e] at this

theorem dropHandle_ok {min max : Nat} {idle : List Handle} {h : Handle} (hi : ∀ h ∈ idle, OkIdle o h) (hh : OkHandle o h) :
    ∀ g ∈ dropHandle min max idle h, OkIdle o g := by
  unfold dropHandle
  rcases hh.conn with hn | ⟨c, hc, hl⟩
  · rw [hn]; exact hi
  · rw [hc]
    simp only
    split
    · exact hi
    · split
      · intro g hg
        rcases List.mem_append.mp hg with hg | hg
        · exact hi g hg
        · simp only [List.mem_cons, List.not_mem_nil, or_false] at hg
          subst hg
          exact ⟨hh.options, c, rfl, hl⟩
      · exact hi

theorem drop_ok {idle : List Handle} (hi : ∀ h ∈ idle, OkIdle o h) (n : Nat) : ∀ h ∈ idle.drop n, OkIdle o h :=
  fun h hh => hi h (List.mem_of_mem_drop hh)

theorem streamGets_reading (x : Inc) (c : Conn) (idx : Nat) (skip : Bool) : streamGets x (reading c idx skip) = reading (gets x c) idx skip := rfl

/-- Whatever can happen happens as it should. -/
theorem step_fits {min max : Nat} {numeric : Char → Bool} {cast : Block → Block → Out Block} {v : Scene σ} {p : Crowd} {x : Happening σ}
    (hf : AllOk o v.places p) (hp : o.pingBeforeQuery = true) (hm : 0 < o.sendRetries) (hx : CanHappen db numeric cast o v x) :
    ∃ p' r v', crowdStep min max numeric cast p x = some (p', r) ∧ Happens db numeric cast v x v' r ∧ AllOk o v'.places p' := by
  cases hx with
  | @comes s l c ctx hc hctx =>
    cases hi : p.idle with
    | nil =>
      refine ⟨⟨[], p.seats ++ [.resting ⟨some c, ctx, .attached⟩]⟩, none, _, ?_, .comes, ?_⟩
      · simp [crowdStep, getHandle, takeConn, hi]
      · refine ⟨by simp, by simpa using hf.length, fun i pl st h1 h2 => ?_⟩
        have hlen := hf.length
        rw [List.getElem?_append] at h1 h2
        simp only at hlen
        by_cases hlt : i < l.length
        · rw [if_pos hlt] at h1
          rw [if_pos (by omega)] at h2
          exact hf.seats i _ _ h1 h2
        · rw [if_neg hlt] at h1
          rw [if_neg (by omega)] at h2
          have e : i - l.length = 0 := by
            cases hk : i - l.length with
            | zero => rfl
            | succ k => rw [hk] at h1; simp at h1
          rw [e] at h1
          rw [← hlen, e] at h2
          simp only [List.getElem?_cons_zero, Option.some.injEq] at h1 h2
          subst h1 h2
          exact .free ⟨hctx, rfl, .inr ⟨c, rfl, good_loose hc⟩⟩
    | cons h idle =>
      have hh := hf.idle h (by rw [hi]; exact List.mem_cons_self)
      refine ⟨⟨idle, p.seats ++ [.resting { h with binding := .attached }]⟩, none, _, ?_, .comes, ?_⟩
      · simp [crowdStep, getHandle, takeConn, hi]
      · refine ⟨fun g hg => hf.idle g (by rw [hi]; exact List.mem_cons_of_mem _ hg), by simpa using hf.length, fun i pl st h1 h2 => ?_⟩
        have hlen := hf.length
        rw [List.getElem?_append] at h1 h2
        simp only at hlen
        by_cases hlt : i < l.length
        · rw [if_pos hlt] at h1
          rw [if_pos (by omega)] at h2
          exact hf.seats i _ _ h1 h2
        · rw [if_neg hlt] at h1
          rw [if_neg (by omega)] at h2
          have e : i - l.length = 0 := by
            cases hk : i - l.length with
            | zero => rfl
            | succ k => rw [hk] at h1; simp at h1
          rw [e] at h1
          rw [← hlen, e] at h2
          simp only [List.getElem?_cons_zero, Option.some.injEq] at h1 h2
          subst h1 h2
          exact .free ⟨hh.options, rfl, .inr hh.conn⟩
  | @asks s l i a k w hi ha hk hw =>
    obtain ⟨st, hst, hok⟩ := hf.at hi
    cases hok with
    | @free h hh =>
      have hr := ok_ready hh hk
      obtain ⟨r, h', s', e, ho, hr'⟩ := C81_one_partial hr (by rw [hh.options]; exact hp) (by rw [hh.options]; exact hm)
        (by rw [hh.options]; exact pool_reopens hw hm hk p.idle hf.idle) ha
      have hc : h'.context = h.context := hr'.context
      refine ⟨_, _, ⟨s', l⟩, by simp only [crowdStep, hst, e, Option.map_some]; rfl, .asks hi ho, hf.keep hi (.free ?_) (drop_ok hf.idle _)⟩
      exact ready_ok (db := db) (s := s') (by rw [hc]; exact hr') (by rw [hc]; exact hh.options)
  | @opens s l i q skip k w hi hq hk hw =>
    obtain ⟨st, hst, hok⟩ := hf.at hi
    cases hok with
    | @free h hh =>
      have hr := ok_ready hh hk
      obtain ⟨c, w', e, hc1, hc2⟩ := ready_open hr (by rw [hh.options]; exact hp) (by rw [hh.options]; exact hm)
        (by rw [hh.options]; exact pool_reopens hw hm hk p.idle hf.idle) skip hq
      refine ⟨_, _, _, by simp only [crowdStep, hst, e]; rfl, .opens hi hq, hf.set i ?_ (drop_ok hf.idle _)⟩
      rw [← wantedFrom_zero]
      refine .reading hh.options hc1 hc2 (db.answers _ _) ?_ .none
      cases hx : db.refuses s q with
      | none => exact .whole
      | some xe =>
        obtain ⟨x, e⟩ := xe
        cases db.refused s q x e hx with
        | exception e => exact .refused
        | socket e => exact .cut
  | @block s l i b bs e hi =>
    obtain ⟨st, hst, hok⟩ := hf.at hi
    generalize hw : Doing.reading (b :: bs) e = pl at hok
    cases hok with
    | free _ => cases hw
    | gone => cases hw
    | refused _ _ => cases hw
    | spent _ => cases hw
    | done _ _ => cases hw
    | @reading c ctx idx skip body x t e' h1 h2 h3 h4 h5 h6 =>
      simp only [Doing.reading.injEq] at hw
      obtain ⟨hw, rfl⟩ := hw
      obtain ⟨w, body', idx', e1, hb', e2⟩ := read_there (skip := skip) (h := ⟨none, ctx, .detached⟩) (t := x :: t) body h3 h4 (by rw [← hw]; simp)
      rw [← hw] at e1
      simp only [List.cons.injEq] at e1
      obtain ⟨rfl, rfl⟩ := e1
      refine ⟨_, _, _, by simp only [crowdStep, hst, e2]; rfl, .block hi, hf.set i ?_ hf.idle⟩
      exact .reading h1 h2 rfl hb' h5 h6
  | @ended s l i hi =>
    obtain ⟨st, hst, hok⟩ := hf.at hi
    generalize hw : Doing.reading [] .whole = pl at hok
    cases hok with
    | free _ => cases hw
    | gone => cases hw
    | refused _ _ => cases hw
    | spent _ => cases hw
    | @done st h hd hh =>
      refine ⟨_, _, _, by simp only [crowdStep, hst, BStream.next, hd], .ended hi, hf.keep hi (.done hd hh) hf.idle⟩
    | @reading c ctx idx skip body x t e' h1 h2 h3 h4 h5 h6 =>
      simp only [Doing.reading.injEq] at hw
      obtain ⟨hw, rfl⟩ := hw
      cases h5 with
      | whole =>
        rcases read_one (skip := skip) (idx := idx) (t := t) (h := ⟨none, ctx, .detached⟩) rfl body h3 h4 with
          ⟨_, s', e1, hs'⟩ | ⟨w, body', idx', e1, _⟩
        · refine ⟨_, _, _, by simp only [crowdStep, hst, e1]; rfl, .ended hi, hf.keep hi (.done hs' ?_) hf.idle⟩
          exact ⟨h1, rfl, .inr ⟨_, rfl, .inl ⟨h2, h6⟩⟩⟩
        · rw [← hw] at e1; cases e1
  | @refused s l i e hi =>
    obtain ⟨st, hst, hok⟩ := hf.at hi
    generalize hw : Doing.reading [] (.refused e) = pl at hok
    cases hok with
    | free _ => cases hw
    | gone => cases hw
    | refused _ _ => cases hw
    | spent _ => cases hw
    | done _ _ => cases hw
    | @reading c ctx idx skip body x t e' h1 h2 h3 h4 h5 h6 =>
      simp only [Doing.reading.injEq] at hw
      obtain ⟨hw, rfl⟩ := hw
      cases h5 with
      | refused =>
        obtain ⟨s', e1, hs'⟩ := read_refused (skip := skip) (idx := idx) (t := t) (h := ⟨none, ctx, .detached⟩) body h3 h4 hw.symm
        exact ⟨_, _, _, by simp only [crowdStep, hst, e1]; rfl, .refused hi, hf.set i (.refused hs' rfl) hf.idle⟩
  | @after s l i hi =>
    obtain ⟨st, hst, hok⟩ := hf.at hi
    cases hok with
    | @refused st h hd hh =>
      exact ⟨_, _, _, by simp only [crowdStep, hst, BStream.next, hd], .after hi, hf.keep hi (.refused hd hh) hf.idle⟩
  | @closesRefused s l i hi =>
    obtain ⟨st, hst, hok⟩ := hf.at hi
    cases hok with
    | @refused st h hd hh =>
      exact ⟨_, _, _, by simp only [crowdStep, hst, BStream.drop, hd, Option.map_some], .closesRefused hi, hf.set i (.spent hh) hf.idle⟩
  | @leavesSpent s l i hi =>
    obtain ⟨st, hst, hok⟩ := hf.at hi
    cases hok with
    | @spent h hh =>
      refine ⟨_, _, _, by simp only [crowdStep, hst]; rfl, .leavesSpent hi, hf.set i .gone ?_⟩
      simp only [dropHandle, hh]
      exact hf.idle
  | @closes s l i bs e hi =>
    obtain ⟨st, hst, hok⟩ := hf.at hi
    generalize hw : Doing.reading bs e = pl at hok
    cases hok with
    | free _ => cases hw
    | gone => cases hw
    | refused _ _ => cases hw
    | spent _ => cases hw
    | @done st h hd hh =>
      refine ⟨_, _, _, by simp only [crowdStep, hst, BStream.drop, hd, Option.map_some], .closes hi, hf.set i (.free hh) hf.idle⟩
    | @reading c ctx idx skip body x t e' h1 h2 h3 h4 h5 h6 =>
      have hd : (reading c idx skip).drop ⟨none, ctx, .detached⟩ = some ⟨some { c with inconsistent := true }, ctx, .attached⟩ :=
        C60_dropped c idx skip ⟨none, ctx, .detached⟩ rfl
      refine ⟨_, _, _, by simp only [crowdStep, hst, hd]; rfl, .closes hi,
        hf.set i (st := .resting ⟨some { c with inconsistent := true }, ctx, .attached⟩) (.free ?_) hf.idle⟩
      refine ⟨h1, rfl, .inr ⟨_, rfl, .inr ⟨rfl, body, x, t, h3, h4, h5.fault, h6⟩⟩⟩
  | @leaves s l i hi =>
    obtain ⟨st, hst, hok⟩ := hf.at hi
    cases hok with
    | @free h hh => exact ⟨_, _, _, by simp only [crowdStep, hst]; rfl, .leaves hi, hf.set i .gone (dropHandle_ok hf.idle hh)⟩
  | @loses s l i hi =>
    obtain ⟨st, hst, hok⟩ := hf.at hi
    cases hok with
    | @free h hh =>
      exact ⟨_, _, _, by simp only [crowdStep, hst], .loses hi, hf.keep hi (st := .resting { h with inner := none }) (.free ⟨hh.options, hh.bound, .inl rfl⟩) hf.idle⟩
  | @breaks s l i x hi hx =>
    have resting : ∀ {h : Handle}, OkHandle o h → OkHandle o { h with inner := h.inner.map (gets x) } := fun {h} hh =>
      ⟨hh.options, hh.bound, by
        rcases hh.conn with hn | ⟨c, hc, hl⟩
        · exact .inl (by simp [hn])
        · exact .inr ⟨_, by simp [hc], loose_gets hl hx⟩⟩
    rcases hi with hi | ⟨bs, e, hi⟩
    · obtain ⟨st, hst, hok⟩ := hf.at hi
      cases hok with
      | @free h hh => exact ⟨_, _, _, by simp only [crowdStep, hst], .breaks, hf.keep hi (.free (resting hh)) hf.idle⟩
    · obtain ⟨st, hst, hok⟩ := hf.at hi
      generalize hw : Doing.reading bs e = pl at hok
      cases hok with
      | free _ => cases hw
      | gone => cases hw
      | refused _ _ => cases hw
      | spent _ => cases hw
      | @done st h hd hh =>
        exact ⟨_, _, _, by simp only [crowdStep, hst]; rfl, .breaks, hf.keep hi (by rw [hw]; exact .done hd (resting hh)) hf.idle⟩
      | @reading c ctx idx skip body y t e' h1 h2 h3 h4 h5 h6 =>
        refine ⟨_, _, _, by simp only [crowdStep, hst]; rfl, .breaks, hf.keep hi ?_ hf.idle⟩
        rw [hw, streamGets_reading]
        exact .reading h1 h2 (t := t ++ [x]) (by simp [gets, h3]) h4 h5 (tail_append h6 hx)
  | @breaksIdle s l j x hx =>
    refine ⟨_, _, _, rfl, .breaksIdle, ⟨fun h hh => ?_, hf.length, hf.seats⟩⟩
    obtain ⟨n, hn, rfl⟩ := List.mem_iff_getElem.mp hh
    rw [List.getElem_modify]
    have := hf.idle (p.idle[n]'(by simpa using hn)) (List.getElem_mem _)
    split
    · obtain ⟨c, hc, hl⟩ := this.conn
      exact ⟨this.options, gets x c, by simp [hc], loose_gets hl hx⟩
    · exact this
  | @others s l s' => exact ⟨_, _, _, rfl, .others, hf⟩

/-- The same in turn. -/
theorem run_fits {min max : Nat} {numeric : Char → Bool} {cast : Block → Block → Out Block} (hp : o.pingBeforeQuery = true) (hm : 0 < o.sendRetries)
    (l : List (Happening σ)) {v : Scene σ} {p : Crowd} (hf : AllOk o v.places p) (hl : CanHappenAll db numeric cast o v l) :
    ∃ p' rs v', crowdRun min max numeric cast p l = some (p', rs) ∧ HappensAll db numeric cast v l v' rs ∧ AllOk o v'.places p' := by
  induction l generalizing v p with
  | nil => exact ⟨p, [], v, rfl, .nil, hf⟩
  | cons x l ih =>
    cases hl with
    | cons hx hl =>
      obtain ⟨p1, r, v1, e1, h1, f1⟩ := step_fits (min := min) (max := max) hf hp hm hx
      obtain ⟨p2, rs, v2, e2, h2, f2⟩ := ih f1 (hl _ _ h1)
      exact ⟨p2, r.toList ++ rs, v2, by simp only [crowdRun, e1, e2, Option.map_some], .cons h1 h2, f2⟩

end Crowds

end CH
