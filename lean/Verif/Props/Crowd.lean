import Verif.Lemmas.Crowd

/-! C86: tasks that share a pool of connections to one database. -/

namespace CH.Props
open CH CH.Spec CH.Faults CH.Crowds

/-- C86. Tasks get handles from a pool, ask things, open streams of results and read them block by block while others work, drop them
early, drop their handles, get handles again; connections break, in use or idle; the database is changed by others. Every task gets
what the database says to its own statements, in the state in which they find it, and the blocks of its own queries one after the
other; nothing that happened to a connection before, and nothing another task does, shows. Missing: a query's result of which the
connection breaks before its end (`C86_other_task_violated`), and a handle used again after an exception at the end of a
query's result (`C52_after_exception_violated`). -/
theorem C86_tasks_partial {σ : Type} (db : Shaky σ) (s : σ) (o : Options) (min max : Nat) (numeric : Char → Bool)
    (cast : Block → Block → Out Block) (l : List (Happening σ)) (hp : o.pingBeforeQuery = true) (hm : 0 < o.sendRetries)
    (hl : CanHappenAll db numeric cast o ⟨s, []⟩ l) :
    ∃ p rs v, crowdRun min max numeric cast ⟨[], []⟩ l = some (p, rs) ∧ HappensAll db numeric cast ⟨s, []⟩ l v rs := by
  obtain ⟨p, rs, v, h1, h2, _⟩ := run_fits (min := min) (max := max) (db := db) (o := o) hp hm l (v := ⟨s, []⟩) (p := ⟨[], []⟩)
    ⟨by simp, rfl, fun i pl st h => by simp at h⟩ hl
  exact ⟨p, rs, v, h1, h2⟩

/-- What the server does while the count of `exShaky` is `n`. -/
def exServed (n : Nat) : Served := fun _ => serverOfShaky exShaky n

/-- The first task opens a query on a database that counts 1; somebody changes the count to 4; the second task has its
own statement executed and refused; the first reads on, and drops the stream and its handle with the rest of the answer unread. A third
task gets that handle; its query gives the blocks of the present count, and then its connection breaks, which does not show in
what it asks next. The second reads the exception at the end of a result that is refused, and leaves. -/
def exHappenings : List (Happening Nat) := [.comes (exFresh 1) sampleCtx, .comes (exFresh 1) sampleCtx,
  .opens 0 ⟨"SELECT", ""⟩ true (exServed 1) [some (exFresh 1)], .others 4,
  .asks 1 (.execute ⟨"BAD", ""⟩) (exServed 4) [some (exFresh 4)], .awaits 0, .closes 0, .leaves 0,
  .comes (exFresh 5) sampleCtx, .asks 2 (.select ⟨"SELECT", ""⟩ false 3) (exServed 5) [some (exFresh 5)], .breaks 2 .closed,
  .asks 2 (.execute ⟨"X", ""⟩) (exServed 6) [none, some (exFresh 6)],
  .opens 1 ⟨"BAD", ""⟩ true (exServed 7) [some (exFresh 7)], .awaits 1, .awaits 1, .closes 1, .leaves 1]

theorem exHappenings_can : CanHappenAll exShaky (fun c => c.isDigit) (fun b _ => .ok b) sampleCtx.options ⟨1, []⟩ exHappenings := by
  have k : ∀ n, ∀ c, ServesShaky exShaky 0 n (exServed n c) := fun n _ => serverOfShaky_serves exShaky n
  have w : ∀ n, Opens exShaky n sampleCtx.options.sendRetries [some (exFresh n)] := fun n => ⟨0, _, [], rfl, by decide, exFresh_holds n⟩
  refine .cons (.comes (exFresh_holds 1) rfl) fun _ _ h => ?_
  cases h
  refine .cons (.comes (exFresh_holds 1) rfl) fun _ _ h => ?_
  cases h
  refine .cons (.opens rfl rfl (k 1) (w 1)) fun _ _ h => ?_
  cases h
  refine .cons .others fun _ _ h => ?_
  cases h
  refine .cons (.asks rfl (.execute rfl) (k 4) (w 4)) fun _ _ h => ?_
  cases h with | asks _ h => ?_
  cases h with
  | execute _ h => cases h
  | executeFailed _ h => ?_
  refine .cons (.block rfl) fun _ _ h => ?_
  cases h with
  | ended h => cases h
  | refused h => cases h
  | after h => cases h
  | block h => ?_
  cases h
  refine .cons (.closes rfl) fun _ _ h => ?_
  cases h with
  | closesRefused h => cases h
  | closes h => ?_
  refine .cons (.leaves rfl) fun _ _ h => ?_
  cases h with
  | leavesSpent h => cases h
  | leaves h => ?_
  refine .cons (.comes (exFresh_holds 5) rfl) fun _ _ h => ?_
  cases h
  refine .cons (.asks rfl (.select rfl rfl) (k 5) (w 5)) fun _ _ h => ?_
  cases h with | asks _ h => ?_
  cases h with | select _ => ?_
  refine .cons (.breaks (.inl rfl) .closed) fun _ _ h => ?_
  cases h
  refine .cons (.asks rfl (.execute rfl) (k 6) ⟨1, _, [], rfl, by decide, exFresh_holds 6⟩) fun _ _ h => ?_
  cases h with | asks _ h => ?_
  cases h with
  | executeFailed _ h => cases h
  | execute _ h => ?_
  refine .cons (.opens rfl rfl (k 7) (w 7)) fun _ _ h => ?_
  cases h
  refine .cons (.refused rfl) fun _ _ h => ?_
  cases h with
  | ended h => cases h
  | block h => cases h
  | after h => cases h
  | refused h => ?_
  refine .cons (.after rfl) fun _ _ h => ?_
  cases h with
  | ended h => cases h
  | block h => cases h
  | refused h => cases h
  | after h => ?_
  refine .cons (.closesRefused rfl) fun _ _ h => ?_
  cases h with
  | closes h => cases h
  | closesRefused h => ?_
  refine .cons (.leavesSpent rfl) fun _ _ h => ?_
  exact .nil

example : ∃ p, crowdRun 5 10 (fun c => c.isDigit) (fun b _ => .ok b) ⟨[], []⟩ exHappenings =
    some (p, [(1, .failed (.server exServerError)), (0, .items [.block exHead]),
      (2, .items [.block exHead, .block exHead, .block exHead]), (2, .items []), (1, .items [.err (.server exServerError)]),
      (1, .items [.ended])]) := by
  obtain ⟨p, rs, v, e, h⟩ := C86_tasks_partial exShaky 1 sampleCtx.options 5 10 (fun c => c.isDigit) (fun b _ => .ok b) exHappenings rfl (by decide)
    exHappenings_can
  refine ⟨p, ?_⟩
  rw [e]
  cases h with | cons h1 h => ?_
  cases h1
  cases h with | cons h1 h => ?_
  cases h1
  cases h with | cons h1 h => ?_
  cases h1
  cases h with | cons h1 h => ?_
  cases h1
  cases h with | cons h1 h => ?_
  cases h1 with | asks _ h1 => ?_
  cases h1 with
  | execute _ h2 => cases h2
  | executeFailed _ h1 => ?_
  cases h1
  cases h with | cons h1 h => ?_
  cases h1 with
  | ended h2 => cases h2
  | refused h2 => cases h2
  | after h2 => cases h2
  | block h1 => ?_
  cases h1
  cases h with | cons h1 h => ?_
  cases h1 with
  | closesRefused h2 => cases h2
  | closes h1 => ?_
  cases h with | cons h1 h => ?_
  cases h1 with
  | leavesSpent h2 => cases h2
  | leaves h1 => ?_
  cases h with | cons h1 h => ?_
  cases h1
  cases h with | cons h1 h => ?_
  cases h1 with | asks _ h1 => ?_
  cases h1 with | select _ => ?_
  cases h with | cons h1 h => ?_
  cases h1
  cases h with | cons h1 h => ?_
  cases h1 with | asks _ h1 => ?_
  cases h1 with
  | executeFailed _ h2 => cases h2
  | execute _ h1 => ?_
  cases h with | cons h1 h => ?_
  cases h1
  cases h with | cons h1 h => ?_
  cases h1 with
  | ended h2 => cases h2
  | block h2 => cases h2
  | after h2 => cases h2
  | refused h1 => ?_
  cases h1
  cases h with | cons h1 h => ?_
  cases h1 with
  | ended h2 => cases h2
  | block h2 => cases h2
  | refused h2 => cases h2
  | after h1 => ?_
  cases h with | cons h1 h => ?_
  cases h1 with
  | closes h2 => cases h2
  | closesRefused h1 => ?_
  cases h with | cons h1 h => ?_
  cases h
  cases h1 with
  | leaves h2 => cases h2
  | leavesSpent h1 => ?_
  rfl

/-- C86. A handle that is dropped with its connection while fewer than `min` are idle (and the queue has room) is the one the last of
the next tasks gets, those before it getting the handles that were idle, in the order in which these were dropped. -/
theorem C86_reused {σ : Type} (min max : Nat) (numeric : Char → Bool) (cast : Block → Block → Out Block) (p : Crowd) (i : Nat) (h : Handle)
    (c : Conn) (new : List (Conn × Context)) (hi : p.seats[i]? = some (.resting h)) (hb : h.binding = .attached) (hc : h.inner = some c)
    (hmin : p.idle.length < min) (hmax : p.idle.length < max) (hn : new.length = p.idle.length + 1) :
    crowdRun (σ := σ) min max numeric cast p (.leaves i :: new.map fun x => .comes x.1 x.2) =
      some (⟨[], p.seats.set i .gone ++ (p.idle.map fun g => .resting { g with binding := .attached }) ++ [.resting h]⟩, []) := by
  have key : ∀ (idle : List Handle) (new : List (Conn × Context)) (seats : List Seat), new.length = idle.length →
      crowdRun (σ := σ) min max numeric cast ⟨idle, seats⟩ (new.map fun x => .comes x.1 x.2) =
        some (⟨[], seats ++ idle.map fun g => .resting { g with binding := .attached }⟩, []) := by
    intro idle
    induction idle with
    | nil =>
      intro new seats hn
      obtain rfl : new = [] := List.length_eq_zero_iff.mp hn
      simp [crowdRun]
    | cons g idle ih =>
      intro new seats hn
      cases new with
      | nil => simp at hn
      | cons x new =>
        have := ih new (seats ++ [.resting { g with binding := .attached }]) (by simpa using hn)
        simp only [List.map_cons, crowdRun, crowdStep, getHandle, takeConn, Option.map_some, this]
        simp
  have hd : dropHandle min max p.idle h = p.idle ++ [{ h with binding := .none }] := by
    simp [dropHandle, hc, hb, hmin, hmax]
  have := key (p.idle ++ [{ h with binding := .none }]) new (p.seats.set i .gone) (by simpa using hn)
  simp only [crowdRun, crowdStep, hi, hd, this, Option.map_some]
  obtain ⟨inner, ctx, b⟩ := h
  subst hb
  simp

example : crowdRun (σ := Nat) 5 10 (fun c => c.isDigit) (fun b _ => .ok b) ⟨[⟨some (exFresh 1), sampleCtx, .none⟩], [.resting ⟨some (exOld 2), sampleCtx, .attached⟩]⟩
      [.leaves 0, .comes (exFresh 3) sampleCtx, .comes (exFresh 3) sampleCtx] =
    some (⟨[], [.gone, .resting ⟨some (exFresh 1), sampleCtx, .attached⟩, .resting ⟨some (exOld 2), sampleCtx, .attached⟩]⟩, []) :=
  C86_reused 5 10 _ _ ⟨[⟨some (exFresh 1), sampleCtx, .none⟩], [.resting ⟨some (exOld 2), sampleCtx, .attached⟩]⟩ 0 _ (exOld 2)
    [(exFresh 3, sampleCtx), (exFresh 3, sampleCtx)] rfl rfl rfl (by decide) (by decide) rfl

/-- C86. There are never more than `min` idle handles. -/
theorem C86_idle {σ : Type} (min max : Nat) (numeric : Char → Bool) (cast : Block → Block → Out Block) (l : List (Happening σ)) (p p' : Crowd)
    (rs : List (Nat × Reply)) (h : p.idle.length ≤ min) (hr : crowdRun min max numeric cast p l = some (p', rs)) : p'.idle.length ≤ min := by
  have one : ∀ {p p' : Crowd} {x : Happening σ} {r}, p.idle.length ≤ min → crowdStep min max numeric cast p x = some (p', r) →
      p'.idle.length ≤ min := by
    intro p p' x r h hx
    cases x with
    | comes c ctx =>
      simp only [crowdStep, getHandle] at hx
      cases hi : p.idle with
      | nil =>
        simp only [hi, takeConn, List.nil_append, Option.map_some, Option.some.injEq, Prod.mk.injEq] at hx
        rw [← hx.1]; simp
      | cons g idle =>
        simp only [hi, takeConn, Option.map_some, Option.some.injEq, Prod.mk.injEq] at hx
        rw [← hx.1]
        rw [hi] at h
        simp at h ⊢
        omega
    | asks i a k w =>
      simp only [crowdStep] at hx
      split at hx
      · simp only [Option.map_eq_some_iff] at hx
        obtain ⟨y, _, hx⟩ := hx
        simp only [Prod.mk.injEq] at hx
        rw [← hx.1]
        simp only [List.length_drop]
        omega
      · cases hx
    | opens i q skip k w =>
      simp only [crowdStep] at hx
      split at hx
      · split at hx
        · simp only [Option.some.injEq, Prod.mk.injEq] at hx
          rw [← hx.1]
          simp only [List.length_drop]
          omega
        · cases hx
      · cases hx
    | awaits i =>
      simp only [crowdStep] at hx
      split at hx
      · simp only [Option.some.injEq, Prod.mk.injEq] at hx
        rw [← hx.1]; exact h
      · cases hx
    | closes i =>
      simp only [crowdStep] at hx
      split at hx
      · simp only [Option.map_eq_some_iff] at hx
        obtain ⟨y, _, hx⟩ := hx
        simp only [Prod.mk.injEq] at hx
        rw [← hx.1]; exact h
      · cases hx
    | leaves i =>
      simp only [crowdStep] at hx
      split at hx
      · simp only [Option.some.injEq, Prod.mk.injEq] at hx
        rw [← hx.1]
        simp only [dropHandle]
        split
        · exact h
        · split
          · exact h
          · split
            · next hlt => simp only [List.length_append, List.length_cons, List.length_nil]; omega
            · exact h
      · cases hx
    | loses i =>
      simp only [crowdStep] at hx
      split at hx
      · simp only [Option.some.injEq, Prod.mk.injEq] at hx
        rw [← hx.1]; exact h
      · cases hx
    | breaks i x =>
      simp only [crowdStep] at hx
      split at hx
      · simp only [Option.some.injEq, Prod.mk.injEq] at hx
        rw [← hx.1]; exact h
      · simp only [Option.some.injEq, Prod.mk.injEq] at hx
        rw [← hx.1]; exact h
      · cases hx
    | breaksIdle j x =>
      simp only [crowdStep, Option.some.injEq, Prod.mk.injEq] at hx
      rw [← hx.1]; simpa using h
    | others s =>
      simp only [crowdStep, Option.some.injEq, Prod.mk.injEq] at hx
      rw [← hx.1]; exact h
  induction l generalizing p rs with
  | nil => cases hr; exact h
  | cons x l ih =>
    simp only [crowdRun] at hr
    cases hx : crowdStep min max numeric cast p x with
    | none => rw [hx] at hr; cases hr
    | some y =>
      obtain ⟨p1, r⟩ := y
      rw [hx] at hr
      simp only [Option.map_eq_some_iff] at hr
      obtain ⟨z, hz, hr⟩ := hr
      simp only [Prod.mk.injEq] at hr
      exact ih p1 z.2 (one h hx) (by rw [hz, ← hr.1])

example (p' : Crowd) (rs : List (Nat × Reply)) (hr : crowdRun (σ := Nat) 1 10 (fun c => c.isDigit) (fun b _ => .ok b)
    ⟨[], [.resting ⟨some (exOld 2), sampleCtx, .attached⟩, .resting ⟨some (exFresh 2), sampleCtx, .attached⟩]⟩ [.leaves 0, .leaves 1] =
      some (p', rs)) : p'.idle.length ≤ 1 :=
  C86_idle 1 10 _ _ _ _ _ _ (by decide) hr

/-- C86 fails: a task drops the stream of a query before its end and then its handle, whose connection goes to the pool; the
server closes that connection before the end of the answer; a task that gets the handle afterwards panics with whatever it
does first. -/
theorem C86_other_task_violated {σ : Type} (min max : Nat) (numeric : Char → Bool) (cast : Block → Block → Out Block) (c c' : Conn) (idx : Nat)
    (skip : Bool) (ctx ctx' : Context) (body : List Inc) (hc : c.incoming = body) (hb : ∀ x ∈ body, Middle x) (hmin : 0 < min)
    (hmax : 0 < max) (hp : ctx.options.pingBeforeQuery = true) :
    ∃ h, crowdRun (σ := σ) min max numeric cast ⟨[], [.streaming (reading c idx skip) ⟨none, ctx, .detached⟩]⟩
        [.closes 0, .leaves 0, .breaksIdle 0 .closed, .comes c' ctx'] = some (⟨[], [.gone, .resting h]⟩, []) ∧
      ∀ k w, (∀ c, k c [.cancel] = []) →
        (∀ q, ((facingH k h).execute q w).1 = .panic) ∧ (∀ q skip, ((facingH k h).openStream q skip w).1 = .panic) := by
  refine ⟨⟨some { c with incoming := body ++ [.closed], inconsistent := true }, ctx, .attached⟩, ?_, fun k w hk => ?_⟩
  · have hd : (reading c idx skip).drop ⟨none, ctx, .detached⟩ = some ⟨some { c with inconsistent := true }, ctx, .attached⟩ :=
      C60_dropped c idx skip ⟨none, ctx, .detached⟩ rfl
    simp [crowdRun, crowdStep, hd, dropHandle, hmin, hmax, getHandle, takeConn, gets, hc]
  · have hpre : ∀ w, ((facingH k ⟨some { c with incoming := body ++ [.closed], inconsistent := true }, ctx, .attached⟩).precheck w).1 = .panic := by
      intro w
      have hcl := C71_clear (facing k { c with incoming := body ++ [.closed], inconsistent := true }) .lost rfl (by
        have e : (facing k { c with incoming := body ++ [.closed], inconsistent := true }).server
            ((facing k { c with incoming := body ++ [.closed], inconsistent := true }).sent ++ [.cancel]) = [] := by
          show k _ ((c.sent ++ [Cmd.cancel]).drop c.sent.length) = []
          rw [List.drop_left]
          exact hk _
        rw [e, List.append_nil]
        exact judged_body hb .lost)
      simp only at hcl
      unfold Handle.precheck facingH
      simp only [hp, if_true, Option.map_some]
      unfold Handle.checkConnection
      simp only [Binding.detach, retryGuard]
      rw [retryLoop_eq]
      simp only [Bool.false_eq_true, if_false, Handle.ping, hcl]
    constructor
    · intro q
      unfold Handle.execute
      have := hpre w
      revert this
      generalize (facingH k ⟨some { c with incoming := body ++ [.closed], inconsistent := true }, ctx, .attached⟩).precheck w = x
      obtain ⟨x, y, z⟩ := x
      rintro rfl
      rfl
    · intro q skip
      unfold Handle.openStream
      have := hpre w
      revert this
      generalize (facingH k ⟨some { c with incoming := body ++ [.closed], inconsistent := true }, ctx, .attached⟩).precheck w = x
      obtain ⟨x, y, z⟩ := x
      rintro rfl
      rfl

example : ∃ h, crowdRun (σ := Nat) 5 10 (fun c => c.isDigit) (fun b _ => .ok b)
      ⟨[], [.streaming (reading ⟨[.packet (.block exHead)], serverOfShaky exShaky 1, false, []⟩ 0 true) ⟨none, sampleCtx, .detached⟩]⟩
      [.closes 0, .leaves 0, .breaksIdle 0 .closed, .comes (exFresh 1) sampleCtx] = some (⟨[], [.gone, .resting h]⟩, []) ∧
    ∀ q w, ((facingH (exServed 1) h).execute q w).1 = .panic := by
  obtain ⟨h, e, hp⟩ := C86_other_task_violated (σ := Nat) 5 10 (fun c => c.isDigit) (fun b _ => .ok b)
    ⟨[.packet (.block exHead)], serverOfShaky exShaky 1, false, []⟩ (exFresh 1) 0 true sampleCtx sampleCtx [.packet (.block exHead)] rfl
    (by intro x hx; simp only [List.mem_cons, List.not_mem_nil, or_false] at hx; subst hx; exact .block _) (by decide) (by decide) rfl
  exact ⟨h, e, fun q w => (hp (exServed 1) w fun c => rfl).1 q⟩

end CH.Props
