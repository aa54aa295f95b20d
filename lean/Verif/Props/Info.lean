import Verif.Lemmas.Pool
import Verif.Lemmas.Text
import Verif.Model.Info
import Verif.Spec.Info
import Verif.Props.Pool

/-!
# C101: what a pool tells about itself is true
-/

namespace CH.Props

open CH CH.Pool CH.Spec

/-! ### The text -/

theorem isDigitC_iff (c : Char) : ('0'.toNat ≤ c.toNat ∧ c.toNat ≤ '9'.toNat) ↔ isDigitC c = true := by
  simp [isDigitC]

theorem numbers_cons (cur : Option Nat) (c : Char) (r : List Char) : numbersFrom cur (c :: r) =
    if isDigitC c = true then
      numbersFrom (some ((match cur with | some n => 10 * n | none => 0) + (c.toNat - 48))) r
    else cur.toList ++ numbersFrom none r := by
  rw [numbersFrom.eq_def]
  simp only [isDigitC_iff]
  rfl

theorem numbers_plain (cur : Option Nat) : ∀ (w r : List Char), w ≠ [] → (∀ c ∈ w, isDigitC c = false) →
    numbersFrom cur (w ++ r) = cur.toList ++ numbersFrom none r
  | [], _, h, _ => absurd rfl h
  | [c], r, _, hd => by
    have := hd c (by simp)
    rw [List.cons_append, numbers_cons, if_neg (by simp [this])]
    simp
  | c :: d :: w, r, _, hd => by
    have h1 := hd c (by simp)
    have ih := numbers_plain none (d :: w) r (by simp) fun x hx => hd x (by simp [hx])
    rw [List.cons_append, numbers_cons, if_neg (by simp [h1]), ih]
    simp

theorem numbers_number (r : List Char) : ∀ (d : List Char) (cur : Option Nat), (∀ c ∈ d, isDigitC c = true) → d ≠ [] →
    numbersFrom cur (d ++ r) = numbersFrom (some (d.foldl (fun acc c => acc * 10 + (c.toNat - 48))
      (match cur with | some n => n | none => 0))) r
  | [], _, _, h => absurd rfl h
  | [c], cur, hd, _ => by
    have := hd c (by simp)
    rw [List.cons_append, numbers_cons, if_pos this]
    simp only [List.nil_append, List.foldl]
    cases cur <;> simp [Nat.mul_comm]
  | c :: e :: d, cur, hd, _ => by
    have h1 := hd c (by simp)
    rw [List.cons_append, numbers_cons, if_pos h1]
    rw [numbers_number r (e :: d) _ (fun x hx => hd x (by simp [hx])) (by simp)]
    cases cur <;> simp [Nat.mul_comm]

theorem numbers_nat (n : Nat) (r : List Char) : numbersFrom none (natChars n ++ r) = numbersFrom (some n) r := by
  rw [numbers_number r _ _ (natChars_digits n) (natChars_ne_nil n)]
  exact congrArg (fun x => numbersFrom (some x) r) (digitsVal_natChars n)

theorem words_append (a b : List Char) : words (a ++ b) = words a ++ words b := by simp [words]

theorem words_nat (n : Nat) : words (natChars n) = [] := by
  simp only [words, List.filter_eq_nil_iff]
  intro c hc
  have := (isDigitC_iff c).mpr (natChars_digits n c hc)
  simp only [this, and_self, decide_true, Bool.not_true]
  decide

theorem numbers_field (cur : Option Nat) (name : String) (n : Nat) (r : List Char)
    (h : (name.toList.all fun c => !isDigitC c) = true) :
    numbersFrom cur (debugField name n r) = cur.toList ++ numbersFrom (some n) r := by
  rw [debugField, ← List.append_assoc, numbers_plain cur _ _ (by simp), numbers_nat]
  intro c hc
  rcases List.mem_append.mp hc with hc | hc
  · simpa using List.all_eq_true.mp h c hc
  · simpa using List.all_eq_true.mp (show (": ".toList.all fun c => !isDigitC c) = true by decide +kernel) c hc

theorem words_field (name : String) (n : Nat) (r : List Char) :
    words (debugField name n r) = words (name.toList ++ ": ".toList) ++ words r := by
  rw [debugField, words_append, words_append, words_append, words_append, words_nat, List.nil_append, List.append_assoc]

/-- C101, the text: whatever the numbers are, the report has them in this order and nothing else that could be taken for a
number, and the words around them do not depend on them. -/
theorem C101_text (cfg : Cfg) (i : PoolInfo) :
    numbersFrom none (debugPool cfg i) = [cfg.min, cfg.max, i.newLen, i.idleLen, i.tasksLen, i.ongoing] ∧
    words (debugPool cfg i) = ("Pool { min: , max: , new connections count: , idle connections count: , tasks count: , " ++
      "ongoing connections count:  }").toList := by
  constructor
  · rw [debugPool, numbers_field _ _ _ _ (by decide +kernel), numbers_field _ _ _ _ (by decide +kernel),
      numbers_field _ _ _ _ (by decide +kernel), numbers_field _ _ _ _ (by decide +kernel),
      numbers_field _ _ _ _ (by decide +kernel), numbers_field _ _ _ _ (by decide +kernel), ← List.append_nil " }".toList,
      numbers_plain _ _ _ (by decide +kernel) (fun c hc => by
        simpa using List.all_eq_true.mp (show (" }".toList.all fun c => !isDigitC c) = true by decide +kernel) c hc)]
    rfl
  · rw [debugPool, words_field, words_field, words_field, words_field, words_field, words_field]
    decide +kernel

/-- A pool with one connection in use and one being opened. -/
example : String.ofList (debugPool cfg2 ⟨1, 0, 3, 1⟩) =
    ("Pool { min: 1, max: 2, new connections count: 1, idle connections count: 0, tasks count: 3, " ++
      "ongoing connections count: 1 }") := by
  have h : ∀ s n r, n < 10 → debugField s n r = s.toList ++ (": ".toList ++ ([digitChar n] ++ r)) := by
    intro s n r hn
    rw [debugField, natChars_lt hn]
  rw [debugPool, h _ _ _ (by decide), h _ _ _ (by decide), h _ _ _ (by decide), h _ _ _ (by decide), h _ _ _ (by decide),
    h _ _ _ (by decide)]
  decide +kernel

/-! ### The numbers -/

theorem quiet_held {s : St} (hq : Quiet s) : s.threads.filterMap held = [] := by
  rw [List.filterMap_eq_nil_iff]
  intro pc hpc
  obtain ⟨e, rfl⟩ := hq pc hpc
  rfl

/-- C101, the numbers, every interleaving of other calls before: if no call is in progress while the pool is looked at, and none
has panicked because the idle store was full, the report counts exactly the connections being opened, idle and in use, and these
are all connections there are. Missing for the full property: calls in progress (`C101_twice_violated`, `C101_missed_violated`),
that panic (`C101_absurd_violated`), and the number of tasks (`C101_tasks_violated`). -/
theorem C101_numbers_partial {cfg : Cfg} {s : St} (h : Reach cfg s) (hq : Quiet s) (hp : .done .overflowed ∉ s.threads)
    (hw : (inUse s).length < 18446744073709551616) :
    (info s s s s).ongoing = (inUse s).length ∧
    (info s s s s).newLen + (info s s s s).idleLen + (info s s s s).ongoing = (connections s).length ∧
    (info s s s s).newLen ≤ 1 ∧ (info s s s s).idleLen ≤ cfg.max := by
  have h1 := C49_exact_partial h hq hp hw
  refine ⟨h1, ?_, ?_, C49_idle_bounded h⟩
  · unfold connections
    rw [quiet_held hq]
    simp only [info, h1, inUse, List.length_append, List.length_map, List.length_nil]
    omega
  · simp only [info]
    cases s.new <;> simp

/-- One connection in use, another being opened, after two calls; a third call is registered. -/
example : (exec cfg2 St.init (openOne ++ .poll 8 :: runs 1 14 .pending)).map
    (fun s => (info s s s s, (inUse s).length, (connections s).length, isQuiet s, decide (.done .overflowed ∈ s.threads))) =
    some (⟨1, 0, 1, 1⟩, 1, 2, true, false) := by decide +kernel

/-- Of one call more than those that are done, nothing is counted twice. -/
theorem stepPc_ongoing_le {cfg : Cfg} {s : St} {o : Outcome} {pc : Pc} (ht : ∀ t h, pc ≠ .taken t h)
    (hd : stillCounted pc = true → 0 < s.ongoing) (hp : ∀ h, pc ≠ .dec h true) :
    (stepPc cfg s o pc).1.ongoing ≤ s.ongoing := by
  cases pc
  case polling t f =>
    simp only [stepPc, pollOpening]
    cases f.asked <;> simp <;> cases getAddr cfg.hosts s.connectionsNum <;> cases o <;> simp
  case taken t h => exact absurd rfl (ht t h)
  case dec h p =>
    cases p
    · have := hd rfl
      simp only [stepPc]
      rw [decr_pos this]
      omega
    · exact absurd rfl (hp h)
  case release =>
    have := hd rfl
    simp only [stepPc]
    rw [decr_pos this]
    omega
  all_goals (simp only [stepPc]; repeat' split)
  all_goals exact Nat.le_refl _

theorem seq_ongoing {cfg : Cfg} {s : St} (hw : cfg.max < usize) (h : SeqReach cfg s) : s.ongoing ≤ cfg.max := by
  induction h with
  | init => simp [St.init]
  | @step s s' e hr hq he ih =>
    have hi := seq_inv hw hr
    cases e with
    | run i o =>
      simp only [step] at he
      cases hpc : s.threads[i]? with
      | none => rw [hpc] at he; simp at he
      | some pc =>
        rw [hpc] at he
        have hn : ∀ e, pc ≠ .done e := by
          intro e heq
          subst heq
          simp at he
        have he' : s'.ongoing = (stepPc cfg s o pc).1.ongoing := by
          cases pc <;> simp at he <;> first | exact absurd rfl (hn _) | (subst he; rfl)
        rw [he']
        by_cases ht : ∃ t h, pc = .taken t h
        · obtain ⟨t, h, rfl⟩ := ht
          have h1 := wsum_busy (w := one stillCounted) (fun _ => rfl) hi.busy hpc hn
          have h2 := wsum_busy (w := heldW) heldW_done hi.busy hpc hn
          have hc := hi.cap
          have hx := hi.exact
          rw [h1] at hx
          rw [h2] at hc
          simp [one, stillCounted, heldW, held] at hx hc
          simp only [stepPc]
          rw [incr_small (by omega)]
          omega
        · refine Nat.le_trans (stepPc_ongoing_le (fun t h heq => ht ⟨t, h, heq⟩) ?_ ?_) ih
          · intro hs
            have h1 := wsum_le (w := one stillCounted) hpc
            have hx := hi.exact
            simp [one, hs] at h1
            omega
          · intro h heq
            subst heq
            have := hi.ok _ (List.mem_of_getElem? hpc)
            simp [pcOk] at this
    | poll t => simp only [step, Option.some.injEq] at he; subst he; exact ih
    | drop j =>
      simp only [step] at he
      split at he
      · simp at he
      · simp only [Option.some.injEq] at he; subst he; exact ih
    | lose j =>
      simp only [step] at he
      split at he
      · simp only [Option.some.injEq] at he; subst he; exact ih
      · simp at he
    | rebind j b =>
      simp only [step] at he
      split at he
      · split at he
        · simp only [Option.some.injEq] at he; subst he; exact ih
        · simp at he
      · simp at he
    | io =>
      simp only [step] at he
      split at he
      · simp only [Option.some.injEq] at he; subst he; exact ih
      · simp at he

/-- C101, another thread looks at the pool at any moments: when the uses of the pool do not overlap each other, no number that
is reported is above its limit: one connection being opened, and the maximum for those idle and for those in use. -/
theorem C101_limits {cfg : Cfg} {s1 s2 s3 s4 : St} (hw : cfg.max < 18446744073709551616) (h1 : SeqReach cfg s1)
    (h2 : SeqReach cfg s2) (h4 : SeqReach cfg s4) :
    (info s1 s2 s3 s4).newLen ≤ 1 ∧ (info s1 s2 s3 s4).newLen ≤ cfg.max ∧ (info s1 s2 s3 s4).idleLen ≤ cfg.max ∧
      (info s1 s2 s3 s4).ongoing ≤ cfg.max := by
  refine ⟨?_, ?_, C49_idle_bounded (Pool.SeqReach.reach h2), seq_ongoing hw h4⟩
  · simp only [info]
    cases s1.new <;> simp
  · have := (seq_inv hw h1).cap
    simp only [info]
    omega

/-- The limit of those in use is reached. -/
example : ∃ s, SeqReach cfg1 s ∧ cfg1.max < 18446744073709551616 ∧ info s s s s = ⟨0, 0, 0, 1⟩ := by
  obtain ⟨s, hs⟩ : ∃ s, seqExec cfg1 St.init openOne = some s := Option.isSome_iff_exists.mp (by decide +kernel)
  refine ⟨s, seqExec_reach .init hs, by decide, ?_⟩
  have : (seqExec cfg1 St.init openOne).map (fun s => info s s s s) = some ⟨0, 0, 0, 1⟩ := by decide +kernel
  rw [hs] at this
  exact Option.some.inj this

/-! ### What goes wrong -/

theorem exec_steps {cfg : Cfg} {es : List Ev} {s s' : St} (h : exec cfg s es = some s') : Steps cfg s s' := by
  suffices ∀ s0, Steps cfg s0 s → Steps cfg s0 s' from this s (.refl s)
  induction es generalizing s with
  | nil => simp [exec] at h; subst h; exact fun _ h => h
  | cons e es ih =>
    simp only [exec] at h
    cases he : step cfg s e with
    | none => rw [he] at h; simp at h
    | some s1 =>
      rw [he] at h
      exact fun s0 h0 => ih h s0 (.step e h0 he)

/-- Looking at the pool after each of four pieces of an execution. -/
def looks (cfg : Cfg) (e1 e2 e3 e4 : List Ev) : Option (St × St × St × St) := do
  let s1 ← exec cfg St.init e1
  let s2 ← exec cfg s1 e2
  let s3 ← exec cfg s2 e3
  let s4 ← exec cfg s3 e4
  pure (s1, s2, s3, s4)

theorem looks_looks {cfg : Cfg} {e1 e2 e3 e4 : List Ev} {s1 s2 s3 s4 : St}
    (h : looks cfg e1 e2 e3 e4 = some (s1, s2, s3, s4)) : Looks cfg s1 s2 s3 s4 := by
  simp only [looks, Option.bind_eq_bind, Option.bind_eq_some_iff, Option.pure_def, Option.some.injEq, Prod.mk.injEq] at h
  obtain ⟨a, ha, b, hb, c, hc, d, hd, rfl, rfl, rfl, rfl⟩ := h
  exact ⟨exec_reach .init ha, exec_steps hb, exec_steps hc, exec_steps hd⟩

/-- What is known of an execution that is given. -/
theorem looks_witness {cfg : Cfg} {e1 e2 e3 e4 : List Ev} {p : St → St → St → St → Prop}
    [∀ s1 s2 s3 s4, Decidable (p s1 s2 s3 s4)]
    (h : (looks cfg e1 e2 e3 e4).any (fun s => decide (p s.1 s.2.1 s.2.2.1 s.2.2.2)) = true) :
    ∃ s1 s2 s3 s4, Looks cfg s1 s2 s3 s4 ∧ p s1 s2 s3 s4 := by
  cases hl : looks cfg e1 e2 e3 e4 with
  | none => rw [hl] at h; simp at h
  | some s =>
    obtain ⟨s1, s2, s3, s4⟩ := s
    rw [hl] at h
    exact ⟨s1, s2, s3, s4, looks_looks hl, by simpa using h⟩

/-- Task 7 gets a connection and gives it back. -/
def openClose : List Ev := openOne ++ .drop 0 :: runs 1 4 .ready

/-- The execution of `C49_underflow_violated`, until both calls have ended; then the handle of the other call is dropped. -/
def raceStoreEnd : List Ev := raceStore ++ runs 0 2 .ready ++ .drop 0 :: runs 2 4 .ready

/-- Task 7 has the only connection; task 8 is polled twice. -/
def waitTwice : List Ev := openOne ++ .poll 8 :: runs 1 6 .ready ++ .poll 8 :: runs 2 6 .ready

/-- C101 fails when a call is in progress: the idle connection is counted, then handed out, then counted again; a pool limited to
one connection, which never has more than one, reports two. -/
theorem C101_twice_violated : ∃ s1 s2 s3 s4, Looks cfg1 s1 s2 s3 s4 ∧ (connections s1).length = 1 ∧ (connections s2).length = 1 ∧
    (connections s3).length = 1 ∧ (connections s4).length = 1 ∧ info s1 s2 s3 s4 = ⟨0, 1, 0, 1⟩ :=
  looks_witness (e1 := openClose) (e2 := []) (e3 := []) (e4 := .poll 8 :: runs 2 3 .ready) (by decide +kernel)

/-- C101 fails when a call is in progress: a connection that exists all the time, in use and then idle, is not counted at all. -/
theorem C101_missed_violated : ∃ s1 s2 s3 s4, Looks cfg1 s1 s2 s3 s4 ∧ (connections s1).length = 1 ∧ (connections s2).length = 1 ∧
    (connections s3).length = 1 ∧ (connections s4).length = 1 ∧ info s1 s2 s3 s4 = ⟨0, 0, 0, 0⟩ :=
  looks_witness (e1 := openOne) (e2 := []) (e3 := []) (e4 := .drop 0 :: runs 1 4 .ready) (by decide +kernel)

/-- C101 fails after the panic of `C49_underflow_violated`, for ever: no call is in progress, nothing is in use, and the report
says that 18446744073709551615 connections are. -/
theorem C101_absurd_violated : ∃ s1 s2 s3 s4, Looks cfg1 s1 s2 s3 s4 ∧ Quiet s1 ∧ s4 = s1 ∧ inUse s4 = [] ∧
    (info s1 s2 s3 s4).ongoing = 18446744073709551615 := by
  obtain ⟨s, hs⟩ : ∃ s, exec cfg1 St.init raceStoreEnd = some s := Option.isSome_iff_exists.mp (by decide +kernel)
  have : (exec cfg1 St.init raceStoreEnd).map (fun s => (isQuiet s, inUse s, s.ongoing)) =
    some (true, [], 18446744073709551615) := by decide +kernel
  rw [hs] at this
  have this := Option.some.inj this
  simp only [Prod.mk.injEq] at this
  exact ⟨s, s, s, s, ⟨exec_reach .init hs, .refl s, .refl s, .refl s⟩, isQuiet_quiet this.1, rfl, this.2.1, this.2.2⟩

/-- C101 fails for the tasks: a task that is polled again while it waits is registered again; one task waits and the report says
two. -/
theorem C101_tasks_violated : ∃ s1 s2 s3 s4, Looks cfg1 s1 s2 s3 s4 ∧ s1.tasks = [8, 8] ∧ s3 = s1 ∧
    (info s1 s2 s3 s4).tasksLen = 2 := by
  obtain ⟨s, hs⟩ : ∃ s, exec cfg1 St.init waitTwice = some s := Option.isSome_iff_exists.mp (by decide +kernel)
  have : (exec cfg1 St.init waitTwice).map (fun s => s.tasks) = some [8, 8] := by decide +kernel
  rw [hs] at this
  have this : s.tasks = [8, 8] := Option.some.inj this
  exact ⟨s, s, s, s, ⟨exec_reach .init hs, .refl s, .refl s, .refl s⟩, this, rfl, by simp [info, this]⟩

end CH.Props
