import Verif.Spec.Connect
import Verif.Lemmas.Client

/-! Lemmas about opening a connection. -/

namespace CH
open Spec

/-- `b` is `a` after some polls, at least one. -/
def Later (a b : Attempt) : Prop := b.addr = a.addr ∧ b.error = a.error ∧
  (a.wait = none → b.wait = none) ∧ ∀ n, a.wait = some n → ∃ m, b.wait = some m ∧ m < n

/-- `b` is `a`, perhaps after some polls. -/
def Same (a b : Attempt) : Prop := a = b ∨ Later a b

theorem Later.trans {a b c : Attempt} (h1 : Later a b) (h2 : Later b c) : Later a c := by
  refine ⟨h2.1.trans h1.1, h2.2.1.trans h1.2.1, fun h => h2.2.2.1 (h1.2.2.1 h), ?_⟩
  intro n hn
  obtain ⟨m, hm, hlt⟩ := h1.2.2.2 n hn
  obtain ⟨k, hk, hlt'⟩ := h2.2.2.2 m hm
  exact ⟨k, hk, by omega⟩

theorem Same.addr {a b : Attempt} (h : Same a b) : b.addr = a.addr := by
  rcases h with rfl | h
  · rfl
  · exact h.1
theorem Same.error {a b : Attempt} (h : Same a b) : b.error = a.error := by
  rcases h with rfl | h
  · rfl
  · exact h.2.1
theorem Same.wait {a b : Attempt} (h : Same a b) : b.wait = none ↔ a.wait = none := by
  rcases h with rfl | h
  · rfl
  · constructor
    · intro hb
      cases ha : a.wait with
      | none => rfl
      | some n => obtain ⟨m, hm, _⟩ := h.2.2.2 n ha; rw [hb] at hm; cases hm
    · exact h.2.2.1
theorem Same.trans {a b c : Attempt} (h1 : Same a b) (h2 : Same b c) : Same a c := by
  rcases h1 with rfl | h1
  · exact h2
  · rcases h2 with rfl | h2
    · exact .inr h1
    · exact .inr (h1.trans h2)
theorem Same.later {a b c : Attempt} (h1 : Same a b) (h2 : Later b c) : Later a c := by
  rcases h1 with rfl | h1
  · exact h2
  · exact h1.trans h2

theorem tick_later {a : Attempt} (h : a.wait ≠ some 0) : Later a a.tick := by
  refine ⟨rfl, rfl, ?_, ?_⟩
  · intro hn; simp [Attempt.tick, hn]
  · intro n hn
    refine ⟨n - 1, by simp [Attempt.tick, hn], ?_⟩
    cases n with
    | zero => exact (h hn).elim
    | succ n => simp

/-- No attempt is ready: all of them are still there, one poll later. -/
theorem sweep_none {l l' : List Attempt} (h : sweep l = (none, l')) :
    (∀ a ∈ l, ∃ b ∈ l', Later a b) ∧ (∀ b ∈ l', ∃ a ∈ l, Later a b) := by
  induction l generalizing l' with
  | nil => simp [sweep] at h; subst h; simp
  | cons x xs ih =>
    rw [sweep] at h
    split at h
    · simp at h
    · rename_i hx
      simp only [Prod.mk.injEq] at h
      obtain ⟨h1, rfl⟩ := h
      obtain ⟨i1, i2⟩ := ih (l' := (sweep xs).2) (by rw [← h1])
      constructor
      · intro a ha
        rcases List.mem_cons.mp ha with rfl | ha
        · exact ⟨_, by simp, tick_later hx⟩
        · obtain ⟨b, hb, hl⟩ := i1 a ha; exact ⟨b, by simp [hb], hl⟩
      · intro b hb
        rcases List.mem_cons.mp hb with rfl | hb
        · exact ⟨x, by simp, tick_later hx⟩
        · obtain ⟨a, ha, hl⟩ := i2 b hb; exact ⟨a, by simp [ha], hl⟩

/-- Some attempt is ready: it is one of those polled, and the others are still there. -/
theorem sweep_some {l l' : List Attempt} {r : Attempt} (h : sweep l = (some r, l')) :
    r ∈ l ∧ r.wait = some 0 ∧ (∀ a ∈ l, a = r ∨ ∃ b ∈ l', Same a b) ∧ (∀ b ∈ l', ∃ a ∈ l, Same a b) := by
  induction l generalizing l' with
  | nil => simp [sweep] at h
  | cons x xs ih =>
    rw [sweep] at h
    split at h
    · rename_i hx
      simp only [Prod.mk.injEq, Option.some.injEq] at h
      obtain ⟨rfl, rfl⟩ := h
      refine ⟨by simp, hx, ?_, fun b hb => ⟨b, by simp [hb], .inl rfl⟩⟩
      intro a ha
      rcases List.mem_cons.mp ha with rfl | ha
      · exact .inl rfl
      · exact .inr ⟨a, ha, .inl rfl⟩
    · rename_i hx
      simp only [Prod.mk.injEq] at h
      obtain ⟨h1, rfl⟩ := h
      obtain ⟨j1, j2, i1, i2⟩ := ih (l' := (sweep xs).2) (by rw [← h1])
      refine ⟨by simp [j1], j2, ?_, ?_⟩
      · intro a ha
        rcases List.mem_cons.mp ha with rfl | ha
        · exact .inr ⟨_, by simp, .inr (tick_later hx)⟩
        · rcases i1 a ha with rfl | ⟨b, hb, hl⟩
          · exact .inl rfl
          · exact .inr ⟨b, by simp [hb], hl⟩
      · intro b hb
        rcases List.mem_cons.mp hb with rfl | hb
        · exact ⟨x, by simp, .inr (tick_later hx)⟩
        · obtain ⟨a, ha, hl⟩ := i2 b hb; exact ⟨a, by simp [ha], hl⟩

theorem selectPoll_eq (l : List Attempt) : selectPoll l =
    match (sweep l).1 with
    | none => (.pending, (sweep l).2)
    | some a =>
      match a.error with
      | none => (.ready (.ok a.addr), [])
      | some e => if (sweep l).2.isEmpty then (.ready (.error (.io e)), []) else selectPoll (sweep l).2 := by
  rw [selectPoll]
  split <;> rename_i h <;> rw [h] <;> rfl

/-- What one poll of the race gives. -/
theorem selectPoll_cases (l : List Attempt) :
    (∃ l', selectPoll l = (.pending, l') ∧ (∀ a ∈ l, a.error = none → ∃ b ∈ l', Later a b) ∧
      (∀ a ∈ l, (∃ b ∈ l', Later a b) ∨ ∃ e, Refuses a e) ∧ (∀ b ∈ l', ∃ a ∈ l, Later a b) ∧ (l ≠ [] → l' ≠ [])) ∨
    (∃ a ∈ l, Reachable a ∧ selectPoll l = (.ready (.ok a.addr), [])) ∨
    (∃ a ∈ l, ∃ e, Refuses a e ∧ (∀ b ∈ l, ∃ e, Refuses b e) ∧ selectPoll l = (.ready (.error (.io e)), [])) := by
  generalize hn : l.length = n
  induction n using Nat.strongRecOn generalizing l with
  | ind n ih =>
    rw [selectPoll_eq]
    cases hs : sweep l with
    | mk r l' =>
      cases r with
      | none =>
        obtain ⟨h1, h2⟩ := sweep_none hs
        refine .inl ⟨l', rfl, fun a ha _ => h1 a ha, fun a ha => .inl (h1 a ha), h2, ?_⟩
        rintro hne rfl
        cases l with
        | nil => exact hne rfl
        | cons x xs => obtain ⟨b, hb, _⟩ := h1 x (by simp); cases hb
      | some r =>
        obtain ⟨hr, hw, h1, h2⟩ := sweep_some hs
        cases he : r.error with
        | none =>
          refine .inr (.inl ⟨r, hr, ⟨by simp [hw], he⟩, ?_⟩)
          simp [he]
        | some e =>
          have hrr : Refuses r e := ⟨by simp [hw], he⟩
          simp only [he]
          by_cases hl : l'.isEmpty = true
          · rw [if_pos hl]
            have : l' = [] := by simpa using hl
            subst this
            refine .inr (.inr ⟨r, hr, e, hrr, ?_, rfl⟩)
            intro b hb
            rcases h1 b hb with rfl | ⟨c, hc, _⟩
            · exact ⟨e, hrr⟩
            · cases hc
          · rw [if_neg hl]
            rcases ih l'.length (by rw [← hn]; exact sweep_length hs) l' rfl with
              ⟨l2, hp, g1, g2, g3, g4⟩ | ⟨a, ha, hre, hp⟩ | ⟨a, ha, e', hre, hall, hp⟩
            · refine .inl ⟨l2, hp, ?_, ?_, ?_, ?_⟩
              · intro a ha hae
                rcases h1 a ha with rfl | ⟨b, hb, hab⟩
                · rw [he] at hae; cases hae
                · obtain ⟨c, hc, hbc⟩ := g1 b hb (by rw [hab.error]; exact hae)
                  exact ⟨c, hc, hab.later hbc⟩
              · intro a ha
                rcases h1 a ha with rfl | ⟨b, hb, hab⟩
                · exact .inr ⟨e, hrr⟩
                · rcases g2 b hb with ⟨c, hc, hbc⟩ | ⟨e2, hw2, he2⟩
                  · exact .inl ⟨c, hc, hab.later hbc⟩
                  · exact .inr ⟨e2, fun h => hw2 (hab.wait.mpr h), by rw [← hab.error]; exact he2⟩
              · intro c hc
                obtain ⟨b, hb, hbc⟩ := g3 c hc
                obtain ⟨a, ha, hab⟩ := h2 b hb
                exact ⟨a, ha, hab.later hbc⟩
              · intro _
                exact g4 (by intro h; subst h; exact hl rfl)
            · obtain ⟨b, hb, hba⟩ := h2 a ha
              refine .inr (.inl ⟨b, hb, ⟨fun h => hre.1 (hba.wait.mpr h), by rw [← hba.error]; exact hre.2⟩, ?_⟩)
              rw [hp, hba.addr]
            · obtain ⟨b, hb, hba⟩ := h2 a ha
              refine .inr (.inr ⟨b, hb, e', ⟨fun h => hre.1 (hba.wait.mpr h), by rw [← hba.error]; exact hre.2⟩, ?_, hp⟩)
              intro c hc
              rcases h1 c hc with rfl | ⟨d, hd, hcd⟩
              · exact ⟨e, hrr⟩
              · obtain ⟨e3, hw3, he3⟩ := hall d hd
                exact ⟨e3, fun h => hw3 (hcd.wait.mpr h), by rw [← hcd.error]; exact he3⟩

/-- Awaiting the race: pending, the address of a reachable one, or, if all fail, one of the failures; and it is decided in time if an
address can be reached. -/
theorem await_tcp (env : TlsEnv) : ∀ (n : Nat) (l : List Attempt), l ≠ [] →
    ((CState.tcpWait l).await env n = .pending ∧ (∀ a ∈ l, a.error = none → ∀ k, a.wait = some k → n ≤ k)) ∨
    (∃ a ∈ l, Reachable a ∧ (CState.tcpWait l).await env n = .ready (.ok (.plain a.addr))) ∨
    (∃ a ∈ l, ∃ e, Refuses a e ∧ (∀ b ∈ l, ∃ e, Refuses b e) ∧ (CState.tcpWait l).await env n = .ready (.error (.io e))) := by
  intro n
  induction n with
  | zero => intro l _; exact .inl ⟨rfl, fun _ _ _ _ _ => Nat.zero_le _⟩
  | succ n ih =>
    intro l hl
    rw [CState.await, CState.poll]
    rcases selectPoll_cases l with ⟨l', hp, g1, g2, g3, g4⟩ | ⟨a, ha, hre, hp⟩ | ⟨a, ha, e, hre, hall, hp⟩
    · rw [hp]
      dsimp only
      rcases ih l' (g4 hl) with ⟨h1, h2⟩ | ⟨b, hb, hre, h⟩ | ⟨b, hb, e, hre, hall, h⟩
      · refine .inl ⟨h1, ?_⟩
        intro a ha hae k hk
        obtain ⟨b, hb, hab⟩ := g1 a ha hae
        obtain ⟨m, hm, hlt⟩ := hab.2.2.2 k hk
        have := h2 b hb (by rw [hab.2.1]; exact hae) m hm
        omega
      · obtain ⟨a, ha, hab⟩ := g3 b hb
        refine .inr (.inl ⟨a, ha, ⟨fun h => hre.1 ((Same.wait (.inr hab)).mpr h), by rw [← hab.2.1]; exact hre.2⟩, ?_⟩)
        rw [h, hab.1]
      · obtain ⟨a, ha, hab⟩ := g3 b hb
        refine .inr (.inr ⟨a, ha, e, ⟨fun h => hre.1 ((Same.wait (.inr hab)).mpr h), by rw [← hab.2.1]; exact hre.2⟩, ?_, h⟩)
        intro c hc
        rcases g2 c hc with ⟨d, hd, hcd⟩ | hcf
        · obtain ⟨e3, hw3, he3⟩ := hall d hd
          exact ⟨e3, fun h => hw3 ((Same.wait (.inr hcd)).mpr h), by rw [← hcd.2.1]; exact he3⟩
        · exact hcf
    · exact .inr (.inl ⟨a, ha, hre, by rw [hp]⟩)
    · exact .inr (.inr ⟨a, ha, e, hre, hall, by rw [hp]⟩)

theorem await_shaking (env : TlsEnv) (s : Nat) : ∀ (n : Nat) (w : Option Nat),
    (CState.tlsWait (.shaking s w)).await env n = .pending ∨
    ((env.handshake s).2 = none ∧ (CState.tlsWait (.shaking s w)).await env n = .ready (.ok (.secure s))) ∨
    (∃ e, (env.handshake s).2 = some e ∧ (CState.tlsWait (.shaking s w)).await env n = .ready (.error (.tls e))) := by
  intro n
  induction n with
  | zero => intro w; exact .inl rfl
  | succ n ih =>
    intro w
    rw [CState.await, CState.poll, TlsFut.poll, pollHandshake]
    by_cases hw : w = some 0
    · rw [if_pos hw]
      cases he : (env.handshake s).2 with
      | none => exact .inr (.inl ⟨rfl, rfl⟩)
      | some e => exact .inr (.inr ⟨e, rfl, rfl⟩)
    · rw [if_neg hw]
      exact ih _

/-- Awaiting the encrypted connection. -/
theorem await_tls (env : TlsEnv) : ∀ (n : Nat) (l : List Attempt), l ≠ [] →
    (CState.tlsWait (.connecting l)).await env n = .pending ∨
    (∃ a ∈ l, Reachable a ∧ env.build = none ∧ (env.handshake a.addr).2 = none ∧
      (CState.tlsWait (.connecting l)).await env n = .ready (.ok (.secure a.addr))) ∨
    (∃ e, (CState.tlsWait (.connecting l)).await env n = .ready (.error e)) := by
  intro n
  induction n with
  | zero => intro l _; exact .inl rfl
  | succ n ih =>
    intro l hl
    rw [CState.await, CState.poll, TlsFut.poll]
    rcases selectPoll_cases l with ⟨l', hp, g1, g2, g3, g4⟩ | ⟨a, ha, hre, hp⟩ | ⟨a, ha, e, hre, hall, hp⟩
    · rw [hp]
      dsimp only
      rcases ih l' (g4 hl) with h | ⟨b, hb, hre, hbd, hh, h⟩ | ⟨e, h⟩
      · exact .inl h
      · obtain ⟨a, ha, hab⟩ := g3 b hb
        exact .inr (.inl ⟨a, ha, ⟨fun h => hre.1 ((Same.wait (.inr hab)).mpr h), by rw [← hab.2.1]; exact hre.2⟩, hbd,
          by rw [← hab.1]; exact hh, by rw [← hab.1]; exact h⟩)
      · exact .inr (.inr ⟨e, h⟩)
    · rw [hp]
      dsimp only
      cases hb : env.build with
      | some e => exact .inr (.inr ⟨_, rfl⟩)
      | none =>
        dsimp only
        rw [pollHandshake]
        by_cases hw : (env.handshake a.addr).1 = some 0
        · rw [if_pos hw]
          cases he : (env.handshake a.addr).2 with
          | none => exact .inr (.inl ⟨a, ha, hre, rfl, he, rfl⟩)
          | some e => exact .inr (.inr ⟨_, rfl⟩)
        · rw [if_neg hw]
          rcases await_shaking env a.addr n ((env.handshake a.addr).1.map (· - 1)) with h | ⟨h1, h⟩ | ⟨e, _, h⟩
          · exact .inl h
          · exact .inr (.inl ⟨a, ha, hre, rfl, h1, h⟩)
          · exact .inr (.inr ⟨_, h⟩)
    · rw [hp]; exact .inr (.inr ⟨_, rfl⟩)

end CH
