import Verif.Lemmas.Connect
import Verif.Props.Options

/-! Property C69: opening a connection. -/

namespace CH.Props
open CH CH.Spec

/-- C69. Without encryption, an unreachable address does no harm: when one of the addresses of the host can be reached (its attempt
succeeds on poll `k + 1`) a connection to a reachable one is there by then, whatever the other attempts do. -/
theorem C69_reaches (tls : Bool) (t : TlsOptions) (ht : (tls && t.secure) = false) (host : Option String) (l : List Attempt)
    (env : TlsEnv) (a : Attempt) (ha : a ∈ l) (k : Nat) (hw : a.wait = some k) (he : a.error = none) (n : Nat) (hn : k < n) :
    ∃ b ∈ l, Reachable b ∧ (CState.new tls t host (.ok l)).await env n = .ready (.ok (.plain b.addr)) := by
  have hl : l ≠ [] := by rintro rfl; cases ha
  have e : CState.new tls t host (.ok l) = .tcpWait l := by
    cases l with
    | nil => exact (hl rfl).elim
    | cons x xs => simp [CState.new, ht]
  rw [e]
  rcases await_tcp env n l hl with ⟨_, h⟩ | h | ⟨_, _, _, _, hall, _⟩
  · have := h a ha he k hw; omega
  · exact h
  · obtain ⟨e', _, h⟩ := hall a ha
    rw [he] at h; cases h

/-- One address refuses, one never answers, one answers late. -/
def exAttempts : List Attempt := [⟨1, some 0, some "refused"⟩, ⟨2, none, none⟩, ⟨3, some 5, none⟩]

example : ∃ b ∈ exAttempts, Reachable b ∧
    (CState.new false {} none (.ok exAttempts)).await ⟨none, fun _ => (none, none)⟩ 6 = .ready (.ok (.plain b.addr)) :=
  C69_reaches false {} rfl none exAttempts _ ⟨3, some 5, none⟩ (by decide) 5 rfl rfl 6 (by decide)

/-- C69. Without encryption, connecting fails only if every address has refused (then with one of the refusals), or if there is
no address at all. -/
theorem C69_fails_only_if_all_refuse (tls : Bool) (t : TlsOptions) (ht : (tls && t.secure) = false) (host : Option String)
    (r : Except String (List Attempt)) (env : TlsEnv) (n : Nat) (e : ConnErr)
    (h : (CState.new tls t host r).await env n = .ready (.error e)) :
    (∃ m, r = .error m ∧ e = .io m) ∨ (r = .ok [] ∧ e = .io "Could not resolve to any address.") ∨
    ∃ l, r = .ok l ∧ (∀ b ∈ l, ∃ m, Refuses b m) ∧ ∃ a ∈ l, ∃ m, Refuses a m ∧ e = .io m := by
  cases r with
  | error m =>
    left
    refine ⟨m, rfl, ?_⟩
    cases n with
    | zero => cases h
    | succ n => simp only [CState.new, CState.await, CState.poll, Polled.ready.injEq, Except.error.injEq] at h; exact h.symm
  | ok l =>
    cases l with
    | nil =>
      right; left
      refine ⟨rfl, ?_⟩
      cases n with
      | zero => cases h
      | succ n =>
        simp only [CState.new, List.isEmpty_nil, if_true, CState.await, CState.poll, Polled.ready.injEq, Except.error.injEq] at h
        exact h.symm
    | cons x xs =>
      right; right
      refine ⟨_, rfl, ?_⟩
      have e' : CState.new tls t host (.ok (x :: xs)) = .tcpWait (x :: xs) := by simp [CState.new, ht]
      rw [e'] at h
      rcases await_tcp env n (x :: xs) (by simp) with ⟨h', _⟩ | ⟨_, _, _, h'⟩ | ⟨a, ha, m, hr, hall, h'⟩
      · rw [h] at h'; cases h'
      · rw [h] at h'; cases h'
      · rw [h] at h'
        cases h'
        exact ⟨hall, a, ha, m, hr, rfl⟩

example : (CState.new false {} none (.ok [⟨1, some 1, some "refused"⟩, ⟨2, some 0, some "unreachable"⟩])).await
    ⟨none, fun _ => (none, none)⟩ 3 = .ready (.error (.io "refused")) := by
  simp only [CState.new, CState.await, CState.poll, List.isEmpty_cons, Bool.false_and, Bool.false_eq_true, if_false]
  rw [selectPoll_eq]; simp [sweep, Attempt.tick]
  rw [selectPoll_eq]; simp [sweep]

/-- C69. Awaiting a connection never panics. -/
theorem C69_connecting_no_panic (tls : Bool) (t : TlsOptions) (host : Option String) (r : Except String (List Attempt))
    (env : TlsEnv) (n : Nat) : (CState.new tls t host r).await env n ≠ .panic := by
  cases r with
  | error m => cases n <;> simp [CState.new, CState.await, CState.poll]
  | ok l =>
    cases l with
    | nil => cases n <;> simp [CState.new, CState.await, CState.poll]
    | cons x xs =>
      cases hs : tls && t.secure with
      | false =>
        have e' : CState.new tls t host (.ok (x :: xs)) = .tcpWait (x :: xs) := by simp [CState.new, hs]
        rw [e']
        rcases await_tcp env n (x :: xs) (by simp) with ⟨h', _⟩ | ⟨_, _, _, h'⟩ | ⟨a, ha, m, hr, hall, h'⟩ <;> rw [h'] <;> simp
      | true =>
        cases host with
        | none =>
          have e' : CState.new tls t none (.ok (x :: xs)) = .tlsFail (some .tlsHostNotProvided) := by simp [CState.new, hs]
          rw [e']
          cases n <;> simp [CState.await, CState.poll]
        | some hst =>
          have e' : CState.new tls t (some hst) (.ok (x :: xs)) = .tlsWait (.connecting (x :: xs)) := by simp [CState.new, hs]
          rw [e']
          rcases await_tls env n (x :: xs) (by simp) with h' | ⟨_, _, _, _, _, h'⟩ | ⟨_, h'⟩ <;> rw [h'] <;> simp

/-- What a connection obtained is connected to. -/
theorem await_ok {tls : Bool} {t : TlsOptions} {host : Option String} {r : Except String (List Attempt)} {env : TlsEnv} {n : Nat}
    {s : Stream} (h : (CState.new tls t host r).await env n = .ready (.ok s)) :
    ∃ l, r = .ok l ∧ ∃ a ∈ l, Reachable a ∧
      s = (if tls && t.secure then .secure a.addr else .plain a.addr) ∧
      ((tls && t.secure) = true → env.build = none ∧ (env.handshake a.addr).2 = none) := by
  cases r with
  | error m => cases n <;> simp [CState.new, CState.await, CState.poll] at h
  | ok l =>
    cases l with
    | nil => cases n <;> simp [CState.new, CState.await, CState.poll] at h
    | cons x xs =>
      refine ⟨_, rfl, ?_⟩
      cases hs : tls && t.secure with
      | false =>
        have e' : CState.new tls t host (.ok (x :: xs)) = .tcpWait (x :: xs) := by simp [CState.new, hs]
        rw [e'] at h
        rcases await_tcp env n (x :: xs) (by simp) with ⟨h', _⟩ | ⟨a, ha, hr, h'⟩ | ⟨a, ha, m, hr, hall, h'⟩
        · rw [h] at h'; cases h'
        · rw [h] at h'; cases h'
          exact ⟨a, ha, hr, rfl, by simp⟩
        · rw [h] at h'; cases h'
      | true =>
        cases host with
        | none =>
          have e' : CState.new tls t none (.ok (x :: xs)) = .tlsFail (some .tlsHostNotProvided) := by simp [CState.new, hs]
          rw [e'] at h
          cases n <;> simp [CState.await, CState.poll] at h
        | some hst =>
          have e' : CState.new tls t (some hst) (.ok (x :: xs)) = .tlsWait (.connecting (x :: xs)) := by simp [CState.new, hs]
          rw [e'] at h
          rcases await_tls env n (x :: xs) (by simp) with h' | ⟨a, ha, hr, hb, hh, h'⟩ | ⟨_, h'⟩
          · rw [h] at h'; cases h'
          · rw [h] at h'; cases h'
            exact ⟨a, ha, hr, rfl, fun _ => ⟨hb, hh⟩⟩
          · rw [h] at h'; cases h'

/-- The handshake of the protocol succeeds only on the server's greeting. -/
theorem hello_ok {server : List Cmd → List Inc} {ctx : Context} {b : Binding} {h : Handle}
    (hh : (Handle.mk (some ⟨[], server, false, []⟩) ctx b).hello = (.ok (), h)) :
    ∃ i rest, Greets server ctx i rest ∧
      h = ⟨some ⟨rest, server, false, [.hello ctx]⟩, { ctx with revision := i.revision }, b⟩ := by
  unfold Handle.hello at hh
  simp only [Conn.call, List.nil_append] at hh
  cases hs : server [.hello ctx] with
  | nil => rw [loop_waits (next_nil (by simp [hs]))] at hh; simp at hh
  | cons x rest =>
    cases x with
    | closed => rw [loop_ended (next_closed (by simp [hs]; rfl))] at hh; simp at hh
    | error e => rw [loop_error (next_err (by simp [hs]; exact ⟨rfl, rfl⟩))] at hh; simp [helloBody] at hh
    | packet p =>
      cases ht : p.takesConn with
      | false =>
        rw [loop_item (next_packet (p := p) (rest := rest) (by simp [hs]) ht)] at hh
        cases p <;> simp [helloBody, Packet.takesConn] at hh ht
      | true =>
        rw [loop_item (next_taken (p := p) (rest := rest) (by simp [hs]) ht)] at hh
        cases p with
        | hello i =>
          simp only [helloBody] at hh
          rw [loop_ended next_none] at hh
          simp only [Prod.mk.injEq, true_and] at hh
          exact ⟨i, rest, hs, by rw [← hh]⟩
        | _ => simp [helloBody, Packet.takesConn] at hh ht

/-- C69. A handle is given only for a connection to one of the addresses of the host that can be reached, on which nothing but the
client's greeting has been sent and which the server has answered with its own; the handle remembers the revision the server
announced, and is not yet attached to the pool. -/
theorem C69_open (tls : Bool) (t : TlsOptions) (addr : Addr) (ctx : Context) (pooled : Bool) (env : OpenEnv) (s : Stream) (h : Handle)
    (ho : Client.open tls t addr ctx pooled env = .ok (s, h)) :
    ∃ l, env.resolve addr = .ok l ∧ ∃ a ∈ l, Reachable a ∧ s.socket = a.addr ∧ ∃ i rest, Greets (env.server a.addr) ctx i rest ∧
      h = ⟨some ⟨rest, env.server a.addr, false, [.hello ctx]⟩, { ctx with revision := i.revision },
        if pooled then .detached else .none⟩ := by
  unfold Client.open at ho
  split at ho <;> try (simp at ho; done)
  rename_i st hst
  obtain ⟨l, hl, a, ha, hr, hs, _⟩ := await_ok hst
  have hsock : st.socket = a.addr := by rw [hs]; split <;> rfl
  split at ho
  · simp at ho
  · split at ho <;> try (simp at ho; done)
    rename_i h' hh
    simp only [OpRes.ok.injEq, Prod.mk.injEq] at ho
    obtain ⟨rfl, rfl⟩ := ho
    rw [hsock] at hh
    exact ⟨l, hl, a, ha, hr, hsock, hello_ok hh⟩

/-- **C69** When the options of the socket cannot be set, opening fails with that input/output error, and not with a timeout, as
soon as one of the addresses answers in time. -/
theorem C69_options_failure (tls : Bool) (t : TlsOptions) (ht : (tls && t.secure) = false) (addr : Addr) (ctx : Context) (pooled : Bool)
    (env : OpenEnv) (hn : ∀ a, env.nodelay a ≠ none) (l : List Attempt) (hl : env.resolve addr = .ok l) (a : Attempt) (ha : a ∈ l)
    (k : Nat) (hw : a.wait = some k) (he : a.error = none) (hk : k < env.polls) :
    Client.open tls t addr ctx pooled env = .err .io := by
  obtain ⟨b, _, _, h⟩ := C69_reaches tls t ht (some addr.host) l env.tls a ha k hw he env.polls hk
  unfold Client.open
  rw [hl, h]
  cases hd : env.nodelay b.addr with
  | none => exact absurd hd (hn _)
  | some m => simp only [Stream.socket, hd]

example : Client.open false {} ⟨"ch", some 9000⟩ ⟨0, "h", Options.default⟩ true
    ⟨fun _ => .ok [⟨1, some 5, some "refused"⟩, ⟨2, some 3, none⟩], ⟨none, fun _ => (none, none)⟩, fun _ => some "denied", fun _ _ => [], 4⟩ = .err .io :=
  C69_options_failure _ _ rfl _ _ _ _ (fun _ => by simp) _ rfl ⟨2, some 3, none⟩ (by simp) 3 rfl rfl (by decide)

/-- C69. In a build with TLS, a connection opened with `secure` is encrypted, and its TLS handshake has succeeded; nothing is ever
sent over a plain one. -/
theorem C69_secure_is_encrypted (t : TlsOptions) (ht : t.secure = true) (addr : Addr) (ctx : Context) (pooled : Bool)
    (env : OpenEnv) (s : Stream) (h : Handle) (ho : Client.open true t addr ctx pooled env = .ok (s, h)) :
    ∃ a, s = .secure a ∧ env.tls.build = none ∧ (env.tls.handshake a).2 = none := by
  unfold Client.open at ho
  split at ho <;> try (simp at ho; done)
  rename_i st hst
  obtain ⟨l, hl, a, ha, hr, hs, h2⟩ := await_ok hst
  rw [ht] at hs h2
  split at ho
  · simp at ho
  · split at ho <;> try (simp at ho; done)
    simp only [OpRes.ok.injEq, Prod.mk.injEq] at ho
    obtain ⟨rfl, rfl⟩ := ho
    exact ⟨a.addr, hs, (h2 rfl).1, (h2 rfl).2⟩

/-- A server that greets. -/
def exGreeting : ServerInfo := ⟨"ClickHouse", 23, 1, 54460, "UTC".toList, "ch", 1⟩
/-- Two addresses, the first of which refuses; every server greets. -/
def exOpenEnv : OpenEnv where
  resolve _ := .ok [⟨1, some 0, some "refused"⟩, ⟨2, some 1, none⟩]
  tls := ⟨none, fun _ => (some 1, none)⟩
  nodelay _ := none
  server _ cmds := match cmds with
    | [.hello _] => [.packet (.hello exGreeting)]
    | _ => []
  polls := 10

/-- How a connection is opened. -/
theorem open_of {tls : Bool} {t : TlsOptions} {addr : Addr} {ctx : Context} {pooled : Bool} {env : OpenEnv} {s : Stream} {h : Handle}
    (ha : (CState.new tls t (some addr.host) (env.resolve addr)).await env.tls env.polls = .ready (.ok s))
    (hn : env.nodelay s.socket = none)
    (hh : (Handle.mk (some ⟨[], env.server s.socket, false, []⟩) ctx (if pooled then .detached else .none)).hello = (.ok (), h)) :
    Client.open tls t addr ctx pooled env = .ok (s, h) := by
  unfold Client.open
  rw [ha]
  simp only [hn, hh]

theorem exHello (a : Nat) (b : Binding) : (Handle.mk (some ⟨[], exOpenEnv.server a, false, []⟩) ⟨0, "h", Options.default⟩ b).hello =
    (.ok (), ⟨some ⟨[], exOpenEnv.server a, false, [.hello ⟨0, "h", Options.default⟩]⟩, ⟨54460, "h", Options.default⟩, b⟩) := by
  unfold Handle.hello
  simp only [Conn.call, List.nil_append]
  rw [loop_item (next_taken (p := .hello exGreeting) (rest := []) rfl rfl)]
  simp only [helloBody]
  rw [loop_ended next_none]
  rfl

theorem exPoll1 : selectPoll [⟨1, some 0, some "refused"⟩, ⟨2, some 1, none⟩] = (.pending, [⟨2, some 0, none⟩]) := by
  rw [selectPoll_eq]; simp [sweep]
  rw [selectPoll_eq]; simp [sweep, Attempt.tick]
theorem exPoll2 : selectPoll [⟨2, some 0, none⟩] = (.ready (.ok 2), []) := by rw [selectPoll_eq]; simp [sweep]

/-- The sample is opened without TLS. -/
theorem exOpenPlain (t : TlsOptions) : ∃ h, Client.open false t ⟨"ch", some 9000⟩ ⟨0, "h", Options.default⟩ true exOpenEnv =
    .ok (.plain 2, h) := by
  refine ⟨_, open_of ?_ rfl (exHello 2 .detached)⟩
  show CState.await _ (8 + 1 + 1) (.tcpWait [⟨1, some 0, some "refused"⟩, ⟨2, some 1, none⟩]) = _
  simp only [CState.await, CState.poll, exPoll1, exPoll2]

/-- The sample is opened with TLS. -/
theorem exOpenSecure : ∃ h, Client.open true ⟨true, false⟩ ⟨"ch", some 9000⟩ ⟨0, "h", Options.default⟩ true exOpenEnv =
    .ok (.secure 2, h) := by
  refine ⟨_, open_of ?_ rfl (exHello 2 .detached)⟩
  show CState.await _ (7 + 1 + 1 + 1) (.tlsWait (.connecting [⟨1, some 0, some "refused"⟩, ⟨2, some 1, none⟩])) = _
  simp only [CState.await, CState.poll, TlsFut.poll, exPoll1, exPoll2]
  rfl

example : ∃ s h, Client.open true ⟨true, false⟩ ⟨"ch", some 9000⟩ ⟨0, "h", Options.default⟩ true exOpenEnv = .ok (s, h) :=
  let ⟨h, e⟩ := exOpenSecure
  ⟨_, h, e⟩

/-- C69 is violated for encrypted connections: an address on which only the TLS handshake fails ends the attempt, though another address
would have given a connection. -/
theorem C69_tls_no_fallback_violated : ∃ (l : List Attempt) (env : TlsEnv), env.build = none ∧
    (∃ a ∈ l, Reachable a ∧ (env.handshake a.addr) = (some 0, none)) ∧
    ∀ n, 0 < n → (CState.new true ⟨true, false⟩ (some "ch") (.ok l)).await env n = .ready (.error (.tls "bad certificate")) := by
  refine ⟨[⟨1, some 0, none⟩, ⟨2, some 0, none⟩], ⟨none, fun a => (some 0, if a = 1 then some "bad certificate" else none)⟩, rfl,
    ⟨⟨2, some 0, none⟩, by simp, ⟨by simp, rfl⟩, rfl⟩, ?_⟩
  intro n hn
  cases n with
  | zero => omega
  | succ n =>
    have p : selectPoll [⟨1, some 0, none⟩, ⟨2, some 0, none⟩] = (.ready (.ok 1), []) := by rw [selectPoll_eq]; simp [sweep]
    show CState.await _ (n + 1) (.tlsWait (.connecting _)) = _
    simp only [CState.await, CState.poll, TlsFut.poll, p]
    rfl

/-! ### The URL -/

/-- Without the feature nothing changes: `secure` and `skip_verify` are settings like any other. -/
theorem setParamsTls_off (lib : UrlLib) (t : TlsOptions) (ps : List (String × String)) : ∀ o,
    setParamsTls false lib (o, t) ps = (setParams lib o ps).map fun o' => (o', t) := by
  induction ps with
  | nil => intro o; rfl
  | cons p ps ih =>
    intro o
    obtain ⟨k, v⟩ := p
    rw [setParamsTls, setParams]
    simp only [setParamTls, Bool.false_and, Bool.false_eq_true, if_false]
    cases setParam lib o k v with
    | error e => rfl
    | ok o' => exact ih o'

/-- C69. In a build with TLS, the last `secure` of the URL decides whether the connection is encrypted, `true` or `false` and nothing
else being taken, likewise `skip_verify`; the other parameters mean what they mean without these. -/
theorem C69_secure_param (lib : UrlLib) (ps : List (String × String)) : ∀ (o o' : Options) (t t' : TlsOptions),
    setParamsTls true lib (o, t) ps = .ok (o', t') →
    (∀ v, lastOf "secure" ps = some v → IsBool (decodeLossy lib v).toList t'.secure) ∧
    (lastOf "secure" ps = none → t'.secure = t.secure) ∧
    (∀ v, lastOf "skip_verify" ps = some v → IsBool (decodeLossy lib v).toList t'.skipVerify) ∧
    (lastOf "skip_verify" ps = none → t'.skipVerify = t.skipVerify) ∧
    setParams lib o (ps.filter fun p => p.1 ≠ "secure" ∧ p.1 ≠ "skip_verify") = .ok o' := by
  have hbool : ∀ s b, parseBool s = some b → IsBool s b := by
    intro s b h
    unfold parseBool at h
    split at h
    · rename_i hs; simp at h; subst h; exact .inl ⟨hs, rfl⟩
    · split at h
      · rename_i hs; simp at h; subst h; exact .inr ⟨hs, rfl⟩
      · simp at h
  have hpar : ∀ key v (f : Bool → Options × TlsOptions) r, (parseParam lib key v parseBool).map f = .ok r →
      ∃ b, IsBool (decodeLossy lib v).toList b ∧ r = f b := by
    intro key v f r h
    unfold parseParam at h
    cases hb : parseBool (decodeLossy lib v).toList with
    | none => rw [hb] at h; cases h
    | some b => rw [hb] at h; cases h; exact ⟨b, hbool _ _ hb, rfl⟩
  induction ps with
  | nil =>
    intro o o' t t' h
    simp only [setParamsTls, Except.ok.injEq, Prod.mk.injEq] at h
    obtain ⟨rfl, rfl⟩ := h
    exact ⟨fun v h => (Option.some_ne_none _ h.symm).elim, fun _ => rfl, fun v h => (Option.some_ne_none _ h.symm).elim, fun _ => rfl, rfl⟩
  | cons p ps ih =>
    intro o o' t t' h
    obtain ⟨k, v⟩ := p
    rw [setParamsTls] at h
    rw [lastOf_cons, lastOf_cons]
    by_cases h1 : k = "secure"
    · subst h1
      cases hr : setParamTls true lib (o, t) "secure" v with
      | error e => rw [hr] at h; cases h
      | ok r =>
        rw [hr] at h
        obtain ⟨b, hb, rfl⟩ := hpar _ _ _ _ hr
        obtain ⟨i1, i2, i3, i4, i5⟩ := ih _ _ _ _ h
        refine ⟨?_, ?_, ?_, ?_, ?_⟩
        · intro w hw
          cases hl : lastOf "secure" ps with
          | none =>
            rw [hl] at hw
            simp only [if_true, Option.none_or, Option.some.injEq] at hw
            subst hw
            rw [i2 hl]; exact hb
          | some x => rw [hl] at hw; simp only [Option.some_or, Option.some.injEq] at hw; subst hw; exact i1 x hl
        · intro hw; simp at hw
        · intro w hw
          exact i3 w (by simpa using hw)
        · intro hw
          exact i4 (by simpa using hw)
        · simpa using i5
    · by_cases h2 : k = "skip_verify"
      · subst h2
        cases hr : setParamTls true lib (o, t) "skip_verify" v with
        | error e => rw [hr] at h; cases h
        | ok r =>
          rw [hr] at h
          obtain ⟨b, hb, rfl⟩ := hpar _ _ _ _ hr
          obtain ⟨i1, i2, i3, i4, i5⟩ := ih _ _ _ _ h
          refine ⟨?_, ?_, ?_, ?_, ?_⟩
          · intro w hw
            exact i1 w (by simpa using hw)
          · intro hw
            exact i2 (by simpa using hw)
          · intro w hw
            cases hl : lastOf "skip_verify" ps with
            | none =>
              rw [hl] at hw
              simp only [if_true, Option.none_or, Option.some.injEq] at hw
              subst hw
              rw [i4 hl]; exact hb
            | some x => rw [hl] at hw; simp only [Option.some_or, Option.some.injEq] at hw; subst hw; exact i3 x hl
          · intro hw; simp at hw
          · simpa using i5
      · have e : setParamTls true lib (o, t) k v = (setParam lib o k v).map fun o' => (o', t) := by
          simp [setParamTls, h1, h2]
        rw [e] at h
        cases hr : setParam lib o k v with
        | error er => rw [hr] at h; cases h
        | ok r =>
          rw [hr] at h
          obtain ⟨i1, i2, i3, i4, i5⟩ := ih _ _ _ _ h
          refine ⟨?_, ?_, ?_, ?_, ?_⟩
          · intro w hw; exact i1 w (by simpa [h1] using hw)
          · intro hw; exact i2 (by simpa [h1] using hw)
          · intro w hw; exact i3 w (by simpa [h2] using hw)
          · intro hw; exact i4 (by simpa [h2] using hw)
          · rw [List.filter_cons, if_pos (by simp [h1, h2]), setParams, hr]; exact i5

/-- C69. In a build with TLS, whoever asks for an encrypted connection in the URL gets no other. -/
theorem C69_url_secure (lib : UrlLib) (ps : List (String × String)) (o o' : Options) (t t' : TlsOptions) (ha : AsksTls ps)
    (hp : setParamsTls true lib (o, t) ps = .ok (o', t')) (addr : Addr) (ctx : Context) (pooled : Bool) (env : OpenEnv)
    (s : Stream) (h : Handle) (ho : Client.open true t' addr ctx pooled env = .ok (s, h)) : ∃ a, s = .secure a := by
  have hb := (C69_secure_param lib ps o o' t t' hp).1 _ ha
  have hd : decodeLossy lib "true" = "true" := C36_plain_value lib "true" (by decide)
  rw [hd] at hb
  have ht : t'.secure = true := by
    rcases hb with ⟨_, h⟩ | ⟨h, _⟩
    · exact h
    · exact absurd h (by decide)
  obtain ⟨a, hs, _⟩ := C69_secure_is_encrypted t' ht addr ctx pooled env s h ho
  exact ⟨a, hs⟩

example : AsksTls [("secure", "false"), ("pool_min", "1"), ("secure", "true")] := by unfold AsksTls; decide
example (lib : UrlLib) : ∃ r, setParamsTls true lib (Options.default, {}) [("secure", "true")] = .ok r := by
  simp only [setParamsTls, setParamTls]
  rw [parseParam_plain lib "secure" "true" parseBool true (by decide) (by decide)]
  exact ⟨_, rfl⟩

/-- C69 is violated in a build without TLS, which is the default one: the URL may ask for an encrypted connection, the parameter is taken
for a setting of the server, and the connection opened is a plain one, over which the password is sent. -/
theorem C69_secure_ignored_violated (lib : UrlLib) : AsksTls [("secure", "true")] ∧
    setParamsTls false lib (Options.default, {}) [("secure", "true")] =
      .ok ({ Options.default with settings := [("secure", ⟨.string "true", true⟩)] }, {}) ∧
    ∃ h, Client.open false {} ⟨"ch", some 9000⟩ ⟨0, "h", Options.default⟩ true exOpenEnv = .ok (.plain 2, h) :=
  ⟨by unfold AsksTls; decide, rfl, exOpenPlain {}⟩

end CH.Props
