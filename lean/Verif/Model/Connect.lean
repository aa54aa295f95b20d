import Verif.Model.Client

/-!
Model of opening a connection: /repo/src/connecting_stream.rs, `Client::open` (/repo/src/lib.rs:260-302) and the
options that exist only in a build with the feature `tls` (/repo/src/types/options.rs:257-266, 563-566).

The operating system and the TLS library enter as parameters: what resolving the host gives, and for every address whether and
after how many polls the attempt to connect is decided. Sockets are named by the address they are connected to.
-/

namespace CH

/-- `ConnectionError`, /repo/src/errors/mod.rs:48-64, with the messages of the underlying errors. -/
inductive ConnErr where
  | tlsHostNotProvided
  | io (message : String)
  | tls (message : String)
  | broken
deriving DecidableEq, Repr

/-- A boxed `TcpStream::connect(address)`, /repo/src/connecting_stream.rs:119-126, as a future: `wait` is the number of polls that find it
pending (`none`: it is never decided), `error` what it then fails with (`none`: it is connected). -/
structure Attempt where
  addr : Nat
  wait : Option Nat
  error : Option String
deriving DecidableEq, Repr

/-- The attempt after a poll that found it pending. -/
def Attempt.tick (a : Attempt) : Attempt := { a with wait := a.wait.map (· - 1) }

/-- Result of polling a future. -/
inductive Polled (α : Type) where
  | pending
  | ready (r : Except ConnErr α)
  | panic
deriving Repr

/-- `self.inner.iter_mut().enumerate().find_map(..)` in `SelectOk::poll` (futures-util 0.3, future/select_ok.rs), used at
/repo/src/connecting_stream.rs:138: the attempts are polled in order up to the first that is ready. Answers that one and the
others, or only the others if none is ready. -/
def sweep : List Attempt → Option Attempt × List Attempt
  | [] => (none, [])
  | a :: as =>
    if a.wait = some 0 then (some a, as)
    else
      let r := sweep as
      (r.1, a.tick :: r.2)

theorem sweep_length : ∀ {l : List Attempt} {a : Attempt} {l' : List Attempt}, sweep l = (some a, l') → l'.length < l.length := by
  intro l
  induction l with
  | nil => intro a l' h; simp [sweep] at h
  | cons x xs ih =>
    intro a l' h
    rw [sweep] at h
    split at h
    · simp at h; simp [h.2]
    · simp only [Prod.mk.injEq] at h
      obtain ⟨h1, rfl⟩ := h
      have := ih (a := a) (l' := (sweep xs).2) (by rw [← h1])
      simp; omega

/-- `SelectOk::poll`: the first success is the result (the other attempts are given up), a failed attempt is removed, and the
failure of the last one is the failure of all. Answers also the attempts left. -/
def selectPoll (l : List Attempt) : Polled Nat × List Attempt :=
  match _h : sweep l with
  | (none, l') => (.pending, l')
  | (some a, l') =>
    match a.error with
    | none => (.ready (.ok a.addr), [])
    | some e => if l'.isEmpty then (.ready (.error (.io e)), []) else selectPoll l'
termination_by l.length
decreasing_by exact sweep_length _h

/-- `Stream`, /repo/src/io/stream.rs:24-29. -/
inductive Stream where
  | plain (socket : Nat)
  | secure (socket : Nat)
deriving DecidableEq, Repr

/-- The socket under a stream. -/
def Stream.socket : Stream → Nat
  | .plain s => s
  | .secure s => s

/-- What the TLS library does: `builder.build()` may fail, and the handshake over a socket is a future like `Attempt`. -/
structure TlsEnv where
  build : Option String
  handshake : Nat → Option Nat × Option String

/-- The `async` block of `new_tls_connection`, /repo/src/connecting_stream.rs:176-183, between polls: waiting for the socket, waiting
for the handshake, finished. -/
inductive TlsFut where
  | connecting (l : List Attempt)
  | shaking (socket : Nat) (wait : Option Nat)
  | finished

/-- Polling the handshake `cx.connect(&host, s)`, /repo/src/connecting_stream.rs:182. -/
def pollHandshake (env : TlsEnv) (socket : Nat) (wait : Option Nat) : Polled Stream × TlsFut :=
  if wait = some 0 then
    match (env.handshake socket).2 with
    | none => (.ready (.ok (.secure socket)), .finished)
    | some e => (.ready (.error (.tls e)), .finished)
  else (.pending, .shaking socket (wait.map (· - 1)))

/-- Polling the `async` block of `new_tls_connection`, /repo/src/connecting_stream.rs:176-183. -/
def TlsFut.poll (env : TlsEnv) : TlsFut → Polled Stream × TlsFut
  | .connecting l =>
    match selectPoll l with
    | (.pending, l') => (.pending, .connecting l')
    | (.panic, _) => (.panic, .finished)
    | (.ready (.error e), _) => (.ready (.error e), .finished)
    | (.ready (.ok s), _) =>
      match env.build with
      | some e => (.ready (.error (.tls e)), .finished)
      | none => pollHandshake env s (env.handshake s).1
  | .shaking s w => pollHandshake env s w
  | .finished => (.panic, .finished)

/-- `TcpState`, `TlsState`, `State`, /repo/src/connecting_stream.rs:30-48. -/
inductive CState where
  | tcpWait (l : List Attempt)
  | tcpFail (e : Option ConnErr)
  | tlsWait (f : TlsFut)
  | tlsFail (e : Option ConnErr)

/-- `State::poll`, /repo/src/connecting_stream.rs:50-87 (`err.take().unwrap()` panics the second time). -/
def CState.poll (env : TlsEnv) : CState → Polled Stream × CState
  | .tcpWait l =>
    match selectPoll l with
    | (.pending, l') => (.pending, .tcpWait l')
    | (.panic, l') => (.panic, .tcpWait l')
    | (.ready (.error e), l') => (.ready (.error e), .tcpWait l')
    | (.ready (.ok s), l') => (.ready (.ok (.plain s)), .tcpWait l')
  | .tcpFail (some e) => (.ready (.error e), .tcpFail none)
  | .tcpFail none => (.panic, .tcpFail none)
  | .tlsWait f => ((f.poll env).1, .tlsWait (f.poll env).2)
  | .tlsFail (some e) => (.ready (.error e), .tlsFail none)
  | .tlsFail none => (.panic, .tlsFail none)

/-- The options that exist in a build with the feature `tls`, /repo/src/types/options.rs:257-262 (the certificate is left out);
defaults at 316-319. -/
structure TlsOptions where
  secure : Bool := false
  skipVerify : Bool := false
deriving DecidableEq, Repr

/-- `ConnectingStream::new` and `new_tls_connection`, /repo/src/connecting_stream.rs:115-188. `tls` tells whether the build has
the feature; `host` is `addr.host_str()`, `resolved` the result of `addr.socket_addrs(..)` with the attempts to connect to each. -/
def CState.new (tls : Bool) (t : TlsOptions) (host : Option String) (resolved : Except String (List Attempt)) : CState :=
  match resolved with
  | .error e => .tcpFail (some (.io e))
  | .ok l =>
    if l.isEmpty then .tcpFail (some (.io "Could not resolve to any address."))
    else if tls && t.secure then
      match host with
      | none => .tlsFail (some .tlsHostNotProvided)
      | some _ => .tlsWait (.connecting l)
    else .tcpWait l

/-- `connecting_stream.await` with at most `n` polls (`impl Future for ConnectingStream`, /repo/src/connecting_stream.rs:190-196);
`pending` if it is still not ready then. -/
def CState.await (env : TlsEnv) : Nat → CState → Polled Stream
  | 0, _ => .pending
  | n + 1, s =>
    match s.poll env with
    | (.pending, s') => CState.await env n s'
    | (r, _) => r

/-! ### `Client::open` -/

/-- The world around `Client::open`: name resolution, the TLS library, `set_nodelay` (an error message or `none`), the servers, and
how often the future is polled before `connection_timeout` is over. -/
structure OpenEnv where
  resolve : Addr → Except String (List Attempt)
  tls : TlsEnv
  nodelay : Nat → Option String
  server : Nat → List Cmd → List Inc
  polls : Nat

/-- `Client::open`, /repo/src/lib.rs:260-302, to the address the pool chose (`addr`; C53 is about the choice). `set_keepalive` does
nothing (/repo/src/io/stream.rs:45-66). -/
def Client.open (tls : Bool) (t : TlsOptions) (addr : Addr) (ctx : Context) (pooled : Bool) (env : OpenEnv) :
    OpRes (Stream × Handle) :=
  match (CState.new tls t (some addr.host) (env.resolve addr)).await env.tls env.polls with
  | .pending => .err .timeout
  | .panic => .panic
  | .ready (.error _) => .err .connect
  | .ready (.ok s) =>
    match env.nodelay s.socket with
    | some _ => .err .io
    | none =>
      match (Handle.mk (some ⟨[], env.server s.socket, false, []⟩) ctx (if pooled then .detached else .none)).hello with
      | (.ok (), h) => .ok (s, h)
      | (.err e, _) => .err e
      | (.panic, _) => .panic
      | (.waits, _) => .err .timeout

/-! ### The URL in a build with or without the feature `tls` -/

/-- One iteration of `set_params` with the parameters of the feature `tls`, /repo/src/types/options.rs:540-579. -/
def setParamTls (tls : Bool) (lib : UrlLib) (o : Options × TlsOptions) (key value : String) :
    Except UrlErr (Options × TlsOptions) :=
  if tls && key == "secure" then (parseParam lib key value parseBool).map fun v => (o.1, { o.2 with secure := v })
  else if tls && key == "skip_verify" then
    (parseParam lib key value parseBool).map fun v => (o.1, { o.2 with skipVerify := v })
  else (setParam lib o.1 key value).map fun o' => (o', o.2)

/-- `set_params`, /repo/src/types/options.rs:536-582. -/
def setParamsTls (tls : Bool) (lib : UrlLib) : Options × TlsOptions → List (String × String) → Except UrlErr (Options × TlsOptions)
  | o, [] => .ok o
  | o, (k, v) :: rest =>
    match setParamTls tls lib o k v with
    | .ok o' => setParamsTls tls lib o' rest
    | .error e => .error e

end CH
