import Verif.Model.Client

/-!
The check before an operation, with what a replaced connection brings along: reconnecting swaps the whole handle
(`mem::swap`, /repo/src/retry_guard.rs:64), so the new handle has its own `Context` and with it what its own server said in its
greeting (`server_info`, /repo/src/lib.rs:327). `Model/Client` leaves the context as it was. Which of the two contexts an operation
uses depends on the place where it clones it: `execute_` and `insert_` do so before the check (/repo/src/lib.rs:399, 454), a query
after it (/repo/src/types/query_result/mod.rs:91).
-/

namespace CH

/-- What reconnecting will give, in order: the connection and the context of a handle (`get_handle`, /repo/src/pool/mod.rs:244-253, or
`Client::open`, /repo/src/lib.rs:264-302), or a failure. -/
abbrev WorldC := List (Option (Conn × Context))

/-- The loop of `retry_guard`, /repo/src/retry_guard.rs:14-52, as `retryLoop`, with the context of the new handle (line 64). -/
def retryLoopC (pooled : Bool) (maxAttempt : Nat) (attempt : Nat) (skip : Bool) (h : Handle) (w : WorldC) :
    OpRes Unit × Handle × WorldC :=
  match (if skip then (OpRes.err OpErr.connect, h) else h.ping) with
  | (.ok (), h) => (.ok (), h, w)
  | (.panic, h) => (.panic, h, w)
  | (.waits, h) => (.waits, h, w)
  | (.err e, h) =>
    if !skip && maxAttempt ≤ attempt then (.err e, h, w)
    else
      match w with
      | [] => (.waits, h, [])
      | none :: w =>
        if maxAttempt ≤ attempt then (.err .connect, h, w) else retryLoopC pooled maxAttempt (attempt + 1) true h w
      | some (c, ctx) :: w =>
        retryLoopC pooled maxAttempt attempt false ⟨some c, ctx, if pooled then .attached else .none⟩ w
termination_by w.length

/-- `check_connection`, /repo/src/lib.rs:575-593. The number of retries is that of the old handle (579-586). -/
def Handle.checkConnectionC (h : Handle) (w : WorldC) : OpRes Unit × Handle × WorldC :=
  match h.binding.detach with
  | none => (.panic, { h with binding := .none }, w)
  | some b =>
    match retryLoopC true h.context.options.sendRetries 0 false { h with binding := b } w with
    | (.ok (), h, w) => (.ok (), { h with binding := if h.binding = .detached then .attached else h.binding }, w)
    | r => r

/-- `wrap_future`, /repo/src/lib.rs:530-542. -/
def Handle.precheckC (h : Handle) (w : WorldC) : OpRes Unit × Handle × WorldC :=
  if h.context.options.pingBeforeQuery then h.checkConnectionC w else (.ok (), h, w)

/-- `execute`, /repo/src/lib.rs:381-433: the context is cloned at line 399, before the check. -/
def Handle.executeC (h : Handle) (q : Query) (w : WorldC) : OpRes Unit × Handle × WorldC :=
  let context := h.context
  match h.precheckC w with
  | (.ok (), h, w) =>
    match h.inner with
    | none => (.err .broken, h, w)
    | some c =>
      match c.execute q context with
      | .ok c => (.ok (), { h with inner := some c }, w)
      | .err e => (.err e, { h with inner := none }, w)
      | .panic => (.panic, { h with inner := none }, w)
      | .waits => (.waits, { h with inner := none }, w)
  | r => r

/-- `insert`, /repo/src/lib.rs:436-478: the context is cloned at line 454, before the check. -/
def Handle.insertC (numeric : Char → Bool) (cast : Block → Block → Out Block) (h : Handle) (table : Query) (b : Block) (w : WorldC) :
    OpRes Unit × Handle × WorldC :=
  match makeQuery numeric table b with
  | .err e => (.err (.other e), h, w)
  | .panic => (.panic, h, w)
  | .ok q =>
    let context := h.context
    match h.precheckC w with
    | (.ok (), h, w) =>
      match h.inner with
      | none => (.err .broken, h, w)
      | some c =>
        match c.insert cast q context b with
        | .ok c => (.ok (), { h with inner := some c }, w)
        | .err e => (.err e, { h with inner := none }, w)
        | .panic => (.panic, { h with inner := none }, w)
        | .waits => (.waits, { h with inner := none }, w)
    | r => r

/-- `stream_blocks_`, /repo/src/types/query_result/mod.rs:83-97 with `wrap_stream`, /repo/src/lib.rs:544-572: the context is cloned
in the closure (line 91), which runs after the check. -/
def Handle.openStreamC (h : Handle) (q : Query) (skipFirst : Bool) (w : WorldC) : OpRes BStream × Handle × WorldC :=
  match h.precheckC w with
  | (.ok (), h, w) =>
    match h.binding.detach with
    | none => (.panic, { h with binding := .none }, w)
    | some b =>
      match h.inner with
      | none => (.err .broken, { h with binding := b }, w)
      | some c => (.ok (BStream.new (c.call (.sendQuery q h.context)) skipFirst), { h with inner := none, binding := b }, w)
  | (.err e, h, w) => (.err e, h, w)
  | (.panic, h, w) => (.panic, h, w)
  | (.waits, h, w) => (.waits, h, w)

end CH
