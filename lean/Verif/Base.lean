/-!
Shared vocabulary of the model: byte strings, reader outcomes, incremental readers.

`Reader α` models "a function generic over `R: ReadEx`" of /repo/src/binary/read_ex.rs:21-106 that is run on an
in-memory cursor (`io::Cursor<&[u8]>`, /repo/src/io/transport.rs:157-197): it gets the bytes in front of the cursor
and returns the bytes left.
-/

namespace CH

/-- A byte string. -/
abbrev Bytes := List UInt8

/-- Errors a reader can return (models the variants of /repo/src/errors/mod.rs:33-110 that matter here;
message texts are kept only as tags). -/
inductive Err where
  /-- `DriverError::Overflow` -/
  | overflow
  /-- `Utf8Error` from `String::from_utf8` -/
  | utf8
  /-- `DriverError::UnknownPacket` -/
  | unknownPacket (packet : Nat)
  /-- `DriverError::UnexpectedPacket` -/
  | unexpectedPacket
  /-- any other error, tagged by its message -/
  | other (tag : String)
deriving DecidableEq, Repr

/-- Outcome of a reader. `more` is the `io::ErrorKind::WouldBlock` error (read_ex.rs:33-36), recognised by
`Error::is_would_block` (/repo/src/errors/mod.rs:124-131); `err` carries the cursor position reached;
`panic` is a Rust panic. -/
inductive Res (α : Type) where
  | ok (a : α) (rest : Bytes)
  | more
  | err (e : Err) (rest : Bytes)
  | panic
deriving DecidableEq, Repr

/-- A reader over an in-memory cursor. -/
abbrev Reader (α : Type) := Bytes → Res α

namespace Reader

/-- Return a value, consuming nothing (`Ok(v)`). -/
def pure (a : α) : Reader α := fun bs => .ok a bs

/-- Sequencing with Rust's `?`: errors, would-block and panics abort. -/
def bind (p : Reader α) (f : α → Reader β) : Reader β := fun bs =>
  match p bs with
  | .ok a rest => f a rest
  | .more => .more
  | .err e rest => .err e rest
  | .panic => .panic

instance : Monad Reader where
  pure := Reader.pure
  bind := Reader.bind

/-- `return Err(e)`. -/
def fail (e : Err) : Reader α := fun bs => .err e bs

/-- A Rust panic. -/
def panic : Reader α := fun _ => .panic

end Reader

/-- A Rust `loop` around reader calls: `step` either asks for another round with a new loop state or ends the loop. Every use
in the model consumes at least one byte per round (the other case, in which a Rust loop would spin, answers `more`). -/
def Reader.loop (step : σ → Reader (σ ⊕ α)) (s : σ) : Reader α := fun bs =>
  match step s bs with
  | .ok (.inr a) r => .ok a r
  | .ok (.inl s') r => if r.length < bs.length then Reader.loop step s' r else .more
  | .more => .more
  | .err e r => .err e r
  | .panic => .panic
termination_by bs => bs.length

/-- A Rust `Result` of a computation that cannot wait for input: value, error, or panic. -/
inductive Out (α : Type) where
  | ok (a : α)
  | err (e : Err)
  | panic
deriving DecidableEq, Repr

namespace Out

/-- Sequencing with `?`. -/
def bind (x : Out α) (f : α → Out β) : Out β :=
  match x with
  | .ok a => f a
  | .err e => .err e
  | .panic => .panic

instance : Monad Out where
  pure := Out.ok
  bind := Out.bind

end Out

/-- Run a pure fallible computation inside a reader. -/
def Reader.lift (x : Out α) : Reader α :=
  match x with
  | .ok a => Reader.pure a
  | .err e => Reader.fail e
  | .panic => Reader.panic

/-- UTF-8 bytes of a string (Rust `str::as_bytes`). Lean's `String` is, like Rust's, a byte array together with a
proof that it is valid UTF-8. -/
def strBytes (s : String) : Bytes := s.toByteArray.data.toList

/-- `String::from_utf8` (used at /repo/src/binary/read_ex.rs:57). -/
def strOfBytes? (b : Bytes) : Option String := String.fromUTF8? ⟨b.toArray⟩

end CH
