import Verif.Model.Options
import Verif.Model.Connect
import Verif.Model.Parser

/-!
The errors of the library, their texts, and the ways they are turned into each other: /repo/src/errors/mod.rs, with the places where
an error passes through `io::Error` on its way to the caller (compressed.rs:55-61, read_ex.rs:25-45, io/transport.rs:157-197, 352-361,
query_result/stream_blocks.rs:89-90).
-/

namespace CH.Errors
open CH

/-- The kinds of `std::io::Error` (read_ex.rs:34, stream_blocks.rs:93, connecting_stream.rs:130, errors/mod.rs:206) the code asks for or makes; the others are told apart by a number. -/
inductive IoKind where
  | wouldBlock
  | unexpectedEof
  | invalidInput
  | other
  | rest (n : Nat)
deriving DecidableEq, Repr

/-- `std::io::Error`, the content of `Error::Io`, /repo/src/errors/mod.rs:20-21: its kind and its text (`Display`). -/
structure IoErr where
  kind : IoKind
  text : Str
deriving DecidableEq, Repr

/-- `DriverError`, /repo/src/errors/mod.rs:85-105. Of `Utf8Error` the text is kept. -/
inductive DriverErr where
  | overflow
  | unknownPacket (packet : Nat)
  | unexpectedPacket
  | timeout
  | utf8 (text : Str)
  | deserialize (text : Str)
deriving DecidableEq, Repr

/-- `FromSqlError`, /repo/src/errors/mod.rs:107-121. -/
inductive FromSqlErr where
  | invalidType (src dst : Str)
  | outOfRange
  | unsupportedOperation
deriving DecidableEq, Repr

/-- `Error`, /repo/src/errors/mod.rs:14-37. Of `UrlError` and `ConnectionError` the texts are kept (their `Display`). -/
inductive Error where
  | driver (e : DriverErr)
  | io (e : IoErr)
  | connection (text : Str)
  | other (text : Str)
  | server (e : ServerError)
  | url (text : Str)
  | fromSql (e : FromSqlErr)
deriving DecidableEq, Repr

/-- `Display for DriverError`, /repo/src/errors/mod.rs:87-104. -/
def DriverErr.text : DriverErr → Str
  | .overflow => "Varint overflows a 64-bit integer.".toList
  | .unknownPacket p => "Unknown packet 0x".toList ++ Nat.toDigits 16 p ++ ".".toList
  | .unexpectedPacket => "Unexpected packet.".toList
  | .timeout => "Timeout error.".toList
  | .utf8 _ => "Invalid utf-8 sequence.".toList
  | .deserialize t => "Deserialize error: `".toList ++ t ++ "`".toList

/-- `Display for FromSqlError`, /repo/src/errors/mod.rs:109-120. -/
def FromSqlErr.text : FromSqlErr → Str
  | .invalidType src dst => "SqlType::".toList ++ src ++ " cannot be cast to ".toList ++ dst ++ ".".toList
  | .outOfRange => "Out of range.".toList
  | .unsupportedOperation => "Unsupported operation.".toList

/-- `Display for ServerError`, /repo/src/errors/mod.rs:41. -/
def serverText (e : ServerError) : Str :=
  "ERROR ".toList ++ e.name.toList ++ " (".toList ++ natChars e.code ++ "): ".toList ++ e.message.toList

/-- `Display for Error`, /repo/src/errors/mod.rs:16-36. -/
def Error.text : Error → Str
  | .driver e => "Driver error: `".toList ++ e.text ++ "`".toList
  | .io e => "Input/output error: `".toList ++ e.text ++ "`".toList
  | .connection t => "Connections error: `".toList ++ t ++ "`".toList
  | .other t => "Other error: `".toList ++ t ++ "`".toList
  | .server e => "Server error: `".toList ++ serverText e ++ "`".toList
  | .url t => "URL error: `".toList ++ t ++ "`".toList
  | .fromSql e => "From SQL error: `".toList ++ e.text ++ "`".toList

/-- `Error::is_would_block`, /repo/src/errors/mod.rs:124-131. -/
def Error.isWouldBlock : Error → Bool
  | .io e => if e.kind = .wouldBlock then true else false
  | _ => false

/-- `From<Error> for io::Error`, /repo/src/errors/mod.rs:202-209. -/
def Error.toIo : Error → IoErr
  | .io e => e
  | e => ⟨.other, e.text⟩

/-- `From<io::Error> for Error`, /repo/src/errors/mod.rs:159-163. -/
def ofIo (e : IoErr) : Error := .io e

/-- An error met by `decompress_buffer` while the block in a compressed frame is read: `Read::read` turns it into an `io::Error`
(/repo/src/types/block/compressed.rs:55-57, the `?`), `read_bytes` into an `Error` again (/repo/src/binary/read_ex.rs:39). -/
def framed (e : Error) : Error := ofIo e.toIo

/-- What `try_parse_msg` makes of an error of the parser, /repo/src/io/transport.rs:173-182; `none` is `Poll::Pending`. -/
def tryParse (e : Error) : Option IoErr := if e.isWouldBlock then none else some e.toIo

/-- What `PacketStream::poll_next` makes of an error of the transport, /repo/src/io/transport.rs:355-361. -/
def packetStream (e : IoErr) : Option IoErr := if e.kind = .wouldBlock then none else some e

/-- What the caller gets of an error of the parser: from `BlockStream`, /repo/src/types/query_result/stream_blocks.rs:90 (`err.into()`),
and from the `?` on packets in /repo/src/io/transport.rs:219-259 and lib.rs. `none`: nothing yet, it is polled again later. -/
def reported (e : Error) : Option Error := ((tryParse e).bind packetStream).map ofIo

/-- The texts that come from the libraries, /repo/src/errors/mod.rs:185, binary/parser.rs:72: of a `FromUtf8Error` and of the error of `Tz::from_str`. -/
structure Texts where
  utf8 : Str
  timezone : Str

/-- The error that a reader of the model stands for: `String::from_utf8(..)?` is `Error::Other` (/repo/src/errors/mod.rs:183-187), a
time zone that is not known an `io::Error` (/repo/src/binary/parser.rs:72), the rest as listed at `Err`. The texts of `Error::Other`
are abbreviated in the model, `Err.other` has their beginnings. -/
def raised (lib : Texts) : Err → Error
  | .overflow => .driver .overflow
  | .utf8 => .other lib.utf8
  | .unknownPacket p => .driver (.unknownPacket p)
  | .unexpectedPacket => .driver .unexpectedPacket
  | .other tag => if tag = "timezone" then .io ⟨.other, lib.timezone⟩ else .other tag.toList

/-- The error with which reading ends too early, /repo/src/binary/read_ex.rs:33-36. -/
def wouldBlock : Error := .io ⟨.wouldBlock, "would block".toList⟩

/-- What the caller gets when the buffer has been parsed, /repo/src/io/transport.rs:173-182: the packet, an error, or a panic. -/
inductive Seen (α : Type) where
  | packet (a : α)
  | error (e : Error)
  | panic

/-- The same for each result of a reader; `none`: nothing yet, /repo/src/io/transport.rs:173-182. -/
def outcome (lib : Texts) : Res α → Option (Seen α)
  | .ok a _ => some (.packet a)
  | .more => (reported wouldBlock).map .error
  | .err e _ => (reported (raised lib e)).map .error
  | .panic => some .panic

end CH.Errors
