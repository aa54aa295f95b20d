import Verif.Model.Compressed

/-! Model of the server message parser: /repo/src/binary/parser.rs, packet kinds of /repo/src/types/mod.rs:52-155. -/

namespace CH

/-- `ServerInfo`, /repo/src/types/mod.rs:80-88. -/
structure ServerInfo where
  name : String
  major : Nat
  minor : Nat
  revision : Nat
  timezone : Tz
  displayName : String
  patch : Nat
deriving DecidableEq, Repr

/-- `Progress`, /repo/src/types/mod.rs:53-60. -/
structure Progress where
  rows : Nat
  bytes : Nat
  totalRows : Nat
  writtenRows : Nat
  writtenBytes : Nat
deriving DecidableEq, Repr

/-- `ProfileInfo`, /repo/src/types/mod.rs:64-71. -/
structure ProfileInfo where
  rows : Nat
  blocks : Nat
  bytes : Nat
  appliedLimit : Bool
  rowsBeforeLimit : Nat
  calculated : Bool
deriving DecidableEq, Repr

/-- `ServerError`, /repo/src/errors/mod.rs:41-47. -/
structure ServerError where
  code : Nat
  name : String
  message : String
  stackTrace : String
deriving DecidableEq, Repr

/-- `Packet<()>`, /repo/src/types/mod.rs:146-155. -/
inductive Packet where
  | hello (i : ServerInfo)
  | pong
  | progress (p : Progress)
  | profileInfo (p : ProfileInfo)
  | tableColumns (table columns : String)
  | exception (e : ServerError)
  | block (b : Block)
  | eof

/-- `TransportInfo`, /repo/src/io/transport.rs:29-33. -/
structure TransportInfo where
  timezone : Option Tz
  compress : Bool
  revision : Nat

/-- What surrounds the parser: the zone database of `chrono_tz` and the foreign compression functions. -/
structure Env where
  known : Tz → Bool
  codec : Codec

/-- `if revision >= min { read } else { default }`, the pattern of /repo/src/binary/parser.rs:69-89, 108-120. -/
def since (revision min : Nat) (p : Reader α) (dflt : α) : Reader α :=
  if revision ≥ min then p else Reader.pure dflt

/-- Reading and parsing the zone name, /repo/src/binary/parser.rs:70-73. -/
def readTz (env : Env) : Reader Tz := do
  let s ← readString
  if env.known s.toList then Reader.pure s.toList else Reader.fail (.other "timezone")

/-- `parse_server_info`, /repo/src/binary/parser.rs:63-102. -/
def parseHello (env : Env) : Reader Packet := do
  let name ← readString
  let major ← readUvarint
  let minor ← readUvarint
  let revision ← readUvarint
  let tz ← since revision 54058 (readTz env) "UTC".toList
  let display ← since revision 54372 readString ""
  let patch ← since revision 54401 readUvarint 0
  Reader.pure (.hello ⟨name, major, minor, revision, tz, display, patch⟩)

/-- `parse_progress`, /repo/src/binary/parser.rs:104-139. -/
def parseProgress (revision : Nat) : Reader Packet := do
  let rows ← readUvarint
  let bytes ← readUvarint
  let total ← since revision 51554 readUvarint 0
  let written ← since revision 54420 (do
    let r ← readUvarint
    let b ← readUvarint
    Reader.pure (r, b)) (0, 0)
  Reader.pure (.progress ⟨rows, bytes, total, written.1, written.2⟩)

/-- `parse_profile_info`, /repo/src/binary/parser.rs:141-153. -/
def parseProfileInfo : Reader Packet := do
  let rows ← readUvarint
  let blocks ← readUvarint
  let bytes ← readUvarint
  let applied ← readBool
  let before ← readUvarint
  let calculated ← readBool
  Reader.pure (.profileInfo ⟨rows, blocks, bytes, applied, before, calculated⟩)

/-- `parse_table_columns`, /repo/src/binary/parser.rs:155-163. -/
def parseTableColumns : Reader Packet := do
  let t ← readString
  let c ← readString
  Reader.pure (.tableColumns t c)

/-- `parse_exception`, /repo/src/binary/parser.rs:165-175. -/
def parseException : Reader Packet := do
  let code ← readLE 4
  let name ← readString
  let message ← readString
  let trace ← readString
  Reader.pure (.exception ⟨code, name, message, trace⟩)

/-- `parse_block`, /repo/src/binary/parser.rs:52-61. -/
def parseBlock (env : Env) (info : TransportInfo) : Reader Packet :=
  match info.timezone with
  | none => Reader.fail .unexpectedPacket
  | some tz => do
    let _ ← skipString
    let b ← blockLoad env.known env.codec tz info.compress
    Reader.pure (.block b)

/-- The `match packet` of `parse_packet`, /repo/src/binary/parser.rs:37-49; `revision` is the negotiated one, packet numbers from
protocol.rs:24-35. -/
def parseBody (env : Env) (info : TransportInfo) (k : Nat) : Reader Packet :=
  if k = 0 then parseHello env
  else if k = 4 then Reader.pure .pong
  else if k = 3 then parseProgress info.revision
  else if k = 6 then parseProfileInfo
  else if k = 11 then parseTableColumns
  else if k = 2 then parseException
  else if k = 1 ∨ k = 7 ∨ k = 8 then parseBlock env info
  else if k = 5 then Reader.pure .eof
  else Reader.fail (.unknownPacket k)

/-- `parse_packet`, /repo/src/binary/parser.rs:35-50. -/
def parsePacket (env : Env) (info : TransportInfo) : Reader Packet := do
  let k ← readUvarint
  parseBody env info k

end CH
