import Verif.Model.Parser
import Verif.Model.Options

/-! Model of the commands the client sends: /repo/src/types/cmd.rs, /repo/src/client_info.rs, /repo/src/types/query.rs. -/

namespace CH

/-- `Query`, /repo/src/types/query.rs:1-5. -/
structure Query where
  sql : String
  id : String

/-- `Query::map_sql`, /repo/src/types/query.rs:30-38. -/
def Query.mapSql (q : Query) (f : String → String) : Query := { q with sql := f q.sql }

/-- `Context`, /repo/src/types/mod.rs:106-111, after `options.get()` succeeded (/repo/src/types/options.rs:43-58: a URL is
parsed once and the parsed options are kept; a URL that does not parse is an error before anything is sent). -/
structure Context where
  revision : Nat
  hostname : String
  options : Options

/-- `Cmd`, /repo/src/types/cmd.rs:12-19. -/
inductive Cmd where
  | hello (c : Context)
  | ping
  | sendQuery (q : Query) (c : Context)
  | sendData (b : Block) (c : Context)
  | union (first second : Cmd)
  | cancel

/-- `client_info::write`, /repo/src/client_info.rs:9-14. -/
def clientInfo : Bytes := putString "Rust SQLDriver" ++ putUvarint 1 ++ putUvarint 1 ++ putUvarint 54429

/-- `encode_hello`, /repo/src/types/cmd.rs:46-60. -/
def encodeHello (c : Context) : Bytes :=
  putUvarint 0 ++ clientInfo ++ putString c.options.database ++ putString c.options.username ++ putString c.options.password

/-- `encode_ping`, /repo/src/types/cmd.rs:62-68. -/
def encodePing : Bytes := putUvarint 4

/-- `encode_cancel`, /repo/src/types/cmd.rs:70-76. -/
def encodeCancel : Bytes := putUvarint 3

/-- One setting in the old format, /repo/src/types/cmd.rs:137-145. -/
def putSettingOld (s : String × SettingValue) : Bytes :=
  putString s.1 ++ match s.2.value with
    | .string v => putString v
    | .bool b => putUvarint (if b then 1 else 0)
    | .float t => putString t
    | .uint64 n => putUvarint n

/-- One setting as strings, /repo/src/types/cmd.rs:149-151. -/
def putSettingText (s : String × SettingValue) : Bytes := putString s.1 ++ putBool s.2.important ++ putString s.2.value.text

/-- `serialize_settings`, /repo/src/types/cmd.rs:134-156. -/
def serializeSettings (s : Settings) (strings : Bool) : Bytes :=
  (if strings then s.flatMap putSettingText else s.flatMap putSettingOld) ++ putString ""

/-- `Block::send_data`, /repo/src/types/block/mod.rs:371-375. -/
def Block.sendData (b : Block) (z : Codec) (compress : Bool) : Out Bytes := do
  let d ← b.writeC z compress
  pure (putUvarint 2 ++ putString "" ++ d)

/-- `encode_query`, /repo/src/types/cmd.rs:78-132. -/
def encodeQuery (z : Codec) (q : Query) (c : Context) : Out Bytes := do
  let d ← Block.new.sendData z c.options.compression
  pure (putUvarint 1 ++ putString "" ++
    (putUvarint 1 ++ putString "" ++ putString q.id ++ putString "[::ffff:127.0.0.1]:0" ++ putUvarint 1 ++
      putString c.hostname ++ putString c.hostname) ++
    clientInfo ++
    (if c.revision ≥ 54060 then putString "" else []) ++
    (if c.revision ≥ 54401 then putUvarint 0 else []) ++
    serializeSettings c.options.settings (c.revision ≥ 54429) ++
    putUvarint 2 ++ putUvarint (if c.options.compression then 1 else 0) ++ putString q.sql ++ d)

/-- `encode_command`, /repo/src/types/cmd.rs:35-44, `encode_data` 158-163, `encode_union` 165-169. -/
def Cmd.encode (z : Codec) : Cmd → Out Bytes
  | .hello c => .ok (encodeHello c)
  | .ping => .ok encodePing
  | .sendQuery q c => encodeQuery z q c
  | .sendData b c => b.sendData z c.options.compression
  | .union a b => do
    let x ← a.encode z
    let y ← b.encode z
    pure (x ++ y)
  | .cancel => .ok encodeCancel

end CH
