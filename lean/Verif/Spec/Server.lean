import Verif.Spec.Block
import Verif.Model.Cmd

/-!
What a server of a given revision makes of the bytes it receives, written from the ClickHouse native protocol (field order of
`TCPHandler::receiveHello/receiveQuery`, `ClientInfo::read`, `Settings::read`), independently of the client's encoder. The
revision is the smaller of the server's and the client's (54429). Primitive decodings are the ones characterised by C01, C03
and C04, the block decoding is the one of C10/C11.
-/

namespace CH.Spec

/-- How the server of old revisions (before 54429) reads the value of a setting: by the declared type of the setting. -/
inductive SettingKind where
  | number
  | text

/-- A setting as the server sees it. -/
inductive RawSetting where
  /-- old format, numeric setting -/
  | num (name : String) (v : Nat)
  /-- old format, other setting -/
  | txt (name : String) (v : String)
  /-- new format: importance flag and text -/
  | flagged (name : String) (important : Bool) (v : String)
deriving DecidableEq

/-- A query as the server sees it. -/
structure QueryMsg where
  queryId : String
  queryKind : Nat
  initialUser : String
  initialQueryId : String
  initialAddress : String
  interface : Nat
  osUser : String
  clientHostname : String
  clientName : String
  clientVersion : Nat × Nat × Nat
  quotaKey : String
  patch : Nat
  settings : List RawSetting
  stage : Nat
  compression : Nat
  sql : String
deriving DecidableEq

/-- Messages a client may send. -/
inductive Msg where
  | hello (clientName : String) (version : Nat × Nat × Nat) (database user password : String)
  | query (q : QueryMsg)
  | data (table : String) (b : Block)
  | cancel
  | ping

/-- Settings until the empty name. -/
def readSettings (kind : String → SettingKind) (revision : Nat) : Reader (List RawSetting) :=
  Reader.loop (fun acc => do
    let name ← readString
    if name = "" then Reader.pure (.inr acc)
    else if 54429 ≤ revision then do
      let flags ← readUvarint
      let v ← readString
      Reader.pure (.inl (acc ++ [.flagged name (flags % 2 == 1) v]))
    else
      match kind name with
      | .number => do
        let v ← readUvarint
        Reader.pure (.inl (acc ++ [.num name v]))
      | .text => do
        let v ← readString
        Reader.pure (.inl (acc ++ [.txt name v]))) []

/-- Name, version, revision of a client. -/
def readVersion : Reader (String × Nat × Nat × Nat) := do
  let name ← readString
  let major ← readUvarint
  let minor ← readUvarint
  let rev ← readUvarint
  Reader.pure (name, major, minor, rev)

/-- A field present under a condition. -/
def fieldIf (c : Prop) [Decidable c] (p : Reader α) (dflt : α) : Reader α := if c then p else Reader.pure dflt

/-- A query message (after its number). -/
def readQuery (kind : String → SettingKind) (revision : Nat) : Reader QueryMsg := do
  let queryId ← readString
  let queryKind ← readLE 1
  let initialUser ← readString
  let initialQueryId ← readString
  let initialAddress ← readString
  let interface ← readLE 1
  let osUser ← readString
  let clientHostname ← readString
  let v ← readVersion
  let quotaKey ← fieldIf (54060 ≤ revision) readString ""
  let patch ← fieldIf (54401 ≤ revision) readUvarint 0
  let settings ← readSettings kind revision
  let stage ← readUvarint
  let compression ← readUvarint
  let sql ← readString
  Reader.pure ⟨queryId, queryKind, initialUser, initialQueryId, initialAddress, interface, osUser, clientHostname, v.1, v.2,
    quotaKey, patch, settings, stage, compression, sql⟩

/-- One message. `tz` and `compress` are what the two sides agreed on. -/
def readMsg (env : Env) (kind : String → SettingKind) (revision : Nat) (tz : Tz) (compress : Bool) : Reader Msg := do
  let k ← readUvarint
  if k = 0 then do
    let v ← readVersion
    let db ← readString
    let user ← readString
    let pass ← readString
    Reader.pure (.hello v.1 v.2 db user pass)
  else if k = 1 then do
    let q ← readQuery kind revision
    Reader.pure (.query q)
  else if k = 2 then do
    let t ← readString
    let b ← blockLoad env.known env.codec tz compress
    Reader.pure (.data t b)
  else if k = 3 then Reader.pure .cancel
  else if k = 4 then Reader.pure .ping
  else Reader.fail (.unknownPacket k)

/-- The bytes are exactly these messages, one after the other. -/
inductive Reads (p : Reader Msg) : Bytes → List Msg → Prop
  | nil : Reads p [] []
  | cons {bs m rest ms} : p bs = .ok m rest → Reads p rest ms → Reads p bs (m :: ms)

/-- The old format only carries settings whose kind the client guessed as the server declares it. -/
def settingAgrees (kind : String → SettingKind) (revision : Nat) (s : String × SettingValue) : Prop :=
  54429 ≤ revision ∨ match kind s.1, s.2.value with
    | .number, .bool _ => True
    | .number, .uint64 _ => True
    | .text, .string _ => True
    | .text, .float _ => True
    | _, _ => False

/-- Lengths and numbers fit 64 bits; names are not empty; kinds agree. -/
structure SettingOK (kind : String → SettingKind) (revision : Nat) (s : String × SettingValue) : Prop where
  nonempty : s.1 ≠ ""
  name : (strBytes s.1).length < 2 ^ 63
  text : (strBytes s.2.value.text).length < 2 ^ 63
  num : ∀ n, s.2.value = .uint64 n → n < 2 ^ 64
  agrees : settingAgrees kind revision s

/-- What the server should see of a setting: new format: the text of the value (`true`/`false`, decimal digits) and the flag;
old format: numbers and booleans (0/1) as numbers, the rest as text. -/
def seenSetting (revision : Nat) (s : String × SettingValue) : RawSetting :=
  if 54429 ≤ revision then
    .flagged s.1 s.2.important (match s.2.value with
      | .string v => v
      | .bool b => if b then "true" else "false"
      | .uint64 n => toString n
      | .float t => t)
  else match s.2.value with
    | .string v => .txt s.1 v
    | .bool b => .num s.1 (if b then 1 else 0)
    | .uint64 n => .num s.1 n
    | .float t => .txt s.1 t

end CH.Spec
