import Verif.Model.SqlType
import Verif.Model.Wire

/-!
Model of connection options and their parsing from a URL: /repo/src/types/options.rs. The `url` and `percent-encoding`
crates: a parsed URL is a record of its components (`UrlParts`) and `Url::parse` is a parameter; percent decoding is
modelled; replacement of invalid UTF-8 is a parameter. TLS options (a cargo feature) are left out.
-/

namespace CH

/-- `SettingType`, /repo/src/types/options.rs:141-147. A float is carried as its `Display` text (formatting floats is the
standard library's). -/
inductive SettingType where
  | string (s : String)
  | bool (b : Bool)
  | uint64 (n : Nat)
  | float (text : String)
deriving DecidableEq, Repr

/-- `impl Display for SettingType`, /repo/src/types/options.rs:149-158 (and for `SettingValue`, 202-206). -/
def SettingType.text : SettingType → String
  | .bool true => "true"
  | .bool false => "false"
  | .uint64 n => String.ofList (natChars n)
  | .float t => t
  | .string s => s

/-- `From<i32>` and `From<i64>` for `SettingType`, /repo/src/types/options.rs:178-188: `as u64` is reduction modulo 2^64. -/
def SettingType.ofInt (v : Int) : SettingType := .uint64 (v % 2 ^ 64).toNat

/-- `SettingValue`, /repo/src/types/options.rs:196-200. -/
structure SettingValue where
  value : SettingType
  important : Bool
deriving DecidableEq, Repr

/-- `HashMap<String, SettingValue>`: the entries in the order in which iteration yields them (which the standard library does
not specify; theorems hold for every order). -/
abbrev Settings := List (String × SettingValue)

/-- `HashMap::insert`, as used at /repo/src/types/options.rs:365-371 and 570-577. -/
def Settings.insert (s : Settings) (k : String) (v : SettingValue) : Settings :=
  match s with
  | [] => [(k, v)]
  | (k', v') :: rest => if k' = k then (k, v) :: rest else (k', v') :: Settings.insert rest k v

/-- A server address, /repo/src/types/options.rs:212, 519-525: of the stored URL the pool and the connector use host and port. -/
structure Addr where
  host : String
  port : Option Nat
deriving DecidableEq, Repr

/-- `Options`, /repo/src/types/options.rs:209-272. Durations are in milliseconds. -/
structure Options where
  addr : Addr
  database : String
  username : String
  password : String
  compression : Bool
  poolMin : Nat
  poolMax : Nat
  nodelay : Bool
  keepalive : Option Nat
  pingBeforeQuery : Bool
  sendRetries : Nat
  retryTimeout : Nat
  pingTimeout : Nat
  connectionTimeout : Nat
  queryTimeout : Nat
  insertTimeout : Option Nat
  executeTimeout : Option Nat
  settings : Settings
  altHosts : List Addr
deriving DecidableEq, Repr

/-- `Options::default`, /repo/src/types/options.rs:296-326. -/
def Options.default : Options where
  addr := ⟨"127.0.0.1", some 9000⟩
  database := "default"
  username := "default"
  password := ""
  compression := false
  poolMin := 10
  poolMax := 20
  nodelay := true
  keepalive := none
  pingBeforeQuery := true
  sendRetries := 3
  retryTimeout := 5000
  pingTimeout := 500
  connectionTimeout := 500
  queryTimeout := 180000
  insertTimeout := some 180000
  executeTimeout := some 180000
  settings := []
  altHosts := []

/-- `Options::with_setting`, /repo/src/types/options.rs:360-374. -/
def Options.withSetting (o : Options) (name : String) (v : SettingType) (important : Bool) : Options :=
  { o with settings := o.settings.insert name ⟨v, important⟩ }

/-! ### Parameter values -/

/-- Value of a hexadecimal digit (percent-encoding crate, `char::to_digit(16)`). -/
def hexVal (b : UInt8) : Option Nat :=
  let n := b.toNat
  if 48 ≤ n ∧ n ≤ 57 then some (n - 48)
  else if 65 ≤ n ∧ n ≤ 70 then some (n - 55)
  else if 97 ≤ n ∧ n ≤ 102 then some (n - 87)
  else none

/-- `percent_decode` of the percent-encoding crate (used at /repo/src/types/options.rs:592, 607, 612): a `%` followed by two
hexadecimal digits is the byte they denote, everything else stands for itself. -/
def percentDecode : Bytes → Bytes
  | [] => []
  | [a] => [a]
  | [a, b] => [a, b]
  | a :: b :: c :: rest =>
    if a = 37 then
      match hexVal b, hexVal c with
      | some x, some y => UInt8.ofNat (16 * x + y) :: percentDecode rest
      | _, _ => a :: percentDecode (b :: c :: rest)
    else a :: percentDecode (b :: c :: rest)
termination_by bs => bs.length

/-- The parts of the `url` crate and of the standard library that enter: parsing of a URL, and replacement of invalid UTF-8. -/
structure UrlParts where
  scheme : String
  cannotBeABase : Bool
  hasHost : Bool
  username : String
  password : Option String
  host : String
  port : Option Nat
  segments : Option (List String)
  query : List (String × String)

/-- Foreign functions: `Url::parse` and the lossy part of `decode_utf8_lossy`. -/
structure UrlLib where
  parse : String → Option UrlParts
  replaceInvalid : Bytes → String

/-- `percent_decode(s.as_bytes()).decode_utf8_lossy()`, /repo/src/types/options.rs:592, 607, 612: valid UTF-8 is kept as it is. -/
def decodeLossy (lib : UrlLib) (s : String) : String :=
  match strOfBytes? (percentDecode (strBytes s)) with
  | some t => t
  | none => lib.replaceInvalid (percentDecode (strBytes s))

/-- `parse_duration`, /repo/src/types/options.rs:633-650, in milliseconds. -/
def parseDuration (s : Str) : Option Nat :=
  let left := s.takeWhile isDigitC
  let right := s.dropWhile isDigitC
  match parseUnsigned (2 ^ 64) left with
  | none => none
  | some n => if right = ['s'] then some (n * 1000) else if right = ['m', 's'] then some n else none

/-- `parse_opt_duration`, /repo/src/types/options.rs:651-658. -/
def parseOptDuration (s : Str) : Option (Option Nat) :=
  if s = "none".toList then some none else (parseDuration s).map some

/-- `parse_compression`, /repo/src/types/options.rs:660-666. -/
def parseCompression (s : Str) : Option Bool :=
  if s = "none".toList then some false else if s = "lz4".toList then some true else none

/-- `bool::from_str` of the standard library. -/
def parseBool (s : Str) : Option Bool :=
  if s = "true".toList then some true else if s = "false".toList then some false else none

/-- `usize::from_str` of the standard library on a 64-bit platform. -/
def parseUsize (s : Str) : Option Nat := parseUnsigned (2 ^ 64) s

/-- `parse_hosts`, /repo/src/types/options.rs:668-677: each host is the URL `tcp://host`. -/
def parseHosts (lib : UrlLib) (s : Str) : Option (List Addr) :=
  (splitComma s).mapM fun h => (lib.parse (String.ofList ("tcp://".toList ++ h))).map fun u => ⟨u.host, u.port⟩

/-- Errors of /repo/src/errors/mod.rs:78-93 (`UrlError`). -/
inductive UrlErr where
  | invalid
  | invalidParam (param value : String)
  | unsupportedScheme (s : String)
  | parse
deriving DecidableEq, Repr

/-- `parse_param`, /repo/src/types/options.rs:584-601. -/
def parseParam (lib : UrlLib) (key value : String) (parse : Str → Option α) : Except UrlErr α :=
  match parse (decodeLossy lib value).toList with
  | some a => .ok a
  | none => .error (.invalidParam key value)

/-- The body of the loop of `set_params`, /repo/src/types/options.rs:541-578. -/
def setParam (lib : UrlLib) (o : Options) (key value : String) : Except UrlErr Options :=
  if key = "pool_min" then (parseParam lib key value parseUsize).map fun v => { o with poolMin := v }
  else if key = "pool_max" then (parseParam lib key value parseUsize).map fun v => { o with poolMax := v }
  else if key = "nodelay" then (parseParam lib key value parseBool).map fun v => { o with nodelay := v }
  else if key = "keepalive" then (parseParam lib key value parseOptDuration).map fun v => { o with keepalive := v }
  else if key = "ping_before_query" then (parseParam lib key value parseBool).map fun v => { o with pingBeforeQuery := v }
  else if key = "send_retries" then (parseParam lib key value parseUsize).map fun v => { o with sendRetries := v }
  else if key = "retry_timeout" then (parseParam lib key value parseDuration).map fun v => { o with retryTimeout := v }
  else if key = "ping_timeout" then (parseParam lib key value parseDuration).map fun v => { o with pingTimeout := v }
  else if key = "connection_timeout" then
    (parseParam lib key value parseDuration).map fun v => { o with connectionTimeout := v }
  else if key = "query_timeout" then (parseParam lib key value parseDuration).map fun v => { o with queryTimeout := v }
  else if key = "insert_timeout" then (parseParam lib key value parseOptDuration).map fun v => { o with insertTimeout := v }
  else if key = "execute_timeout" then (parseParam lib key value parseOptDuration).map fun v => { o with executeTimeout := v }
  else if key = "compression" then (parseParam lib key value parseCompression).map fun v => { o with compression := v }
  else if key = "alt_hosts" then (parseParam lib key value (parseHosts lib)).map fun v => { o with altHosts := v }
  else .ok { o with settings := o.settings.insert key ⟨.string value, true⟩ }

/-- `set_params`, /repo/src/types/options.rs:536-582. -/
def setParams (lib : UrlLib) : Options → List (String × String) → Except UrlErr Options
  | o, [] => .ok o
  | o, (k, v) :: rest =>
    match setParam lib o k v with
    | .ok o' => setParams lib o' rest
    | .error e => .error e

/-- `get_database_from_url`, /repo/src/types/options.rs:615-630. -/
def databaseOf (u : UrlParts) : Except UrlErr (Option String) :=
  match u.segments with
  | none => .ok none
  | some [] => .ok none
  | some [d] => .ok (if d = "" then none else some d)
  | some (_ :: _ :: _) => .error .invalid

/-- `from_url`, /repo/src/types/options.rs:495-534. `set_port` (line 524) fails only for a URL without host, which line 505 has refused. -/
def fromUrl (lib : UrlLib) (text : String) : Except UrlErr Options :=
  match lib.parse text with
  | none => .error .parse
  | some u =>
    if u.scheme ≠ "tcp" then .error (.unsupportedScheme u.scheme)
    else if u.cannotBeABase || !u.hasHost then .error .invalid
    else
      let o := Options.default
      let o := if u.username = "" then o else { o with username := decodeLossy lib u.username }
      let o := match u.password with
        | none => o
        | some p => { o with password := decodeLossy lib p }
      let o := { o with addr := ⟨u.host, some (u.port.getD 9000)⟩ }
      match databaseOf u with
      | .error e => .error e
      | .ok d =>
        let o := match d with
          | none => o
          | some d => { o with database := d }
        setParams lib o u.query

end CH
