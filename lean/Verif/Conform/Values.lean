import Verif.Model.Options
import Verif.Model.Show
import Verif.Model.Into
import Verif.Model.Float
import Verif.Model.Value

/-!
The project's own unit tests, read as statements about the model: options, conversions and texts of values. Each `example` is one
test or one assertion of it. They are tests of the model's fidelity, not claims.
-/

namespace CH.Conform
open CH

/-! Options, /repo/src/types/options.rs:683-905. The parts of each URL are written out; taking them apart is the `url` crate's work. -/

/-- The parts of a URL `tcp://…` with host, port, path and query. -/
def parts (user : String) (password : Option String) (host : String) (port : Option Nat) (path : List String)
    (query : List (String × String)) : UrlParts :=
  ⟨"tcp", false, true, user, password, host, port, some path, query⟩

/-- A `url` crate that knows the URLs of the tests. -/
def urls : UrlLib where
  parse s :=
    if s = "tcp://host1" then some ⟨"tcp", false, true, "", none, "host1", none, none, []⟩
    else if s = "tcp://host2:9000" then some ⟨"tcp", false, true, "", none, "host2", some 9000, none, []⟩
    else if s = "tcp://host3:9000" then some ⟨"tcp", false, true, "", none, "host3", some 9000, none, []⟩
    else if s = "tcp://localhost:9000" then some ⟨"tcp", false, true, "", none, "localhost", some 9000, none, []⟩
    else if s = "tcp://localhost:9000/foo?bar=baz" then some (parts "" none "localhost" (some 9000) ["foo"] [("bar", "baz")])
    else if s = "tcp://localhost:9000/foo/bar" then some (parts "" none "localhost" (some 9000) ["foo", "bar"] [])
    else if s = "plain" then some (parts "username" (some "password") "host1" (some 9001) ["database"]
      [("ping_timeout", "42ms"), ("keepalive", "99s"), ("compression", "lz4"), ("connection_timeout", "10s")])
    else if s = "encoded" then some (parts "user%20%3Cbar%3E" (some "password%20%3Cbar%3E") "host1" (some 9001) ["database"]
      [("ping_timeout", "42ms"), ("keepalive", "99s"), ("compression", "lz4"), ("connection_timeout", "10s")])
    else none
  replaceInvalid _ := ""

/-- A result of `from_url` that went well, seen through a function. -/
def seen (r : Except UrlErr Options) (f : Options → α) : Option α :=
  match r with
  | .ok o => some (f o)
  | .error _ => none

-- test_parse_hosts
example : parseHosts urls "host2:9000,host3:9000".toList = some [⟨"host2", some 9000⟩, ⟨"host3", some 9000⟩] := by decide +kernel

-- test_parse_default
example : seen (fromUrl urls "tcp://host1") (fun o => (o.database, o.username, o.password)) =
    some ("default", "default", "") := by decide +kernel

-- test_parse_options
example : seen (fromUrl urls "plain") id = some { Options.default with
    username := "username", password := "password", addr := ⟨"host1", some 9001⟩, database := "database",
    keepalive := some 99000, pingTimeout := 42, connectionTimeout := 10000, compression := true } := by decide +kernel

-- test_parse_encoded_creds
example : seen (fromUrl urls "encoded") id = some { Options.default with
    username := "user <bar>", password := "password <bar>", addr := ⟨"host1", some 9001⟩, database := "database",
    keepalive := some 99000, pingTimeout := 42, connectionTimeout := 10000, compression := true } := by decide +kernel

-- test_parse_invalid_url, test_parse_with_multi_databases
example : seen (fromUrl urls "ʘ_ʘ") id = none := by decide +kernel
example : seen (fromUrl urls "tcp://localhost:9000/foo/bar") id = none := by decide +kernel

-- test_parse_with_unknown_setting
example : seen (fromUrl urls "tcp://localhost:9000/foo?bar=baz") id = some { Options.default with
    addr := ⟨"localhost", some 9000⟩, database := "foo", settings := [("bar", ⟨.string "baz", true⟩)] } := by decide +kernel

-- test_with_setting
example : ∀ v important, (Options.default.withSetting "foo" v important).settings = [("foo", ⟨v, important⟩)] := fun _ _ => rfl

-- test_parse_duration, test_parse_opt_duration, test_parse_compression
example : parseDuration "3s".toList = some 3000 ∧ parseDuration "123ms".toList = some 123 ∧
    parseDuration "ms".toList = none ∧ parseDuration "1ss".toList = none := by decide +kernel
example : parseOptDuration "3s".toList = some (some 3000) ∧ parseOptDuration "none".toList = some none := by decide +kernel
example : parseCompression "none".toList = some false ∧ parseCompression "lz4".toList = some true ∧
    parseCompression "?".toList = none := by decide +kernel

/-! Conversions, /repo/src/types/value.rs:640-853; that numbers come back is in C75 for all of them. -/

/-- The text of a `TextLib`; its fields hold what `std` and `chrono` say for the values of the tests. -/
def texts : TextLib where
  f32 raw := if raw = 0x42280000 then "42".toList else []
  f64 raw := if raw = 0x4045000000000000 then "42".toList else []
  ip6 _ := []
  day d := if d = 0 then "1970-01-01".toList else if d = 17096 then "2016-10-22".toList else []
  rfc2822 s _ _ := if s = 0 then "Thu, 1 Jan 1970 00:00:00 +0000".toList else []
  stamp s _ _ := if s = 0 then "1970-01-01 00:00:00".toList else if s = 1477137600 then "2016-10-22 12:00:00".toList else []
  full _ _ _ := []

-- test_string, test_string_from, test_into_string, test_into_vec, test_from_u32
example : (match toValue .text "284222f9-aba2-4b05-bcf5-e4e727fe34d1" with
    | .ok v => (match takeOut .text v with
      | .ok (.text s) => s == "284222f9-aba2-4b05-bcf5-e4e727fe34d1"
      | _ => false)
    | _ => false) = true := by decide +kernel
example : takeOut .bytes (.str [1, 2, 3]) = .ok (.bytes [1, 2, 3]) := rfl
example : takeOut (.num .u32) (.num .u32 32) = .ok (.num 32) := rfl

-- test_from_datetime_utc (2014-07-08 14:00:00), test_from_date (2016-10-22), test_boolean
example : toValue .utc ((1404828000 : Int), (0 : Nat)) = .ok (.datetime 1404828000 "UTC".toList) := rfl
example : toValue .date (17096 : Int) = .ok (.date 17096) := rfl
example : toValue .time ((1404828000 : Int), (0 : Nat), "UTC".toList) = .ok (.chrono 1404828000 0 "UTC".toList) := rfl
example : toValue (.num .bool) (0 : Nat) = .ok (.num .bool 0) ∧ toValue (.num .bool) (1 : Nat) = .ok (.num .bool 1) := ⟨rfl, rfl⟩

-- test_from_some (3.1 as f64 is 0x4008cccccccccccd; 2019-01-01 is second 1546300800)
example : toValue (.opt (.num .u32)) (some (1 : Nat)) = .ok (.some (.num .u32 1)) := rfl
example : toValue (.opt .text) (some "text") = .ok (.some (.str (strBytes "text"))) := rfl
example : toValue (.opt (.num .f64)) (some (0x4008cccccccccccd : Nat)) = .ok (.some (.num .f64 0x4008cccccccccccd)) := rfl
example : toValue (.opt .time) (some ((1546300800 : Int), (0 : Nat), "UTC".toList)) =
    .ok (.some (.chrono 1546300800 0 "UTC".toList)) := rfl

-- test_default_fixed_str
example : ∀ n < 64, (match Value.default (.fixedString n) with
    | .str b => b == List.replicate n 0
    | _ => false) = true := by decide +kernel

/-! Texts: `test_display`, value.rs and value_ref.rs, `test_uuid`, both, `test_create_date_time`, column/date.rs. -/

example : ∀ t ∈ [NumTy.u8, .u16, .u32, .u64, .u128, .i8, .i16, .i32, .i64, .i128],
    ownText texts false (.num t 42) = .ok "42".toList ∧ refText texts false (.num t 42) = .ok "42".toList := by decide +kernel
example : refText texts false (.num .f32 0x42280000) = .ok "42".toList ∧
    refText texts false (.num .f64 0x4045000000000000) = .ok "42".toList := by decide +kernel
example : ownText texts false (.str (strBytes "text")) = .ok "text".toList ∧
    refText texts false (.str (strBytes "text")) = .ok "text".toList := by decide +kernel
example : ownText texts false (.str [1, 2, 3]) = .ok [Char.ofNat 1, Char.ofNat 2, Char.ofNat 3] := by decide +kernel
example : refText texts false (.str [0, 159, 146, 150]) = .ok "[0, 159, 146, 150]".toList := by decide +kernel
example : ownText texts false (.null (.num .u8)) = .ok "NULL".toList ∧
    refText texts false (.null (.num .u8)) = .ok "NULL".toList := by decide +kernel
example : ownText texts false (.some (.num .u8 42)) = .ok "42".toList ∧
    refText texts false (.some (.num .u8 42)) = .ok "42".toList := by decide +kernel
example : ownText texts false (.array (.num .i32) [.num .i32 1, .num .i32 2, .num .i32 3]) = .ok "[1, 2, 3]".toList ∧
    refText texts false (.array (.num .i32) [.num .i32 1, .num .i32 2, .num .i32 3]) = .ok "[1, 2, 3]".toList := by decide +kernel
example : refText texts false (.date 0) = .ok "1970-01-01".toList ∧ refText texts true (.date 0) = .ok "1970-01-01".toList := by
  decide +kernel
example : refText texts false (.datetime 0 defaultTz) = .ok "1970-01-01 00:00:00".toList ∧
    refText texts true (.datetime 0 defaultTz) = .ok "Thu, 1 Jan 1970 00:00:00 +0000".toList := by decide +kernel
example : (do refText texts false (.decimal (← Decimal.ofFlt 53 (.fin 2 0) 2))) = .ok "2.00".toList := by decide +kernel

/-- The bytes of 936da01f-9abd-4d9d-80c7-02af85c822a8. -/
def uuidBytes : Bytes := [0x93, 0x6d, 0xa0, 0x1f, 0x9a, 0xbd, 0x4d, 0x9d, 0x80, 0xc7, 0x02, 0xaf, 0x85, 0xc8, 0x22, 0xa8]

example : (do ownText texts false (← toValue .uuid uuidBytes)) = .ok "936da01f-9abd-4d9d-80c7-02af85c822a8".toList := by
  decide +kernel
example : refText texts false (.ip .uuid ((uuidBytes.take 8).reverse ++ (uuidBytes.drop 8).reverse)) =
    .ok "936da01f-9abd-4d9d-80c7-02af85c822a8".toList := by decide +kernel
example : (do
    let c ← colOf .time [((1477137600 : Int), (0 : Nat), defaultTz)]
    refText texts false (← c.at 0)) = .ok "2016-10-22 12:00:00".toList := by decide +kernel

/-! `test_value_from_ref`, `test_get_sql_type`, /repo/src/types/value_ref.rs. -/

example : ∀ t n, toOwned (.num t n) = .ok (.num t n) := fun _ _ => rfl
example : toOwned (.date 42) = .ok (.date 42) ∧ toOwned (.datetime 42 defaultTz) = .ok (.datetime 42 defaultTz) := ⟨rfl, rfl⟩
example : ∀ d, toOwned (.decimal d) = .ok (.decimal d) := fun _ => rfl
example : toOwned (.array (.num .i32) [.num .i32 1, .num .i32 2, .num .i32 3]) =
    .ok (.array (.num .i32) [.num .i32 1, .num .i32 2, .num .i32 3]) := rfl
example : ∀ t, (Value.num t 42).sqlType = .num t := fun _ => rfl
example : (Value.str []).sqlType = .string ∧ (Value.date 42).sqlType = .date ∧ (Value.datetime 42 defaultTz).sqlType = .datetime :=
  ⟨rfl, rfl, rfl⟩
example : (do pure (Value.decimal (← Decimal.ofFlt 53 (.fin 2 0) 4)).sqlType : Out SqlType) = .ok (.decimal 18 4) := by decide +kernel
example : (Value.array (.num .i32) [.num .i32 1, .num .i32 2, .num .i32 3]).sqlType = .array (.num .i32) ∧
    (Value.null (.num .u8)).sqlType = .nullable (.num .u8) ∧ (Value.some (.num .i8 42)).sqlType = .nullable (.num .i8) :=
  ⟨rfl, rfl, rfl⟩

end CH.Conform
