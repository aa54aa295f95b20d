import Verif.Model.Options

/-!
What is written to the log when a connection is opened (level `info`). Foreign: the texts that the url crate and the standard library
give to URLs, strings and numbers; they are modelled as documented there, or left to a parameter (`LogLib`).
-/

namespace CH

/-- The address kept in the options, `addr` in `from_url`, /repo/src/types/options.rs:519-525: the parsed URL with empty path and no
query, its port filled in. User name and password stay in it, as they are written in the URL. (`Options.addr` of `Model/Options` keeps
host and port only.) -/
structure AddrUrl where
  username : String
  password : Option String
  host : String
  port : Nat

/-- /repo/src/types/options.rs:519-525. -/
def addrUrl (u : UrlParts) : AddrUrl := ⟨u.username, u.password, u.host, u.port.getD 9000⟩

/-- The credentials in the text of a URL: nothing, `user@`, or `user:password@` (url crate, `Url::as_str`; the parser drops an empty
password). -/
def AddrUrl.userinfo (a : AddrUrl) : Str :=
  match a.password with
  | some p => if p = "" then (if a.username = "" then [] else a.username.toList ++ ['@']) else a.username.toList ++ ':' :: (p.toList ++ ['@'])
  | none => if a.username = "" then [] else a.username.toList ++ ['@']

/-- `Display` of the address (url crate). -/
def AddrUrl.text (a : AddrUrl) : Str := "tcp://".toList ++ (a.userinfo ++ (a.host.toList ++ ':' :: natChars a.port))

/-- Foreign: `Debug` of strings and of hosts, and the texts of the fields of the options after `addr`. -/
structure LogLib where
  quote : String → Str
  host : String → Str
  fields : Options → Str

/-- `Debug` of the address (url crate): among the fields user name and password. -/
def AddrUrl.debug (l : LogLib) (a : AddrUrl) : Str :=
  "Url { scheme: \"tcp\", cannot_be_a_base: false, username: ".toList ++ l.quote a.username ++ ", password: ".toList ++
    (match a.password with
     | some p => "Some(".toList ++ l.quote p ++ ")".toList
     | none => "None".toList) ++ ", host: ".toList ++ l.host a.host ++ ", port: Some(".toList ++ natChars a.port ++
    "), path: \"\", query: None, fragment: None }".toList

/-- The options with what `Debug` does not show blanked: `impl fmt::Debug for Options`, /repo/src/types/options.rs:275-294, lists no user
name, no password and none of the three timeouts of queries. -/
def Options.shown (o : Options) : Options :=
  { o with username := "", password := "", queryTimeout := 0, insertTimeout := none, executeTimeout := none }

/-- `Debug` of the options, /repo/src/types/options.rs:275-294. -/
def Options.debug (l : LogLib) (a : AddrUrl) (o : Options) : Str :=
  "Options { addr: ".toList ++ a.debug l ++ l.fields o.shown ++ " }".toList

/-- `Debug` of the context, /repo/src/types/mod.rs:126-133, with `Debug` of the source of the options, /repo/src/types/options.rs:32-40,
once they have been read from the URL (`get` was called at /repo/src/lib.rs:261). -/
def contextDebug (l : LogLib) (a : AddrUrl) (o : Options) (hostname : String) : Str :=
  "Context { options: ".toList ++ o.debug l a ++ ", hostname: ".toList ++ l.quote hostname ++ " }".toList

/-- `Debug` of the source before the options have been read from the URL, /repo/src/types/options.rs:36. -/
def sourceDebug (url : String) : Str := "Url(".toList ++ url.toList ++ ")".toList

/-- The lines logged when a connection to `target` is opened, /repo/src/lib.rs:277 and 307, with options `o` whose address is `a`. The
target is the address of the options or one of the alternative hosts. -/
def openLog (l : LogLib) (target a : AddrUrl) (o : Options) (hostname : String) : List Str :=
  ["try to connect to ".toList ++ target.text, "[hello] -> ".toList ++ contextDebug l a o hostname]

/-- The lines logged when a connection is opened with the options of a URL and no pool, /repo/src/lib.rs:255-307. -/
def openUrlLog (lib : UrlLib) (l : LogLib) (text hostname : String) : List Str :=
  match lib.parse text, fromUrl lib text with
  | some u, .ok o => openLog l (addrUrl u) (addrUrl u) o hostname
  | _, _ => []

end CH
