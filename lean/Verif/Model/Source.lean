import Verif.Model.Pool

/-!
# Where the options come from

`OptionsSource` and the methods that build `Options`, /repo/src/types/options.rs:22-94 and 328-480, and what `Pool::new` makes of
a source, /repo/src/pool/mod.rs:132-176.
-/

namespace CH

/-- `State` inside an `OptionsSource`, /repo/src/types/options.rs:22-30: the text of a URL, or options. The mutex makes every call
of `get` a single step of whoever holds the lock, so a source is its state; clones share it. -/
inductive OptSource where
  | url (text : String)
  | raw (o : Options)
deriving DecidableEq, Repr

/-- `IntoOptions` for `Options`, /repo/src/types/options.rs:73-79. -/
def OptSource.ofOptions (o : Options) : OptSource := .raw o

/-- `IntoOptions` for `&str` and `String`, /repo/src/types/options.rs:81-95. -/
def OptSource.ofText (text : String) : OptSource := .url text

/-- `OptionsSource::default`, /repo/src/types/options.rs:61-67. -/
def OptSource.default : OptSource := .raw Options.default

/-- `OptionsSource::get`, /repo/src/types/options.rs:43-58: what it answers and the state it leaves. A URL that cannot be read
leaves the function at the `?`, before the assignment. The reference it answers points into the state. -/
def OptSource.get (lib : UrlLib) : OptSource → Except UrlErr Options × OptSource
  | .raw o => (.ok o, .raw o)
  | .url text =>
    match fromUrl lib text with
    | .error e => (.error e, .url text)
    | .ok o => (.ok o, .raw o)

/-- `Options::new`, /repo/src/types/options.rs:350-358. -/
def Options.new (addr : Addr) : Options := { Options.default with addr := addr }

/-- The methods that change one option, /repo/src/types/options.rs:360-473, with their arguments. Those of the feature `tls`
(lines 450-463) are left out. Durations are in milliseconds. -/
inductive Setter where
  | setting (name : String) (v : SettingType) (important : Bool)
  | database (s : String)
  | username (s : String)
  | password (s : String)
  | compression
  | poolMin (n : Nat)
  | poolMax (n : Nat)
  | nodelay (b : Bool)
  | keepalive (d : Option Nat)
  | pingBeforeQuery (b : Bool)
  | sendRetries (n : Nat)
  | retryTimeout (d : Nat)
  | pingTimeout (d : Nat)
  | connectionTimeout (d : Nat)
  | queryTimeout (d : Nat)
  | insertTimeout (d : Option Nat)
  | executeTimeout (d : Option Nat)
  | settings (s : Settings)
  | altHosts (as : List Addr)

/-- The methods themselves: `with_setting` (/repo/src/types/options.rs:360-374), `with_compression` (391-396), and those made by
the macro `property!` (328-347). -/
def Setter.apply (o : Options) : Setter → Options
  | .setting n v i => o.withSetting n v i
  | .database s => { o with database := s }
  | .username s => { o with username := s }
  | .password s => { o with password := s }
  | .compression => { o with compression := true }
  | .poolMin n => { o with poolMin := n }
  | .poolMax n => { o with poolMax := n }
  | .nodelay b => { o with nodelay := b }
  | .keepalive d => { o with keepalive := d }
  | .pingBeforeQuery b => { o with pingBeforeQuery := b }
  | .sendRetries n => { o with sendRetries := n }
  | .retryTimeout d => { o with retryTimeout := d }
  | .pingTimeout d => { o with pingTimeout := d }
  | .connectionTimeout d => { o with connectionTimeout := d }
  | .queryTimeout d => { o with queryTimeout := d }
  | .insertTimeout d => { o with insertTimeout := d }
  | .executeTimeout d => { o with executeTimeout := d }
  | .settings s => { o with settings := s }
  | .altHosts as => { o with altHosts := as }

/-- A chain of such calls, as in `Options::new(url).pool_min(3).with_compression()`. -/
def Options.chain (o : Options) (l : List Setter) : Options := l.foldl Setter.apply o

/-- `Pool::new`, /repo/src/pool/mod.rs:132-176: the limits and hosts of the pool and the source it keeps. `ArrayQueue::new`
(line 163) panics if its capacity is zero. -/
def makePool (lib : UrlLib) (src : OptSource) : Out (Pool.Cfg × OptSource) :=
  match src.get lib with
  | (.ok o, src') => if o.poolMax = 0 then .panic else .ok (Pool.Cfg.new (some o), src')
  | (.error _, src') => .ok (Pool.Cfg.new none, src')

end CH
