import Verif.Lemmas.Options
import Verif.Lemmas.Wire
import Verif.Lemmas.Column

/-! Properties C35, C36, C37, C58: quoting, URL parameters, durations, timeouts. -/

namespace CH.Props
open CH CH.Spec

/-! ### C37 -/

/-- C37. A duration is accepted exactly if it is decimal digits followed by `s` or `ms` with a number fitting 64 bits, and means
that many seconds or milliseconds. -/
theorem C37_duration (s : Str) (ms : Nat) : parseDuration s = some ms ↔ IsDuration s ms := parseDuration_iff s ms

example : IsDuration "42ms".toList 42 ∧ IsDuration "007s".toList 7000 :=
  ⟨(C37_duration _ _).mp (by decide), (C37_duration _ _).mp (by decide)⟩

/-- C37. An optional duration is `none` or a duration. -/
theorem C37_optional_duration (s : Str) (d : Option Nat) : parseOptDuration s = some d ↔ IsOptDuration s d :=
  parseOptDuration_iff s d

example : IsOptDuration "none".toList none ∧ IsOptDuration "3s".toList (some 3000) :=
  ⟨(C37_optional_duration _ _).mp (by decide), (C37_optional_duration _ _).mp (by decide)⟩

/-- C37. The texts meaning durations mean only one. -/
theorem C37_duration_unique (s : Str) (a b : Nat) (ha : IsDuration s a) (hb : IsDuration s b) : a = b := by
  have h1 := (C37_duration s a).mpr ha
  rw [(C37_duration s b).mpr hb] at h1
  simpa using h1.symm

/-- C37. Booleans, compression methods, numbers and host lists. -/
theorem C37_other_values (lib : UrlLib) (s : Str) :
    (∀ b, parseBool s = some b ↔ IsBool s b) ∧ (∀ b, parseCompression s = some b ↔ IsCompression s b) ∧
    (∀ n, parseUsize s = some n ↔ IsUsize s n) ∧ (∀ as, parseHosts lib s = some as ↔ IsHosts lib s as) :=
  ⟨parseBool_iff s, parseCompression_iff s, parseUsize_iff s, parseHosts_iff lib s⟩

example : IsBool "true".toList true ∧ IsCompression "lz4".toList true ∧ IsUsize "+10".toList 10 :=
  ⟨(parseBool_iff _ _).mp (by decide), (parseCompression_iff _ _).mp (by decide), (parseUsize_iff _ _).mp (by decide)⟩

/-! ### C36 -/

theorem parseParam_ok {lib : UrlLib} {key value : String} {p : Str → Option α} {f : α → Options} {o : Options}
    (h : (parseParam lib key value p).map f = .ok o) : ∃ a, p (decodeLossy lib value).toList = some a ∧ o = f a := by
  rw [parseParam] at h
  cases hp : p (decodeLossy lib value).toList with
  | none => simp [hp, Except.map] at h
  | some a => simp [hp, Except.map] at h; exact ⟨a, rfl, h.symm⟩

/-- The option with this parameter name is the one given by the last occurrence of the parameter, or unchanged. -/
def Takes (lib : UrlLib) (ps : List (String × String)) (key : String) (means : Str → α → Prop) (old new : α) : Prop :=
  match lastOf key ps with
  | none => new = old
  | some v => means (decodeLossy lib v).toList new

/-- All recognised options are as the parameters say, the others are unchanged, other parameters are server settings. -/
structure Applied (lib : UrlLib) (ps : List (String × String)) (o o' : Options) : Prop where
  poolMin : Takes lib ps "pool_min" IsUsize o.poolMin o'.poolMin
  poolMax : Takes lib ps "pool_max" IsUsize o.poolMax o'.poolMax
  nodelay : Takes lib ps "nodelay" IsBool o.nodelay o'.nodelay
  keepalive : Takes lib ps "keepalive" IsOptDuration o.keepalive o'.keepalive
  ping : Takes lib ps "ping_before_query" IsBool o.pingBeforeQuery o'.pingBeforeQuery
  retries : Takes lib ps "send_retries" IsUsize o.sendRetries o'.sendRetries
  retryTimeout : Takes lib ps "retry_timeout" IsDuration o.retryTimeout o'.retryTimeout
  pingTimeout : Takes lib ps "ping_timeout" IsDuration o.pingTimeout o'.pingTimeout
  connectionTimeout : Takes lib ps "connection_timeout" IsDuration o.connectionTimeout o'.connectionTimeout
  queryTimeout : Takes lib ps "query_timeout" IsDuration o.queryTimeout o'.queryTimeout
  insertTimeout : Takes lib ps "insert_timeout" IsOptDuration o.insertTimeout o'.insertTimeout
  executeTimeout : Takes lib ps "execute_timeout" IsOptDuration o.executeTimeout o'.executeTimeout
  compression : Takes lib ps "compression" IsCompression o.compression o'.compression
  altHosts : Takes lib ps "alt_hosts" (IsHosts lib) o.altHosts o'.altHosts
  same : o'.addr = o.addr ∧ o'.database = o.database ∧ o'.username = o.username ∧ o'.password = o.password
  settings : ∀ k, o'.settings.lookup k =
    if k ∈ recognised then o.settings.lookup k
    else match lastOf k ps with
      | none => o.settings.lookup k
      | some v => some ⟨.string v, true⟩

theorem lookup_insert (s : Settings) (k k' : String) (v : SettingValue) :
    (s.insert k v).lookup k' = if k' = k then some v else s.lookup k' := by
  induction s with
  | nil =>
    by_cases h : k' = k
    · simp [Settings.insert, List.lookup, h]
    · have : (k' == k) = false := by simpa using h
      simp [Settings.insert, List.lookup, h, this]
  | cons x s ih =>
    obtain ⟨a, b⟩ := x
    rw [Settings.insert]
    by_cases ha : a = k
    · subst ha
      by_cases h : k' = a
      · subst h; simp [List.lookup]
      · have : (k' == a) = false := by simpa using h
        simp [List.lookup, h, this]
    · rw [if_neg ha]
      by_cases h : k' = a
      · subst h; simp [List.lookup, ha]
      · have : (k' == a) = false := by simpa using h
        simp only [List.lookup, this, ih]

theorem lastOf_nil (key : String) : lastOf key [] = none := rfl

theorem lastOf_cons (key k v : String) (ps : List (String × String)) :
    lastOf key ((k, v) :: ps) = (lastOf key ps).or (if k = key then some v else none) := by
  simp only [lastOf, List.filter_cons]
  by_cases h : k = key
  · simp only [h, decide_true, if_true, List.map_cons, List.getLast?_cons]
    cases ((ps.filter fun p => p.1 = key).map Prod.snd).getLast? <;> simp
  · simp [h]

theorem Takes.step {lib : UrlLib} {ps : List (String × String)} {k v key : String} {means : Str → α → Prop} {a b c : α}
    (h1 : Takes lib [(k, v)] key means a b) (h2 : Takes lib ps key means b c) : Takes lib ((k, v) :: ps) key means a c := by
  rw [Takes] at *
  rw [lastOf_cons] at h1 ⊢
  rw [lastOf_nil, Option.none_or] at h1
  cases hl : lastOf key ps with
  | some w => rw [hl] at h2; exact h2
  | none =>
    rw [hl] at h2
    simp only [Option.none_or]
    subst h2
    exact h1

theorem takes_one (lib : UrlLib) (k v key : String) (means : Str → α → Prop) (a b : α) :
    Takes lib [(k, v)] key means a b ↔ if k = key then means (decodeLossy lib v).toList b else b = a := by
  rw [Takes, lastOf_cons, lastOf_nil, Option.none_or]
  by_cases h : k = key <;> simp [h]

/-! One equation of `setParam` per recognised name. -/

theorem setParam_poolMin (lib : UrlLib) (o : Options) (v : String) : setParam lib o "pool_min" v =
    (parseParam lib "pool_min" v parseUsize).map fun x => { o with poolMin := x } := rfl
theorem setParam_poolMax (lib : UrlLib) (o : Options) (v : String) : setParam lib o "pool_max" v =
    (parseParam lib "pool_max" v parseUsize).map fun x => { o with poolMax := x } := rfl
theorem setParam_nodelay (lib : UrlLib) (o : Options) (v : String) : setParam lib o "nodelay" v =
    (parseParam lib "nodelay" v parseBool).map fun x => { o with nodelay := x } := rfl
theorem setParam_keepalive (lib : UrlLib) (o : Options) (v : String) : setParam lib o "keepalive" v =
    (parseParam lib "keepalive" v parseOptDuration).map fun x => { o with keepalive := x } := rfl
theorem setParam_pingBeforeQuery (lib : UrlLib) (o : Options) (v : String) : setParam lib o "ping_before_query" v =
    (parseParam lib "ping_before_query" v parseBool).map fun x => { o with pingBeforeQuery := x } := rfl
theorem setParam_sendRetries (lib : UrlLib) (o : Options) (v : String) : setParam lib o "send_retries" v =
    (parseParam lib "send_retries" v parseUsize).map fun x => { o with sendRetries := x } := rfl
theorem setParam_retryTimeout (lib : UrlLib) (o : Options) (v : String) : setParam lib o "retry_timeout" v =
    (parseParam lib "retry_timeout" v parseDuration).map fun x => { o with retryTimeout := x } := rfl
theorem setParam_pingTimeout (lib : UrlLib) (o : Options) (v : String) : setParam lib o "ping_timeout" v =
    (parseParam lib "ping_timeout" v parseDuration).map fun x => { o with pingTimeout := x } := rfl
theorem setParam_connectionTimeout (lib : UrlLib) (o : Options) (v : String) : setParam lib o "connection_timeout" v =
    (parseParam lib "connection_timeout" v parseDuration).map fun x => { o with connectionTimeout := x } := rfl
theorem setParam_queryTimeout (lib : UrlLib) (o : Options) (v : String) : setParam lib o "query_timeout" v =
    (parseParam lib "query_timeout" v parseDuration).map fun x => { o with queryTimeout := x } := rfl
theorem setParam_insertTimeout (lib : UrlLib) (o : Options) (v : String) : setParam lib o "insert_timeout" v =
    (parseParam lib "insert_timeout" v parseOptDuration).map fun x => { o with insertTimeout := x } := rfl
theorem setParam_executeTimeout (lib : UrlLib) (o : Options) (v : String) : setParam lib o "execute_timeout" v =
    (parseParam lib "execute_timeout" v parseOptDuration).map fun x => { o with executeTimeout := x } := rfl
theorem setParam_compression (lib : UrlLib) (o : Options) (v : String) : setParam lib o "compression" v =
    (parseParam lib "compression" v parseCompression).map fun x => { o with compression := x } := rfl
theorem setParam_altHosts (lib : UrlLib) (o : Options) (v : String) : setParam lib o "alt_hosts" v =
    (parseParam lib "alt_hosts" v (parseHosts lib)).map fun x => { o with altHosts := x } := rfl
theorem setParam_other (lib : UrlLib) (o : Options) (k v : String) (h : k ∉ recognised) :
    setParam lib o k v = .ok { o with settings := o.settings.insert k ⟨.string v, true⟩ } := by
  simp only [recognised, List.mem_cons, List.not_mem_nil, or_false, not_or] at h
  obtain ⟨n1, n2, n3, n4, n5, n6, n7, n8, n9, n10, n11, n12, n13, n14⟩ := h
  rw [setParam, if_neg n1, if_neg n2, if_neg n3, if_neg n4, if_neg n5, if_neg n6, if_neg n7, if_neg n8, if_neg n9, if_neg n10, if_neg n11, if_neg n12, if_neg n13, if_neg n14]

theorem setParam_applied {lib : UrlLib} {o o' : Options} {k v : String} (h : setParam lib o k v = .ok o') :
    Applied lib [(k, v)] o o' := by
  have hset : ∀ k' : String, lastOf k' [(k, v)] = if k = k' then some v else none := by
    intro k'; rw [lastOf_cons, lastOf_nil, Option.none_or]
  have hkeep : ∀ s : Settings, k ∈ recognised → ∀ k' : String, s.lookup k' = if k' ∈ recognised then s.lookup k' else
      match lastOf k' [(k, v)] with
      | none => s.lookup k'
      | some v => some ⟨.string v, true⟩ := by
    intro s hk k'
    by_cases hr : k' ∈ recognised
    · simp [hr]
    · have : k ≠ k' := fun e => hr (e ▸ hk)
      simp [hr, hset, this]
  by_cases hr : k ∈ recognised
  · have hkeep := fun s => hkeep s hr
    simp only [recognised, List.mem_cons, List.not_mem_nil, or_false] at hr
    rcases hr with rfl | rfl | rfl | rfl | rfl | rfl | rfl | rfl | rfl | rfl | rfl | rfl | rfl | rfl
    · rw [setParam_poolMin] at h
      obtain ⟨a, ha, rfl⟩ := parseParam_ok h
      refine ⟨?_, ?_, ?_, ?_, ?_, ?_, ?_, ?_, ?_, ?_, ?_, ?_, ?_, ?_, ⟨rfl, rfl, rfl, rfl⟩, hkeep _⟩ <;> rw [takes_one]
      · rw [if_pos rfl]; exact (parseUsize_iff _ _).mp ha
      · rw [if_neg (by decide)]
      · rw [if_neg (by decide)]
      · rw [if_neg (by decide)]
      · rw [if_neg (by decide)]
      · rw [if_neg (by decide)]
      · rw [if_neg (by decide)]
      · rw [if_neg (by decide)]
      · rw [if_neg (by decide)]
      · rw [if_neg (by decide)]
      · rw [if_neg (by decide)]
      · rw [if_neg (by decide)]
      · rw [if_neg (by decide)]
      · rw [if_neg (by decide)]
    · rw [setParam_poolMax] at h
      obtain ⟨a, ha, rfl⟩ := parseParam_ok h
      refine ⟨?_, ?_, ?_, ?_, ?_, ?_, ?_, ?_, ?_, ?_, ?_, ?_, ?_, ?_, ⟨rfl, rfl, rfl, rfl⟩, hkeep _⟩ <;> rw [takes_one]
      · rw [if_neg (by decide)]
      · rw [if_pos rfl]; exact (parseUsize_iff _ _).mp ha
      · rw [if_neg (by decide)]
      · rw [if_neg (by decide)]
      · rw [if_neg (by decide)]
      · rw [if_neg (by decide)]
      · rw [if_neg (by decide)]
      · rw [if_neg (by decide)]
      · rw [if_neg (by decide)]
      · rw [if_neg (by decide)]
      · rw [if_neg (by decide)]
      · rw [if_neg (by decide)]
      · rw [if_neg (by decide)]
      · rw [if_neg (by decide)]
    · rw [setParam_nodelay] at h
      obtain ⟨a, ha, rfl⟩ := parseParam_ok h
      refine ⟨?_, ?_, ?_, ?_, ?_, ?_, ?_, ?_, ?_, ?_, ?_, ?_, ?_, ?_, ⟨rfl, rfl, rfl, rfl⟩, hkeep _⟩ <;> rw [takes_one]
      · rw [if_neg (by decide)]
      · rw [if_neg (by decide)]
      · rw [if_pos rfl]; exact (parseBool_iff _ _).mp ha
      · rw [if_neg (by decide)]
      · rw [if_neg (by decide)]
      · rw [if_neg (by decide)]
      · rw [if_neg (by decide)]
      · rw [if_neg (by decide)]
      · rw [if_neg (by decide)]
      · rw [if_neg (by decide)]
      · rw [if_neg (by decide)]
      · rw [if_neg (by decide)]
      · rw [if_neg (by decide)]
      · rw [if_neg (by decide)]
    · rw [setParam_keepalive] at h
      obtain ⟨a, ha, rfl⟩ := parseParam_ok h
      refine ⟨?_, ?_, ?_, ?_, ?_, ?_, ?_, ?_, ?_, ?_, ?_, ?_, ?_, ?_, ⟨rfl, rfl, rfl, rfl⟩, hkeep _⟩ <;> rw [takes_one]
      · rw [if_neg (by decide)]
      · rw [if_neg (by decide)]
      · rw [if_neg (by decide)]
      · rw [if_pos rfl]; exact (parseOptDuration_iff _ _).mp ha
      · rw [if_neg (by decide)]
      · rw [if_neg (by decide)]
      · rw [if_neg (by decide)]
      · rw [if_neg (by decide)]
      · rw [if_neg (by decide)]
      · rw [if_neg (by decide)]
      · rw [if_neg (by decide)]
      · rw [if_neg (by decide)]
      · rw [if_neg (by decide)]
      · rw [if_neg (by decide)]
    · rw [setParam_pingBeforeQuery] at h
      obtain ⟨a, ha, rfl⟩ := parseParam_ok h
      refine ⟨?_, ?_, ?_, ?_, ?_, ?_, ?_, ?_, ?_, ?_, ?_, ?_, ?_, ?_, ⟨rfl, rfl, rfl, rfl⟩, hkeep _⟩ <;> rw [takes_one]
      · rw [if_neg (by decide)]
      · rw [if_neg (by decide)]
      · rw [if_neg (by decide)]
      · rw [if_neg (by decide)]
      · rw [if_pos rfl]; exact (parseBool_iff _ _).mp ha
      · rw [if_neg (by decide)]
      · rw [if_neg (by decide)]
      · rw [if_neg (by decide)]
      · rw [if_neg (by decide)]
      · rw [if_neg (by decide)]
      · rw [if_neg (by decide)]
      · rw [if_neg (by decide)]
      · rw [if_neg (by decide)]
      · rw [if_neg (by decide)]
    · rw [setParam_sendRetries] at h
      obtain ⟨a, ha, rfl⟩ := parseParam_ok h
      refine ⟨?_, ?_, ?_, ?_, ?_, ?_, ?_, ?_, ?_, ?_, ?_, ?_, ?_, ?_, ⟨rfl, rfl, rfl, rfl⟩, hkeep _⟩ <;> rw [takes_one]
      · rw [if_neg (by decide)]
      · rw [if_neg (by decide)]
      · rw [if_neg (by decide)]
      · rw [if_neg (by decide)]
      · rw [if_neg (by decide)]
      · rw [if_pos rfl]; exact (parseUsize_iff _ _).mp ha
      · rw [if_neg (by decide)]
      · rw [if_neg (by decide)]
      · rw [if_neg (by decide)]
      · rw [if_neg (by decide)]
      · rw [if_neg (by decide)]
      · rw [if_neg (by decide)]
      · rw [if_neg (by decide)]
      · rw [if_neg (by decide)]
    · rw [setParam_retryTimeout] at h
      obtain ⟨a, ha, rfl⟩ := parseParam_ok h
      refine ⟨?_, ?_, ?_, ?_, ?_, ?_, ?_, ?_, ?_, ?_, ?_, ?_, ?_, ?_, ⟨rfl, rfl, rfl, rfl⟩, hkeep _⟩ <;> rw [takes_one]
      · rw [if_neg (by decide)]
      · rw [if_neg (by decide)]
      · rw [if_neg (by decide)]
      · rw [if_neg (by decide)]
      · rw [if_neg (by decide)]
      · rw [if_neg (by decide)]
      · rw [if_pos rfl]; exact (parseDuration_iff _ _).mp ha
      · rw [if_neg (by decide)]
      · rw [if_neg (by decide)]
      · rw [if_neg (by decide)]
      · rw [if_neg (by decide)]
      · rw [if_neg (by decide)]
      · rw [if_neg (by decide)]
      · rw [if_neg (by decide)]
    · rw [setParam_pingTimeout] at h
      obtain ⟨a, ha, rfl⟩ := parseParam_ok h
      refine ⟨?_, ?_, ?_, ?_, ?_, ?_, ?_, ?_, ?_, ?_, ?_, ?_, ?_, ?_, ⟨rfl, rfl, rfl, rfl⟩, hkeep _⟩ <;> rw [takes_one]
      · rw [if_neg (by decide)]
      · rw [if_neg (by decide)]
      · rw [if_neg (by decide)]
      · rw [if_neg (by decide)]
      · rw [if_neg (by decide)]
      · rw [if_neg (by decide)]
      · rw [if_neg (by decide)]
      · rw [if_pos rfl]; exact (parseDuration_iff _ _).mp ha
      · rw [if_neg (by decide)]
      · rw [if_neg (by decide)]
      · rw [if_neg (by decide)]
      · rw [if_neg (by decide)]
      · rw [if_neg (by decide)]
      · rw [if_neg (by decide)]
    · rw [setParam_connectionTimeout] at h
      obtain ⟨a, ha, rfl⟩ := parseParam_ok h
      refine ⟨?_, ?_, ?_, ?_, ?_, ?_, ?_, ?_, ?_, ?_, ?_, ?_, ?_, ?_, ⟨rfl, rfl, rfl, rfl⟩, hkeep _⟩ <;> rw [takes_one]
      · rw [if_neg (by decide)]
      · rw [if_neg (by decide)]
      · rw [if_neg (by decide)]
      · rw [if_neg (by decide)]
      · rw [if_neg (by decide)]
      · rw [if_neg (by decide)]
      · rw [if_neg (by decide)]
      · rw [if_neg (by decide)]
      · rw [if_pos rfl]; exact (parseDuration_iff _ _).mp ha
      · rw [if_neg (by decide)]
      · rw [if_neg (by decide)]
      · rw [if_neg (by decide)]
      · rw [if_neg (by decide)]
      · rw [if_neg (by decide)]
    · rw [setParam_queryTimeout] at h
      obtain ⟨a, ha, rfl⟩ := parseParam_ok h
      refine ⟨?_, ?_, ?_, ?_, ?_, ?_, ?_, ?_, ?_, ?_, ?_, ?_, ?_, ?_, ⟨rfl, rfl, rfl, rfl⟩, hkeep _⟩ <;> rw [takes_one]
      · rw [if_neg (by decide)]
      · rw [if_neg (by decide)]
      · rw [if_neg (by decide)]
      · rw [if_neg (by decide)]
      · rw [if_neg (by decide)]
      · rw [if_neg (by decide)]
      · rw [if_neg (by decide)]
      · rw [if_neg (by decide)]
      · rw [if_neg (by decide)]
      · rw [if_pos rfl]; exact (parseDuration_iff _ _).mp ha
      · rw [if_neg (by decide)]
      · rw [if_neg (by decide)]
      · rw [if_neg (by decide)]
      · rw [if_neg (by decide)]
    · rw [setParam_insertTimeout] at h
      obtain ⟨a, ha, rfl⟩ := parseParam_ok h
      refine ⟨?_, ?_, ?_, ?_, ?_, ?_, ?_, ?_, ?_, ?_, ?_, ?_, ?_, ?_, ⟨rfl, rfl, rfl, rfl⟩, hkeep _⟩ <;> rw [takes_one]
      · rw [if_neg (by decide)]
      · rw [if_neg (by decide)]
      · rw [if_neg (by decide)]
      · rw [if_neg (by decide)]
      · rw [if_neg (by decide)]
      · rw [if_neg (by decide)]
      · rw [if_neg (by decide)]
      · rw [if_neg (by decide)]
      · rw [if_neg (by decide)]
      · rw [if_neg (by decide)]
      · rw [if_pos rfl]; exact (parseOptDuration_iff _ _).mp ha
      · rw [if_neg (by decide)]
      · rw [if_neg (by decide)]
      · rw [if_neg (by decide)]
    · rw [setParam_executeTimeout] at h
      obtain ⟨a, ha, rfl⟩ := parseParam_ok h
      refine ⟨?_, ?_, ?_, ?_, ?_, ?_, ?_, ?_, ?_, ?_, ?_, ?_, ?_, ?_, ⟨rfl, rfl, rfl, rfl⟩, hkeep _⟩ <;> rw [takes_one]
      · rw [if_neg (by decide)]
      · rw [if_neg (by decide)]
      · rw [if_neg (by decide)]
      · rw [if_neg (by decide)]
      · rw [if_neg (by decide)]
      · rw [if_neg (by decide)]
      · rw [if_neg (by decide)]
      · rw [if_neg (by decide)]
      · rw [if_neg (by decide)]
      · rw [if_neg (by decide)]
      · rw [if_neg (by decide)]
      · rw [if_pos rfl]; exact (parseOptDuration_iff _ _).mp ha
      · rw [if_neg (by decide)]
      · rw [if_neg (by decide)]
    · rw [setParam_compression] at h
      obtain ⟨a, ha, rfl⟩ := parseParam_ok h
      refine ⟨?_, ?_, ?_, ?_, ?_, ?_, ?_, ?_, ?_, ?_, ?_, ?_, ?_, ?_, ⟨rfl, rfl, rfl, rfl⟩, hkeep _⟩ <;> rw [takes_one]
      · rw [if_neg (by decide)]
      · rw [if_neg (by decide)]
      · rw [if_neg (by decide)]
      · rw [if_neg (by decide)]
      · rw [if_neg (by decide)]
      · rw [if_neg (by decide)]
      · rw [if_neg (by decide)]
      · rw [if_neg (by decide)]
      · rw [if_neg (by decide)]
      · rw [if_neg (by decide)]
      · rw [if_neg (by decide)]
      · rw [if_neg (by decide)]
      · rw [if_pos rfl]; exact (parseCompression_iff _ _).mp ha
      · rw [if_neg (by decide)]
    · rw [setParam_altHosts] at h
      obtain ⟨a, ha, rfl⟩ := parseParam_ok h
      refine ⟨?_, ?_, ?_, ?_, ?_, ?_, ?_, ?_, ?_, ?_, ?_, ?_, ?_, ?_, ⟨rfl, rfl, rfl, rfl⟩, hkeep _⟩ <;> rw [takes_one]
      · rw [if_neg (by decide)]
      · rw [if_neg (by decide)]
      · rw [if_neg (by decide)]
      · rw [if_neg (by decide)]
      · rw [if_neg (by decide)]
      · rw [if_neg (by decide)]
      · rw [if_neg (by decide)]
      · rw [if_neg (by decide)]
      · rw [if_neg (by decide)]
      · rw [if_neg (by decide)]
      · rw [if_neg (by decide)]
      · rw [if_neg (by decide)]
      · rw [if_neg (by decide)]
      · rw [if_pos rfl]; exact (parseHosts_iff lib _ _).mp ha
  · rw [setParam_other lib o k v hr, Except.ok.injEq] at h
    subst h
    have ne : ∀ k', k' ∈ recognised → k ≠ k' := fun k' h e => hr (e ▸ h)
    refine ⟨?_, ?_, ?_, ?_, ?_, ?_, ?_, ?_, ?_, ?_, ?_, ?_, ?_, ?_, ⟨rfl, rfl, rfl, rfl⟩, fun k' => ?_⟩
    iterate 14 (rw [takes_one, if_neg (ne _ (by decide))])
    simp only [lookup_insert, hset]
    by_cases hk : k' = k
    · subst hk; simp [hr]
    · have hk' : ¬ k = k' := fun e => hk e.symm
      simp [hk, hk']

/-- C36. When the parameters are accepted, every recognised option is what its last occurrence says (in its documented form),
every option not mentioned is unchanged, and every other parameter is a server setting with the given text. -/
theorem C36_params_take_effect (lib : UrlLib) (o o' : Options) (ps : List (String × String)) (h : setParams lib o ps = .ok o') :
    Applied lib ps o o' := by
  induction ps generalizing o with
  | nil =>
    simp only [setParams, Except.ok.injEq] at h
    subst h
    refine ⟨rfl, rfl, rfl, rfl, rfl, rfl, rfl, rfl, rfl, rfl, rfl, rfl, rfl, rfl, ⟨rfl, rfl, rfl, rfl⟩, fun k => ?_⟩
    simp [lastOf_nil]
  | cons p ps ih =>
    obtain ⟨k, v⟩ := p
    rw [setParams] at h
    cases hs : setParam lib o k v with
    | error e => simp [hs] at h
    | ok o1 =>
      rw [hs] at h
      have a := setParam_applied hs
      have b := ih o1 h
      refine ⟨a.1.step b.1, a.2.step b.2, a.3.step b.3, a.4.step b.4, a.5.step b.5, a.6.step b.6, a.7.step b.7, a.8.step b.8,
        a.9.step b.9, a.10.step b.10, a.11.step b.11, a.12.step b.12, a.13.step b.13, a.14.step b.14, ?_, fun k' => ?_⟩
      · obtain ⟨a1, a2, a3, a4⟩ := a.same
        obtain ⟨b1, b2, b3, b4⟩ := b.same
        exact ⟨by rw [b1, a1], by rw [b2, a2], by rw [b3, a3], by rw [b4, a4]⟩
      · rw [b.settings k', a.settings k', lastOf_cons, lastOf_cons, lastOf_nil, Option.none_or]
        by_cases hr : k' ∈ recognised
        · simp [hr]
        · simp only [hr, if_false]
          cases lastOf k' ps with
          | some w => simp
          | none => simp

/-- The value of a recognised parameter has its documented form. -/
def WellFormed (lib : UrlLib) (k v : String) : Prop :=
  let s := (decodeLossy lib v).toList
  (k ∈ ["pool_min", "pool_max", "send_retries"] → ∃ n, IsUsize s n) ∧
  (k ∈ ["nodelay", "ping_before_query"] → ∃ b, IsBool s b) ∧
  (k ∈ ["keepalive", "insert_timeout", "execute_timeout"] → ∃ d, IsOptDuration s d) ∧
  (k ∈ ["retry_timeout", "ping_timeout", "connection_timeout", "query_timeout"] → ∃ d, IsDuration s d) ∧
  (k = "compression" → ∃ b, IsCompression s b) ∧ (k = "alt_hosts" → ∃ as, IsHosts lib s as)

theorem parseParam_cases (lib : UrlLib) (key value : String) (p : Str → Option α) (f : α → Options) :
    (∃ a, p (decodeLossy lib value).toList = some a ∧ (parseParam lib key value p).map f = .ok (f a)) ∨
    (p (decodeLossy lib value).toList = none ∧ (parseParam lib key value p).map f = .error (.invalidParam key value)) := by
  rw [parseParam]
  cases hp : p (decodeLossy lib value).toList with
  | none => exact .inr ⟨rfl, by simp [Except.map]⟩
  | some a => exact .inl ⟨a, rfl, by simp [Except.map]⟩

theorem none_no {p : Str → Option α} {m : Str → α → Prop} {s : Str} (hiff : ∀ a, p s = some a ↔ m s a) (h : p s = none) :
    ¬ ∃ a, m s a := by
  rintro ⟨a, ha⟩; rw [(hiff a).mpr ha] at h; simp at h

theorem setParam_cases (lib : UrlLib) (o : Options) (k v : String) :
    (WellFormed lib k v ∧ ∃ o', setParam lib o k v = .ok o') ∨
    (¬ WellFormed lib k v ∧ setParam lib o k v = .error (.invalidParam k v)) := by
  have num : ∀ f : Nat → Options, (∃ n, IsUsize (decodeLossy lib v).toList n) ∧
        (∃ o', (parseParam lib k v parseUsize).map f = .ok o') ∨
      (¬ ∃ n, IsUsize (decodeLossy lib v).toList n) ∧ (parseParam lib k v parseUsize).map f = .error (.invalidParam k v) := by
    intro f
    rcases parseParam_cases lib k v parseUsize f with ⟨a, h1, h2⟩ | ⟨h1, h2⟩
    · exact .inl ⟨⟨a, (parseUsize_iff _ _).mp h1⟩, _, h2⟩
    · exact .inr ⟨none_no (parseUsize_iff _) h1, h2⟩
  have bool : ∀ f : Bool → Options, (∃ n, IsBool (decodeLossy lib v).toList n) ∧
        (∃ o', (parseParam lib k v parseBool).map f = .ok o') ∨
      (¬ ∃ n, IsBool (decodeLossy lib v).toList n) ∧ (parseParam lib k v parseBool).map f = .error (.invalidParam k v) := by
    intro f
    rcases parseParam_cases lib k v parseBool f with ⟨a, h1, h2⟩ | ⟨h1, h2⟩
    · exact .inl ⟨⟨a, (parseBool_iff _ _).mp h1⟩, _, h2⟩
    · exact .inr ⟨none_no (parseBool_iff _) h1, h2⟩
  have dur : ∀ f : Nat → Options, (∃ n, IsDuration (decodeLossy lib v).toList n) ∧
        (∃ o', (parseParam lib k v parseDuration).map f = .ok o') ∨
      (¬ ∃ n, IsDuration (decodeLossy lib v).toList n) ∧
        (parseParam lib k v parseDuration).map f = .error (.invalidParam k v) := by
    intro f
    rcases parseParam_cases lib k v parseDuration f with ⟨a, h1, h2⟩ | ⟨h1, h2⟩
    · exact .inl ⟨⟨a, (parseDuration_iff _ _).mp h1⟩, _, h2⟩
    · exact .inr ⟨none_no (parseDuration_iff _) h1, h2⟩
  have optd : ∀ f : Option Nat → Options, (∃ n, IsOptDuration (decodeLossy lib v).toList n) ∧
        (∃ o', (parseParam lib k v parseOptDuration).map f = .ok o') ∨
      (¬ ∃ n, IsOptDuration (decodeLossy lib v).toList n) ∧
        (parseParam lib k v parseOptDuration).map f = .error (.invalidParam k v) := by
    intro f
    rcases parseParam_cases lib k v parseOptDuration f with ⟨a, h1, h2⟩ | ⟨h1, h2⟩
    · exact .inl ⟨⟨a, (parseOptDuration_iff _ _).mp h1⟩, _, h2⟩
    · exact .inr ⟨none_no (parseOptDuration_iff _) h1, h2⟩
  have comp : ∀ f : Bool → Options, (∃ n, IsCompression (decodeLossy lib v).toList n) ∧
        (∃ o', (parseParam lib k v parseCompression).map f = .ok o') ∨
      (¬ ∃ n, IsCompression (decodeLossy lib v).toList n) ∧
        (parseParam lib k v parseCompression).map f = .error (.invalidParam k v) := by
    intro f
    rcases parseParam_cases lib k v parseCompression f with ⟨a, h1, h2⟩ | ⟨h1, h2⟩
    · exact .inl ⟨⟨a, (parseCompression_iff _ _).mp h1⟩, _, h2⟩
    · exact .inr ⟨none_no (parseCompression_iff _) h1, h2⟩
  have hosts : ∀ f : List Addr → Options, (∃ n, IsHosts lib (decodeLossy lib v).toList n) ∧
        (∃ o', (parseParam lib k v (parseHosts lib)).map f = .ok o') ∨
      (¬ ∃ n, IsHosts lib (decodeLossy lib v).toList n) ∧
        (parseParam lib k v (parseHosts lib)).map f = .error (.invalidParam k v) := by
    intro f
    rcases parseParam_cases lib k v (parseHosts lib) f with ⟨a, h1, h2⟩ | ⟨h1, h2⟩
    · exact .inl ⟨⟨a, (parseHosts_iff _ _ _).mp h1⟩, _, h2⟩
    · exact .inr ⟨none_no (parseHosts_iff lib _) h1, h2⟩
  by_cases hr : k ∈ recognised
  · simp only [recognised, List.mem_cons, List.not_mem_nil, or_false] at hr
    rcases hr with rfl | rfl | rfl | rfl | rfl | rfl | rfl | rfl | rfl | rfl | rfl | rfl | rfl | rfl
    · rw [setParam_poolMin]; simpa [WellFormed] using num _
    · rw [setParam_poolMax]; simpa [WellFormed] using num _
    · rw [setParam_nodelay]; simpa [WellFormed] using bool _
    · rw [setParam_keepalive]; simpa [WellFormed] using optd _
    · rw [setParam_pingBeforeQuery]; simpa [WellFormed] using bool _
    · rw [setParam_sendRetries]; simpa [WellFormed] using num _
    · rw [setParam_retryTimeout]; simpa [WellFormed] using dur _
    · rw [setParam_pingTimeout]; simpa [WellFormed] using dur _
    · rw [setParam_connectionTimeout]; simpa [WellFormed] using dur _
    · rw [setParam_queryTimeout]; simpa [WellFormed] using dur _
    · rw [setParam_insertTimeout]; simpa [WellFormed] using optd _
    · rw [setParam_executeTimeout]; simpa [WellFormed] using optd _
    · rw [setParam_compression]; simpa [WellFormed] using comp _
    · rw [setParam_altHosts]; simpa [WellFormed] using hosts _
  · rw [setParam_other lib o k v hr]
    simp only [recognised, List.mem_cons, List.not_mem_nil, or_false, not_or] at hr
    exact .inl ⟨by simp [WellFormed, hr], _, rfl⟩

/-- C36. The parameters are accepted exactly if every recognised one has a well-formed value; otherwise the answer is an error
naming a malformed parameter and its value. -/
theorem C36_malformed_rejected (lib : UrlLib) (o : Options) (ps : List (String × String)) :
    ((∀ p ∈ ps, WellFormed lib p.1 p.2) ∧ ∃ o', setParams lib o ps = .ok o') ∨
    (∃ p ∈ ps, ¬ WellFormed lib p.1 p.2 ∧ setParams lib o ps = .error (.invalidParam p.1 p.2)) := by
  induction ps generalizing o with
  | nil => exact .inl ⟨by simp, o, rfl⟩
  | cons p ps ih =>
    obtain ⟨k, v⟩ := p
    rcases setParam_cases lib o k v with ⟨hw, o1, h1⟩ | ⟨hw, h1⟩
    · rcases ih o1 with ⟨h2, o2, h3⟩ | ⟨p, hp, h2, h3⟩
      · refine .inl ⟨?_, o2, by rw [setParams, h1]; exact h3⟩
        intro p hp
        simp only [List.mem_cons] at hp
        rcases hp with rfl | hp
        · exact hw
        · exact h2 p hp
      · exact .inr ⟨p, by simp [hp], h2, by rw [setParams, h1]; exact h3⟩
    · exact .inr ⟨(k, v), by simp, hw, by rw [setParams, h1]⟩

/-- A URL library for the examples, in which nothing parses. -/
def noUrls : UrlLib := ⟨fun _ => none, fun _ => ""⟩

theorem percentDecode_plain (bs : Bytes) (h : 37 ∉ bs) : percentDecode bs = bs := by
  match bs with
  | [] => simp [percentDecode]
  | [a] => simp [percentDecode]
  | [a, b] => simp [percentDecode]
  | a :: b :: c :: rest =>
    simp only [List.mem_cons, not_or] at h
    rw [percentDecode, if_neg (fun e => h.1 e.symm), percentDecode_plain (b :: c :: rest) (by simp [h])]

/-- C36. A value without percent signs is taken literally. -/
theorem C36_plain_value (lib : UrlLib) (v : String) (h : 37 ∉ strBytes v) : decodeLossy lib v = v := by
  rw [decodeLossy, percentDecode_plain _ h, strOfBytes_strBytes]

example (lib : UrlLib) : decodeLossy lib "naïve+1" = "naïve+1" := C36_plain_value lib _ (by decide)

theorem parseParam_plain (lib : UrlLib) (key v : String) (p : Str → Option α) (a : α) (h : 37 ∉ strBytes v)
    (hp : p v.toList = some a) : parseParam lib key v p = .ok a := by
  rw [parseParam, C36_plain_value lib v h, hp]

example : setParams noUrls Options.default [("pool_min", "5"), ("ping_timeout", "42ms"), ("pool_min", "7"), ("x", "y")] =
    .ok { Options.default with poolMin := 7, pingTimeout := 42, settings := [("x", ⟨.string "y", true⟩)] } := by
  rw [setParams, setParam_poolMin, parseParam_plain _ _ _ _ 5 (by decide) (by decide)]
  simp only [Except.map]
  rw [setParams, setParam_pingTimeout, parseParam_plain _ _ _ _ 42 (by decide) (by decide)]
  simp only [Except.map]
  rw [setParams, setParam_poolMin, parseParam_plain _ _ _ _ 7 (by decide) (by decide)]
  simp only [Except.map]
  rw [setParams, setParam_other _ _ _ _ (by decide)]
  rfl

/-- C36 fails for values containing percent signs: the value of a parameter (already decoded by the URL parser) is decoded once
more, so the malformed number `%31` (written `%2531` in a URL) is accepted as 1. -/
theorem C36_double_decoding_violated (lib : UrlLib) (o : Options) :
    setParam lib o "pool_min" "%31" = .ok { o with poolMin := 1 } ∧ ¬ ∃ n, IsUsize "%31".toList n := by
  constructor
  · have : decodeLossy lib "%31" = "1" := by
      have h : percentDecode (strBytes "%31") = strBytes "1" := by
        rw [show strBytes "%31" = [37, 51, 49] by decide, show strBytes "1" = [49] by decide]
        simp [percentDecode, hexVal]
      rw [decodeLossy, h, strOfBytes_strBytes]
    rw [setParam_poolMin, parseParam, this, show parseUsize "1".toList = some 1 by decide]
    rfl
  · rintro ⟨n, h⟩
    have := (parseUsize_iff _ _).mpr h
    rw [show parseUsize "%31".toList = none by decide] at this
    simp at this

/-- C36. A whole URL: user, password, host, port (9000 unless given), database and parameters; what is not mentioned keeps its
default. -/
theorem C36_from_url (lib : UrlLib) (text : String) (o : Options) (h : fromUrl lib text = .ok o) :
    ∃ u, lib.parse text = some u ∧ u.scheme = "tcp" ∧ u.hasHost = true ∧
      o.addr = ⟨u.host, some (u.port.getD 9000)⟩ ∧
      o.username = (if u.username = "" then "default" else decodeLossy lib u.username) ∧
      o.password = (match u.password with | none => "" | some p => decodeLossy lib p) ∧
      (o.database = match u.segments with
        | some [d] => if d = "" then "default" else d
        | _ => "default") ∧
      ∃ base, base.poolMin = 10 ∧ base.poolMax = 20 ∧ base.nodelay = true ∧ base.keepalive = none ∧
        base.pingBeforeQuery = true ∧ base.sendRetries = 3 ∧ base.retryTimeout = 5000 ∧ base.pingTimeout = 500 ∧
        base.connectionTimeout = 500 ∧ base.queryTimeout = 180000 ∧ base.insertTimeout = some 180000 ∧
        base.executeTimeout = some 180000 ∧ base.compression = false ∧ base.altHosts = [] ∧ base.settings = [] ∧
        Applied lib u.query base o := by
  rw [fromUrl] at h
  cases hp : lib.parse text with
  | none => simp [hp] at h
  | some u =>
    rw [hp] at h
    simp only at h
    split at h
    · simp at h
    rename_i hs
    split at h
    · simp at h
    rename_i hb
    simp only [Bool.not_eq_true, Bool.or_eq_false_iff, Bool.not_eq_false'] at hb
    simp only [Decidable.not_not] at hs
    cases hd : databaseOf u with
    | error e => simp [hd] at h
    | ok d =>
      rw [hd] at h
      simp only at h
      have ha := C36_params_take_effect lib _ _ _ h
      obtain ⟨s1, s2, s3, s4⟩ := ha.same
      refine ⟨u, rfl, hs, hb.2, ?_, ?_, ?_, ?_, _, ?_, ?_, ?_, ?_, ?_, ?_, ?_, ?_, ?_, ?_, ?_, ?_, ?_, ?_, ?_, ha⟩
      · rw [s1]; cases d <;> rfl
      · rw [s3]; cases d <;> cases u.password <;> simp only <;> split <;> rfl
      · rw [s4]; cases d <;> cases u.password <;> simp only <;> split <;> rfl
      · rw [s2]
        rw [databaseOf] at hd
        generalize u.segments = seg at hd ⊢
        have dflt : (match u.password with
            | none => if u.username = "" then Options.default else { Options.default with username := decodeLossy lib u.username }
            | some p => { (if u.username = "" then Options.default else { Options.default with username := decodeLossy lib u.username })
                with password := decodeLossy lib p } : Options).database = "default" := by
          cases u.password <;> simp only <;> split <;> rfl
        match seg, hd with
        | none, hd => simp only [Except.ok.injEq] at hd; subst hd; exact dflt
        | some [], hd => simp only [Except.ok.injEq] at hd; subst hd; exact dflt
        | some [x], hd =>
          simp only [Except.ok.injEq] at hd; subst hd
          by_cases hx : x = ""
          · simp only [hx, if_true]; exact dflt
          · simp only [hx, if_false]
        | some (_ :: _ :: _), hd => simp at hd
      all_goals (cases d <;> cases u.password <;> simp only <;> split <;> rfl)

/-! ### C61 -/

theorem hexVal_hex {x : UInt8} {n : Nat} (h : Hex x n) : hexVal x = some n ∧ n < 16 := by
  cases h with
  | digit h =>
    have : n % 256 = n := by omega
    have e : (48 + n) % 256 = 48 + n := by omega
    simp only [hexVal, UInt8.toNat_ofNat', Nat.reducePow, e]
    rw [if_pos (by omega)]
    exact ⟨by congr 1; omega, by omega⟩
  | upper h1 h2 =>
    have e : (65 + (n - 10)) % 256 = 65 + (n - 10) := by omega
    simp only [hexVal, UInt8.toNat_ofNat', Nat.reducePow, e]
    rw [if_neg (by omega), if_pos (by omega)]
    exact ⟨by congr 1; omega, by omega⟩
  | lower h1 h2 =>
    have e : (97 + (n - 10)) % 256 = 97 + (n - 10) := by omega
    simp only [hexVal, UInt8.toNat_ofNat', Nat.reducePow, e]
    rw [if_neg (by omega), if_neg (by omega), if_pos (by omega)]
    exact ⟨by congr 1; omega, by omega⟩

theorem percentDecode_cons {a : UInt8} (h : a ≠ 37) (r : Bytes) : percentDecode (a :: r) = a :: percentDecode r := by
  match r with
  | [] => simp [percentDecode]
  | [b] => simp [percentDecode]
  | b :: c :: r => rw [percentDecode, if_neg h]

theorem percentDecode_encodes {b e : Bytes} (h : Encodes b e) : percentDecode e = b := by
  induction h with
  | nil => simp [percentDecode]
  | plain ha _ ih => rw [percentDecode_cons ha, ih]
  | @escaped a b e x y hi lo hx hy ha _ ih =>
    rw [percentDecode, if_pos rfl, (hexVal_hex hx).1, (hexVal_hex hy).1]
    simp only
    rw [ih, ← ha, UInt8.ofNat_toNat]

theorem decodeLossy_writes {lib : UrlLib} {s e : String} (h : Writes s e) : decodeLossy lib e = s := by
  rw [decodeLossy, percentDecode_encodes h, strOfBytes_strBytes]

/-- The user name and the password may be any strings: written in the URL in any of the ways percent-encoding allows, they are the ones
the client logs in with. (The host part of the URL is the work of the `url` crate; `lib.parse` is what it answers.) -/
theorem C61_credentials {lib : UrlLib} {text : String} {u : UrlParts} {o : Options} {user pass e : String}
    (hp : lib.parse text = some u) (hu : Writes user u.username) (hne : user ≠ "") (he : u.password = some e) (hw : Writes pass e)
    (h : fromUrl lib text = .ok o) : o.username = user ∧ o.password = pass := by
  obtain ⟨u', h1, _, _, _, h2, h3, _⟩ := C36_from_url lib text o h
  rw [hp] at h1
  cases h1
  rw [he] at h3
  rw [h2, h3]
  refine ⟨?_, decodeLossy_writes hw⟩
  rw [if_neg, decodeLossy_writes hu]
  intro h0
  rw [h0] at hu
  refine hne ?_
  have : strBytes user = strBytes "" := by
    rw [Writes] at hu
    generalize strBytes user = b at hu
    have h00 : strBytes "" = [] := rfl
    rw [h00] at hu
    cases hu
    rfl
  exact strBytes_injective this

/-- The database named in the path of the URL is the one the client asks for, if no character of it is escaped. Missing: names
with escaped characters (`C61_database_violated`). -/
theorem C61_database_partial {lib : UrlLib} {text : String} {u : UrlParts} {o : Options} {db e : String}
    (hp : lib.parse text = some u) (hs : u.segments = some [e]) (hw : Writes db e) (hne : db ≠ "") (hpl : 37 ∉ strBytes e)
    (h : fromUrl lib text = .ok o) : o.database = db := by
  obtain ⟨u', h1, _, _, _, _, _, h4, _⟩ := C36_from_url lib text o h
  rw [hp] at h1
  cases h1
  rw [hs] at h4
  simp only at h4
  have key : e = db := by
    refine strBytes_injective ?_
    have : ∀ b e : Bytes, Encodes b e → 37 ∉ e → e = b := by
      intro b e h
      induction h with
      | nil => intro _; rfl
      | plain _ _ ih => intro hn; simp only [List.mem_cons, not_or] at hn; rw [ih hn.2]
      | escaped => intro hn; simp at hn
    exact this _ _ hw hpl
  subst key
  rw [h4, if_neg hne]

/-- What the `url` crate answers for `tcp://a%40b:p%3ass@h/my%20db`. -/
def exUrl : UrlParts :=
  ⟨"tcp", false, true, "a%40b", some "p%3ass", "h", none, some ["my%20db"], []⟩

/-- A library that knows this URL. -/
def exLib : UrlLib := ⟨fun _ => some exUrl, fun _ => ""⟩

example : exLib.parse "tcp://a%40b:p%3ass@h/my%20db" = some exUrl ∧ Writes "a@b" exUrl.username ∧ Writes "p:ss" "p%3ass" ∧
    ∃ o, fromUrl exLib "tcp://a%40b:p%3ass@h/my%20db" = .ok o := by
  refine ⟨rfl, ?_, ?_, _, rfl⟩
  · show Encodes [97, 64, 98] [97, 37, 52, 48, 98]
    exact .plain (by decide) (.escaped (hi := 4) (lo := 0) (.digit (n := 4) (by decide)) (.digit (n := 0) (by decide)) rfl
      (.plain (by decide) .nil))
  · show Encodes [112, 58, 115, 115] [112, 37, 51, 97, 115, 115]
    exact .plain (by decide) (.escaped (hi := 3) (lo := 10) (.digit (n := 3) (by decide)) (.lower (n := 10) (by decide) (by decide)) rfl
      (.plain (by decide) (.plain (by decide) .nil)))

example : Writes "db" "db" ∧ 37 ∉ strBytes "db" ∧ ∃ o, fromUrl ⟨fun _ => some { exUrl with segments := some ["db"] }, fun _ => ""⟩ "" = .ok o := by
  refine ⟨?_, by decide, _, rfl⟩
  show Encodes [100, 98] [100, 98]
  exact .plain (by decide) (.plain (by decide) .nil)

/-- A database whose name has a space cannot be named in the URL: escaped, as it must be, it is asked for with the escape. -/
theorem C61_database_violated : exUrl.segments = some ["my%20db"] ∧ Writes "my db" "my%20db" ∧
    ∃ o, fromUrl exLib "tcp://a%40b:p%3ass@h/my%20db" = .ok o ∧ o.database = "my%20db" ∧ o.database ≠ "my db" := by
  refine ⟨rfl, ?_, _, rfl, rfl, by decide⟩
  show Encodes [109, 121, 32, 100, 98] [109, 121, 37, 50, 48, 100, 98]
  exact .plain (by decide) (.plain (by decide) (.escaped (hi := 2) (lo := 0) (.digit (n := 2) (by decide)) (.digit (n := 0) (by decide)) rfl
      (.plain (by decide) (.plain (by decide) .nil))))

/-! ### C35 -/

theorem scanQuoted_plain (n r : Str) (h1 : '`' ∉ n) (h2 : '\\' ∉ n) (hr : r.head? ≠ some '`') :
    scanQuoted (n ++ '`' :: r) = some (n, r) := by
  induction n with
  | nil =>
    cases r with
    | nil => rfl
    | cons c r =>
      have : c ≠ '`' := by simpa using hr
      simp only [List.nil_append]
      unfold scanQuoted
      split <;> simp_all
      rename_i h1 _ _ h
      exact h1 h.1.symm
  | cons c n ih =>
    simp only [List.mem_cons, not_or] at h1 h2
    have h1' : c ≠ '`' := fun e => h1.1 e.symm
    have h2' : c ≠ '\\' := fun e => h2.1 e.symm
    simp only [List.cons_append]
    unfold scanQuoted
    split <;> simp_all

/-- `char::is_numeric` on the characters that matter: ASCII digits are numeric, backquotes are not. -/
structure Numeric (numeric : Char → Bool) : Prop where
  digit : ∀ c, Digit c → numeric c = true
  quote : numeric '`' = false

/-- A name the quoting handles: all digits (and not empty), or with a character that is not numeric and no backslash. -/
def Quotable (numeric : Char → Bool) (n : Str) : Prop :=
  (n ≠ [] ∧ ∀ c ∈ n, Digit c) ∨ ((∃ c ∈ n, numeric c = false) ∧ '\\' ∉ n)

theorem columnName_ok {numeric : Char → Bool} (hn : Numeric numeric) {n q : Str} (hq : Quotable numeric n)
    (h : columnNameToString numeric n = .ok q) :
    (n ≠ [] ∧ (∀ c ∈ n, Digit c) ∧ q = n) ∨ ('`' ∉ n ∧ '\\' ∉ n ∧ q = '`' :: (n ++ ['`'])) := by
  rw [columnNameToString] at h
  split at h
  · rename_i ha
    simp only [Out.ok.injEq] at h
    rcases hq with ⟨h1, h2⟩ | ⟨⟨c, hc, h1⟩, _⟩
    · exact .inl ⟨h1, h2, h.symm⟩
    · rw [List.all_eq_true] at ha; rw [ha c hc] at h1; simp at h1
  · rename_i ha
    split at h
    · simp at h
    · rename_i hb
      simp only [Out.ok.injEq] at h
      rcases hq with ⟨h1, h2⟩ | ⟨_, h2⟩
      · exact absurd (List.all_eq_true.mpr fun c hc => hn.digit c (h2 c hc)) ha
      · refine .inr ⟨?_, h2, by rw [← h]; rfl⟩
        intro hc
        exact hb (List.any_eq_true.mpr ⟨'`', hc, by simp⟩)

theorem quoteAll_length {numeric : Char → Bool} {ns qs : List Str} (h : quoteAll numeric ns = .ok qs) : qs.length = ns.length := by
  induction ns generalizing qs with
  | nil => simp only [quoteAll, Out.ok.injEq] at h; subst h; rfl
  | cons m ms ih =>
    rw [quoteAll] at h
    obtain ⟨_, _, h⟩ := obind_eq_ok h
    obtain ⟨x, h3, h⟩ := obind_eq_ok h
    simp only [opure, Out.ok.injEq] at h
    subst h
    simp [ih h3]

/-- C35. The column list of an accepted INSERT is read by the server as exactly the given names, in order: all-digit names as they
are, the others quoted. (`_partial`: names must not be empty and must not contain backslashes, and numeric characters other
than digits must not stand alone; see the `_violated` theorems.) -/
theorem C35_column_list_partial (numeric : Char → Bool) (hn : Numeric numeric) (table : Str) (names : List Str)
    (hq : ∀ n ∈ names, Quotable numeric n) (sql : Str) (h : insertSql numeric table names = .ok sql) :
    ∃ list is, sql = "INSERT INTO ".toList ++ table ++ " (".toList ++ list ++ ") VALUES".toList ∧ ColumnList list is ∧
      is.length = names.length ∧ ∀ k (h1 : k < names.length) (h2 : k < is.length), Shown names[k] is[k] := by
  rw [insertSql] at h
  obtain ⟨qs, h1, h2⟩ := obind_eq_ok h
  simp only [opure, Out.ok.injEq] at h2
  refine ⟨joinCommaSpace qs, ?_⟩
  suffices ∃ is, ColumnList (joinCommaSpace qs) is ∧ (names ≠ [] → is ≠ []) ∧
      is.length = names.length ∧ ∀ k (h1 : k < names.length) (h2 : k < is.length), Shown names[k] is[k] by
    obtain ⟨is, g1, _, g2⟩ := this
    exact ⟨is, h2.symm, g1, g2⟩
  clear h2 h
  induction names generalizing qs with
  | nil => simp only [quoteAll, Out.ok.injEq] at h1; subst h1; exact ⟨[], .nil, by simp, rfl, by simp⟩
  | cons n ns ih =>
    rw [quoteAll] at h1
    obtain ⟨q, e1, h1⟩ := obind_eq_ok h1
    obtain ⟨qs', e2, h1⟩ := obind_eq_ok h1
    simp only [opure, Out.ok.injEq] at h1
    subst h1
    obtain ⟨is, g1, g2, g3, g4⟩ := ih (fun x hx => hq x (by simp [hx])) qs' e2
    have shown : ∀ i : Ident, Shown n i → ∀ k (h1 : k < (n :: ns).length) (h2 : k < (i :: is).length),
        Shown (n :: ns)[k] (i :: is)[k] := by
      intro i hi k h1 h2
      cases k with
      | zero => exact hi
      | succ k => simpa using g4 k (by simpa using h1) (by simpa using h2)
    have hlen := quoteAll_length e2
    rcases columnName_ok hn (hq n (by simp)) e1 with ⟨d1, d2, rfl⟩ | ⟨d1, d2, rfl⟩
    · cases qs' with
      | nil =>
        have : ns = [] := List.length_eq_zero_iff.mp (by simpa using hlen.symm)
        subst this
        exact ⟨[.number q], .lastNumber d1 d2, by simp, rfl, by
          intro k h1 h2; simp at h1; subst h1; exact .number d2⟩
      | cons q' qs' =>
        have hns : ns ≠ [] := by rintro rfl; simp at hlen
        refine ⟨.number q :: is, ?_, by simp, by simp [g3], shown _ (.number d2)⟩
        have := ColumnList.number d1 d2 (g2 hns) g1
        simpa [joinCommaSpace] using this
    · cases qs' with
      | nil =>
        have : ns = [] := List.length_eq_zero_iff.mp (by simpa using hlen.symm)
        subst this
        exact ⟨[.quoted n], .lastQuoted (scanQuoted_plain n [] d1 d2 (by simp)), by simp, rfl, by
          intro k h1 h2; simp at h1; subst h1; exact .quoted⟩
      | cons q' qs' =>
        have hns : ns ≠ [] := by rintro rfl; simp at hlen
        refine ⟨.quoted n :: is, ?_, by simp, by simp [g3], shown _ .quoted⟩
        have := ColumnList.quoted (scanQuoted_plain n (',' :: ' ' :: joinCommaSpace (q' :: qs')) d1 d2 (by simp)) (g2 hns) g1
        simpa [joinCommaSpace] using this

example : Numeric (fun c => c.isDigit) ∧ (∀ n ∈ ["id".toList, "12".toList, "a b, `".toList.dropLast], Quotable (fun c => c.isDigit) n) ∧
    insertSql (fun c => c.isDigit) "t".toList ["id".toList, "12".toList] = .ok "INSERT INTO t (`id`, 12) VALUES".toList := by
  refine ⟨⟨fun c hc => ?_, by decide⟩, ?_, by decide⟩
  · simp only [Char.isDigit, Bool.and_eq_true, decide_eq_true_eq]; exact hc
  · intro n hn
    simp only [List.mem_cons, List.not_mem_nil, or_false] at hn
    rcases hn with rfl | rfl | rfl
    · exact .inr ⟨⟨'i', by decide, by decide⟩, by decide⟩
    · refine .inl ⟨by decide, ?_⟩; intro c hc; simp at hc; rcases hc with rfl | rfl <;> simp [Digit] <;> decide
    · exact .inr ⟨⟨'a', by decide, by decide⟩, by decide⟩

/-- C35. A name containing a backquote is rejected, whatever the other names are. -/
theorem C35_backquote_rejected (numeric : Char → Bool) (hn : Numeric numeric) (table : Str) (names : List Str) (n : Str)
    (hm : n ∈ names) (hq : '`' ∈ n) : ∃ e, insertSql numeric table names = .err e := by
  have bad : ∃ e, columnNameToString numeric n = .err e := by
    rw [columnNameToString, if_neg, if_pos (List.any_eq_true.mpr ⟨'`', hq, by simp⟩)]
    · exact ⟨_, rfl⟩
    · intro ha; rw [List.all_eq_true] at ha; have := ha _ hq; rw [hn.quote] at this; simp at this
  have : ∃ e, quoteAll numeric names = .err e := by
    induction names with
    | nil => simp at hm
    | cons m ms ih =>
      rw [quoteAll]
      have nopanic : ∀ m, columnNameToString numeric m ≠ .panic := by
        intro m; rw [columnNameToString]; split
        · simp
        · split <;> simp
      by_cases he : m = n
      · subst he; obtain ⟨e, he⟩ := bad; exact ⟨e, by rw [he]; rfl⟩
      · cases hc : columnNameToString numeric m with
        | panic => exact absurd hc (nopanic m)
        | err e => exact ⟨e, rfl⟩
        | ok q =>
          obtain ⟨e, h⟩ := ih ((List.mem_cons.mp hm).resolve_left fun e => he e.symm)
          exact ⟨e, by simp only [obind_ok, h, obind_err]⟩
  obtain ⟨e, he⟩ := this
  exact ⟨e, by rw [insertSql, he]; rfl⟩

example : '`' ∈ "a`b".toList := by decide

/-- C35 fails for backslashes: the name `a\` is sent as `` `a\` `` and the ClickHouse lexer takes the closing backquote for part of the
name. -/
theorem C35_backslash_violated (numeric : Char → Bool) (h : numeric '\\' = false) :
    ∃ q, columnNameToString numeric "a\\".toList = .ok ('`' :: q) ∧ scanQuoted q = none := by
  refine ⟨"a\\`".toList, ?_, by decide⟩
  simp [columnNameToString, h]

/-- C35 fails for the empty name: it is sent as nothing at all, and the server cannot read the column list. -/
theorem C35_empty_name_violated (numeric : Char → Bool) (n : Str) (qs : List Str) (ns : List Str)
    (h : quoteAll numeric ([] :: n :: ns) = .ok qs) (is : List Ident) : ¬ ColumnList (joinCommaSpace qs) is := by
  have hs : ∃ r, joinCommaSpace qs = ',' :: r := by
    rw [quoteAll] at h
    obtain ⟨q, h1, h⟩ := obind_eq_ok h
    obtain ⟨qs', h2, h⟩ := obind_eq_ok h
    simp only [opure, Out.ok.injEq] at h
    simp only [columnNameToString, List.all_nil, if_true, Out.ok.injEq] at h1
    have hl := quoteAll_length h2
    cases qs' with
    | nil => simp at hl
    | cons q' qs' => subst h h1; exact ⟨_, by simp [joinCommaSpace]; rfl⟩
  obtain ⟨r, hr⟩ := hs
  rw [hr]
  intro hl
  generalize hs : ',' :: r = s at hl
  have nd : ¬ Digit ',' := by simp [Digit]
  cases hl with
  | nil => simp at hs
  | lastNumber _ h2 => subst hs; exact nd (h2 ',' (by simp))
  | lastQuoted _ => simp at hs
  | number h1 h2 _ _ =>
    rename_i d _ _ _ _
    cases d with
    | nil => exact h1 rfl
    | cons x d =>
      simp only [List.cons_append, List.cons.injEq] at hs
      exact nd (h2 ',' (by rw [hs.1]; exact List.mem_cons_self))
  | quoted _ _ _ => simp at hs

example : quoteAll Char.isDigit [[], "id".toList] = .ok [[], "`id`".toList] := by decide

/-- C35 fails for numeric characters that are not digits, e.g. a superscript two: the name is sent unquoted. -/
theorem C35_numeric_violated (numeric : Char → Bool) (c : Char) (h : numeric c = true) (hd : ¬ Digit c) (hc : c ≠ '`') :
    columnNameToString numeric [c] = .ok [c] ∧ ∀ is, ¬ ColumnList [c] is := by
  refine ⟨by simp [columnNameToString, h], fun is hl => ?_⟩
  generalize hs : [c] = s at hl
  cases hl with
  | nil => simp at hs
  | lastNumber _ h2 => subst hs; exact hd (h2 c (by simp))
  | lastQuoted _ => simp only [List.cons.injEq] at hs; exact hc hs.1
  | number h1 h2 _ _ =>
    rename_i d r is _ _
    cases d with
    | nil => exact h1 rfl
    | cons x d => simp at hs
  | quoted _ _ _ => simp only [List.cons.injEq] at hs; exact hc hs.1

example : ¬ Digit '²' := by simp [Digit]

/-! ### C58 -/

/-- C58. With a limit set, an operation that needs no longer is not cut off. (`_partial`: without a limit it is, see
`C58_no_limit_violated`.) -/
theorem C58_limit_partial (o : Options) (t needs : Nat) (hn : needs ≤ t) :
    (o.executeTimeout = some t → completesWithin (executeLimit o) needs = true) ∧
    (o.insertTimeout = some t → completesWithin (insertLimit o) needs = true) := by
  constructor <;> intro h <;> simp [completesWithin, executeLimit, insertLimit, h, hn]

example : Options.default.executeTimeout = some 180000 ∧ 5 ≤ 180000 := by decide

/-- C58 fails: with `execute_timeout=none` or `insert_timeout=none` every operation that has to wait at all is cut off. -/
theorem C58_no_limit_violated (o : Options) (needs : Nat) (hn : 0 < needs) :
    (o.executeTimeout = none → completesWithin (executeLimit o) needs = false) ∧
    (o.insertTimeout = none → completesWithin (insertLimit o) needs = false) := by
  constructor <;> intro h <;> simp [completesWithin, executeLimit, insertLimit, h] <;> omega

/-- C58. The URL parameter `execute_timeout=none` indeed leads there. -/
example : setParams noUrls Options.default [("execute_timeout", "none")] = .ok { Options.default with executeTimeout := none } := by
  rw [setParams, setParam_executeTimeout, parseParam_plain _ _ _ _ none (by decide) (by decide)]
  rfl

end CH.Props
