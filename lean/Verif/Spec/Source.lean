import Verif.Model.Source
import Verif.Spec.Options
import Verif.Spec.Pool

/-! What is expected of a source of options, of the methods that build options, and of a pool whose URL cannot be read. -/

namespace CH.Spec

open CH.Pool

/-- `n` calls of `get` one after the other, by whomever: the answers, and the state at the end. -/
inductive Asked (lib : UrlLib) : OptSource → List (Except UrlErr Options) → OptSource → Prop
  | none (s : OptSource) : Asked lib s [] s
  | more {s : OptSource} {as : List (Except UrlErr Options)} {s' : OptSource} :
      Asked lib (s.get lib).2 as s' → Asked lib s ((s.get lib).1 :: as) s'

/-- The argument of the last of the calls that `pick` selects, or the value there was. -/
def lastArg (pick : Setter → Option α) (l : List Setter) (old : α) : α :=
  match (l.filterMap pick).getLast? with
  | some a => a
  | none => old

/-- The pair of a URL query says the same as the call. -/
inductive PairSays (lib : UrlLib) : Setter → String × String → Prop
  | poolMin {n s e} : Writes s e → IsUsize s.toList n → PairSays lib (.poolMin n) ("pool_min", e)
  | poolMax {n s e} : Writes s e → IsUsize s.toList n → PairSays lib (.poolMax n) ("pool_max", e)
  | nodelay {b s e} : Writes s e → IsBool s.toList b → PairSays lib (.nodelay b) ("nodelay", e)
  | keepalive {d s e} : Writes s e → IsOptDuration s.toList d → PairSays lib (.keepalive d) ("keepalive", e)
  | pingBeforeQuery {b s e} : Writes s e → IsBool s.toList b → PairSays lib (.pingBeforeQuery b) ("ping_before_query", e)
  | sendRetries {n s e} : Writes s e → IsUsize s.toList n → PairSays lib (.sendRetries n) ("send_retries", e)
  | retryTimeout {d s e} : Writes s e → IsDuration s.toList d → PairSays lib (.retryTimeout d) ("retry_timeout", e)
  | pingTimeout {d s e} : Writes s e → IsDuration s.toList d → PairSays lib (.pingTimeout d) ("ping_timeout", e)
  | connectionTimeout {d s e} : Writes s e → IsDuration s.toList d → PairSays lib (.connectionTimeout d) ("connection_timeout", e)
  | queryTimeout {d s e} : Writes s e → IsDuration s.toList d → PairSays lib (.queryTimeout d) ("query_timeout", e)
  | insertTimeout {d s e} : Writes s e → IsOptDuration s.toList d → PairSays lib (.insertTimeout d) ("insert_timeout", e)
  | executeTimeout {d s e} : Writes s e → IsOptDuration s.toList d → PairSays lib (.executeTimeout d) ("execute_timeout", e)
  | compression {e} : Writes "lz4" e → PairSays lib .compression ("compression", e)
  | altHosts {as s e} : Writes s e → IsHosts lib s.toList as → PairSays lib (.altHosts as) ("alt_hosts", e)
  | setting {k v} : k ∉ recognised → PairSays lib (.setting k (.string v) true) (k, v)

/-- Pair by pair. -/
inductive PairsSay (lib : UrlLib) : List Setter → List (String × String) → Prop
  | nil : PairsSay lib [] []
  | cons {c p l ps} : PairSays lib c p → PairsSay lib l ps → PairsSay lib (c :: l) (p :: ps)

/-- The user named in a URL, as calls. -/
inductive UserSays : String → List Setter → Prop
  | none : UserSays "" []
  | some {s e} : Writes s e → e ≠ "" → UserSays e [.username s]

/-- The password given in a URL, as calls. -/
inductive PasswordSays : Option String → List Setter → Prop
  | none : PasswordSays none []
  | some {s e} : Writes s e → PasswordSays (some e) [.password s]

/-- The path of a URL, as calls. -/
inductive PathSays : Option (List String) → List Setter → Prop
  | noPath : PathSays none []
  | noSegment : PathSays (some []) []
  | empty : PathSays (some [""]) []
  | database {d} : d ≠ "" → PathSays (some [d]) [.database d]

/-- The executions of a pool whose source of options always fails: opening a connection is always refused before an address is
asked for. -/
inductive Refusing (cfg : Cfg) : St → Prop where
  | init : Refusing cfg St.init
  | step {s s' : St} (e : Ev) : Refusing cfg s → (∀ i o, e = .run i o → o = .refused) → step cfg s e = some s' → Refusing cfg s'

/-- Those of them in which a call only starts when no other is in progress. -/
inductive RefusingSeq (cfg : Cfg) : St → Prop where
  | init : RefusingSeq cfg St.init
  | step {s s' : St} (e : Ev) : RefusingSeq cfg s → (starts e → Quiet s) → (∀ i o, e = .run i o → o = .refused) →
      step cfg s e = some s' → RefusingSeq cfg s'

end CH.Spec
