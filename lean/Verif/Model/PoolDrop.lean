import Verif.Model.Pool

/-!
# The end of a pool

`Pool` is a handle on an `Arc<Inner>` (/repo/src/pool/mod.rs:101-106). `Inner`, with the idle connections and the connection
being opened, is freed when the last strong reference to it goes. Strong references are held by the clones of `Pool` that the
user has (a `GetHandle` has one too, /repo/src/pool/futures/get_handle.rs:13-22), by the binding of a `ClientHandle`
(`PoolBinding::Attached`/`Detached`, /repo/src/pool/mod.rs:49-53) wherever that handle is, by the future that opens a connection
(`Some(self.clone())`, /repo/src/pool/mod.rs:219), and by calls in progress. A transport has a weak reference only
(/repo/src/io/transport.rs:68-71).
-/

namespace CH.Pool

/-- The handle has a strong reference to `Inner` (`PoolBinding`, /repo/src/pool/mod.rs:49-53). -/
def owning : Binding → Bool
  | .none => false
  | _ => true

/-- The call is in progress: it has a clone of the pool (`return_conn`, /repo/src/pool/mod.rs:69-73; `upgrade`,
/repo/src/io/transport.rs:136; `poll`, get_handle.rs:27-29). -/
def active : Pc → Bool
  | .done _ => false
  | _ => true

/-- The strong references to `Inner` other than the clones of `Pool` the user has. -/
def St.owners (s : St) : Nat :=
  (s.out.filter (fun h => owning h.binding)).length + (s.idle.filter (fun h => owning h.binding)).length + s.new.toList.length
    + (s.threads.filter active).length

/-- The pool, the number of clones of `Pool` the user has, and whether `Inner` is freed. -/
structure Life where
  st : St
  users : Nat
  freed : Bool

/-- After `Pool::new`, /repo/src/pool/mod.rs:127-176. -/
def Life.init : Life := ⟨St.init, 1, false⟩

/-- `Inner` is freed with the last strong reference: the idle handles are dropped with their connections (their binding is `None`:
`Drop for ClientHandle` returns at /repo/src/pool/mod.rs:282-284, and `Drop for TransportStatus` finds `inside` set,
/repo/src/io/transport.rs:130-134), and the wakers go. -/
def Life.settle (l : Life) : Life :=
  if l.users + l.st.owners = 0 then { l with freed := true, st := { l.st with idle := [], tasks := [] } } else l

/-- What can happen. -/
inductive LEv where
  /-- An event of the pool; polling needs a `GetHandle`, which is one of the clones. -/
  | pool (e : Ev)
  /-- `Pool::clone`, or `get_handle` (/repo/src/pool/mod.rs:188-190). -/
  | clone
  /-- A clone, or a `GetHandle`, is dropped. -/
  | drop

/-- The event is a `poll`, which borrows a `GetHandle` (/repo/src/pool/futures/get_handle.rs:27-29). -/
def Ev.isPoll : Ev → Bool
  | .poll _ => true
  | _ => false

/-- One event; `none` when it cannot happen. When `Inner` is freed, dropping a transport tells nobody: `upgrade` fails
(/repo/src/io/transport.rs:136). -/
def Life.step (cfg : Cfg) (l : Life) : LEv → Option Life
  | .pool e =>
    if e.isPoll = true ∧ l.users = 0 then none
    else (Pool.step cfg l.st e).map fun s =>
      Life.settle { l with st := if l.freed then { s with threads := l.st.threads } else s }
  | .clone => if l.users = 0 then none else some { l with users := l.users + 1 }
  | .drop => if l.users = 0 then none else some (Life.settle { l with users := l.users - 1 })

end CH.Pool
