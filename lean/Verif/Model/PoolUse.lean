import Verif.Model.Client

/-!
How the pool hands out handles and takes them back, with their connections: /repo/src/pool/mod.rs. `Model/Pool` models the
accounting of the pool under concurrent use; here its calls are atomic and what matters is which connection goes where.
-/

namespace CH

/-- `take_conn`, /repo/src/pool/mod.rs:244-253, without the counter: the longest waiting idle handle, attached. -/
def takeConn : List Handle → Option (Handle × List Handle)
  | [] => none
  | h :: idle => some ({ h with binding := .attached }, idle)

/-- `Pool::poll`, /repo/src/pool/mod.rs:192-215, when it gives a handle: an idle one if there is one; otherwise one is opened
(`new_connection`, 217-221), put among the idle ones (`handle_futures`, 223-242) and taken. -/
def getHandle (idle : List Handle) (opened : Handle) : Option (Handle × List Handle) :=
  match takeConn idle with
  | some r => some r
  | none => takeConn (idle ++ [opened])

/-- `Drop for ClientHandle`, /repo/src/pool/mod.rs:279-295, with `PoolBinding::return_conn` (70-74) and `Pool::return_conn`
(255-270), without the counter and the wake-ups: a handle that has a connection and a pool is kept if there are fewer than `min`
idle ones, it is attached, and the queue, which holds `max`, takes it. Otherwise its connection is dropped. -/
def dropHandle (min max : Nat) (idle : List Handle) (h : Handle) : List Handle :=
  match h.inner with
  | none => idle
  | some _ =>
    if h.binding = .none then idle
    else if idle.length < min ∧ h.binding = .attached ∧ idle.length < max then idle ++ [{ h with binding := .none }]
    else idle

/-- What `reconnect` will get from the pool (/repo/src/retry_guard.rs:60-68): the connections of the idle handles in their order,
and then newly opened ones. -/
def poolWorld (idle : List Handle) (opened : World) : World := idle.map (·.inner) ++ opened

/-- A task's handle: between operations, lent to a stream of blocks (`BlockStream` borrows it,
/repo/src/types/query_result/stream_blocks.rs:18-24), or dropped. -/
inductive Seat where
  | resting (h : Handle)
  | streaming (s : BStream) (h : Handle)
  | gone

/-- Tasks that share a pool: the queue of idle handles (`idle`, /repo/src/pool/mod.rs:26), and the handles given out. -/
structure Crowd where
  idle : List Handle
  seats : List Seat

end CH
