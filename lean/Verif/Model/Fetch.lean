import Verif.Model.Client
import Verif.Model.Rows

/-!
Model of what a user does with a query's result: /repo/src/types/query_result/mod.rs, `fetch_all` and `stream`. The blocks come from
`BStream` (`Model/Client.lean`).
-/

namespace CH

theorem BStream.read_fuel (n : Nat) : ∀ (s : BStream) (h : Handle), s.inner.fuel < n →
    ∀ b s' h', s.read h = (.block b, s', h') → s'.inner.fuel < s.inner.fuel := by
  induction n with
  | zero => intro s h hs; omega
  | succ n ih =>
    intro s h hs b s' h' e
    unfold BStream.read at e
    split at e
    · simp at e
    · simp at e
    · simp at e
    · simp only at e
      split at e
      · simp at e
      · split at e <;> simp at e
    · rename_i hn
      have := CStream.next_item hn
      exact Nat.lt_trans (ih _ _ (by simp only; omega) _ _ _ e) this
    · rename_i hn
      have := CStream.next_item hn
      exact Nat.lt_trans (ih _ _ (by simp only; omega) _ _ _ e) this
    · simp at e
    · rename_i hn
      have := CStream.next_item hn
      split at e
      · simp only [Prod.mk.injEq] at e
        rw [← e.2.1]
        exact this
      · exact Nat.lt_trans (ih _ _ (by simp only; omega) _ _ _ e) this
    · simp at e

theorem BStream.next_fuel {s s' : BStream} {h h' : Handle} {b : Block} (e : s.next h = (.block b, s', h')) :
    s'.inner.fuel < s.inner.fuel := by
  unfold BStream.next at e
  split at e
  · exact BStream.read_fuel _ s h (Nat.lt_succ_self _) _ _ _ e
  · simp at e
  · simp at e

/-- The `try_fold` of `fetch_all`, /repo/src/types/query_result/mod.rs:34-42: the blocks gathered so far and the stream. -/
def BStream.gather (s : BStream) (h : Handle) (acc : List Block) : OpRes (List Block) × BStream × Handle :=
  match _h : s.next h with
  | (.block b, s', h') => BStream.gather s' h' (if b.isEmpty then acc else acc ++ [b])
  | (.ended, s', h') => (.ok acc, s', h')
  | (.err e, s', h') => (.err e, s', h')
  | (.panic, s', h') => (.panic, s', h')
  | (.waits, s', h') => (.waits, s', h')
termination_by s.inner.fuel
decreasing_by exact BStream.next_fuel _h

/-- `fetch_all`, /repo/src/types/query_result/mod.rs:29-48. The stream is dropped before the blocks are put together, and also when
the operation fails or is given up (`waits`, which is what the timeout of lines 30-47 ends). -/
def Handle.fetchAll (h : Handle) (q : Query) (w : World) : OpRes CBlock × Handle × World :=
  match h.openStream q false w with
  | (.ok s, h, w) =>
    let (r, s, h) := s.gather h []
    match s.drop h with
    | none => (.panic, { h with binding := .none }, w)
    | some h =>
      match r with
      | .ok bs =>
        match concatBlocks bs with
        | .ok b => (.ok b, h, w)
        | .err e => (.err (.other e), h, w)
        | .panic => (.panic, h, w)
      | .err e => (.err e, h, w)
      | .panic => (.panic, h, w)
      | .waits => (.waits, h, w)
  | (.err e, h, w) => (.err e, h, w)
  | (.panic, h, w) => (.panic, h, w)
  | (.waits, h, w) => (.waits, h, w)

/-- What awaiting the next row gives. A row is its block and its number (`Row`, /repo/src/types/block/row.rs:9-13). -/
inductive RItem where
  | row (b : Block) (i : Nat)
  | err (e : OpErr)
  | ended
  | panic
  | waits

/-- The stream made by `stream`, /repo/src/types/query_result/mod.rs:100-124: the block whose rows are being handed out with the number
of the next row (`Rows`, lines 106-114), and the stream of blocks. -/
structure RStream where
  current : Option (Block × Nat)
  blocks : BStream

/-- `Rows::next` of the block at hand, /repo/src/types/block/row.rs:110-121. -/
def RStream.advance (s : RStream) : Out (Option (Block × Nat × Nat)) :=
  match s.current with
  | none => .ok none
  | some (b, i) => do
    match ← b.rowsNext i with
    | some (r, j) => pure (some (b, r, j))
    | none => pure none

/-- Awaiting the next row: `map` and `flatten` of lines 102-122. An error is handed out as one item (line 118), then the stream goes
on. -/
def RStream.next (s : RStream) (h : Handle) : RItem × RStream × Handle :=
  match s.advance with
  | .ok (some (b, i, j)) => (.row b i, ⟨some (b, j), s.blocks⟩, h)
  | .ok none =>
    match _h : s.blocks.next h with
    | (.block b, bs, h') => RStream.next ⟨some (b, 0), bs⟩ h'
    | (.err e, bs, h') => (.err e, ⟨none, bs⟩, h')
    | (.ended, bs, h') => (.ended, ⟨none, bs⟩, h')
    | (.panic, bs, h') => (.panic, ⟨none, bs⟩, h')
    | (.waits, bs, h') => (.waits, ⟨none, bs⟩, h')
  | _ => (.panic, s, h)
termination_by s.blocks.inner.fuel
decreasing_by exact BStream.next_fuel _h

/-- `stream`, /repo/src/types/query_result/mod.rs:100-124, with `stream_blocks`, lines 79-81. -/
def Handle.openRows (h : Handle) (q : Query) (w : World) : OpRes RStream × Handle × World :=
  match h.openStream q true w with
  | (.ok s, h, w) => (.ok ⟨none, s⟩, h, w)
  | (.err e, h, w) => (.err e, h, w)
  | (.panic, h, w) => (.panic, h, w)
  | (.waits, h, w) => (.waits, h, w)

end CH
