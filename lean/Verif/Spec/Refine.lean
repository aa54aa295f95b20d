import Verif.Model.Client
import Verif.Spec.Transport

/-!
What it means that the connection seen by the client operations (`Conn`, `CStream`) is the connection over the socket
(`Transport`, `PStream`), for C70.
-/

namespace CH.Spec
open CH

/-- A decoded message, as the operations see it. -/
def incOf : Packet ⊕ Err → Inc
  | .inl p => .packet p
  | .inr e => .error e

/-- A socket that neither fails nor ends: it delivers some bytes, or has nothing for now. -/
def Lasting (evs : List ReadEv) : Prop := ∀ e ∈ evs, e = .pending ∨ ∃ b, b ≠ [] ∧ e = .ready b

/-- A socket whose writes do not fail. -/
def LastingW (evs : List WriteEv) : Prop := ∀ e ∈ evs, e ≠ .fail

/-- The commands still to be sent have an encoding. -/
def Encodable (env : Env) (t : Transport) : Prop := ∀ c ∈ t.cmds, ∃ b, c.encode env.codec = .ok b

/-- `Carries env t revs c`: the connection `t`, on a socket that will deliver `revs`, is `c` to the operations: what is on its way
on `c` are the messages of all bytes in the buffer and on the socket, of which the last may be incomplete. -/
structure Carries (env : Env) (t : Transport) (revs : List ReadEv) (c : Conn) : Prop where
  opened : t.done = false
  marked : c.inconsistent = t.inconsistent
  coming : ∃ xs i rest, c.incoming = xs.map incOf ∧ Decodes env t.info (t.rd ++ received revs) xs i rest ∧
    parsePacket env i rest = .more

/-- The same for packet streams. -/
inductive Tracks (env : Env) (revs : List ReadEv) : PStream → CStream → Prop where
  | gone {st : PState} {f b : Bool} : Tracks env revs ⟨none, st, b⟩ ⟨none, f, b⟩
  | has {t : Transport} {c : Conn} {st : PState} {f b : Bool} (hc : Carries env t revs c) (he : Encodable env t)
      (hf : f = true ↔ st = .done) : Tracks env revs ⟨some t, st, b⟩ ⟨some c, f, b⟩

/-- A result of polling the stream over the socket and a result of awaiting the other stream say the same; `revs` is what the
socket will still deliver. -/
inductive Agree (env : Env) (revs : List ReadEv) : PPoll → CItem → Prop where
  | packet {p : Packet} : Agree env revs (.item p none) (.item p none)
  | last {p : Packet} {t : Transport} {c : Conn} (h : Carries env t revs c) (he : Encodable env t) :
      Agree env revs (.item p (some t)) (.item p (some c))
  | error {e : Err} : Agree env revs (.bad e) (.error e)
  | ended : Agree env revs .ended .ended

/-- `Awaits env s revs wevs r s' left wleft`: polling `s` until it is ready gives `r`. -/
inductive Awaits (env : Env) : PStream → List ReadEv → List WriteEv → PPoll → PStream → List ReadEv → List WriteEv → Prop where
  | ready {s s' : PStream} {revs left : List ReadEv} {wevs wleft : List WriteEv} {r : PPoll} {out : Bytes}
      (h : s.pollNext env revs wevs = (r, out, s', left, wleft)) (hr : r ≠ .pending) : Awaits env s revs wevs r s' left wleft
  | again {s s' s1 : PStream} {revs left revs1 : List ReadEv} {wevs wleft wevs1 : List WriteEv} {r : PPoll} {out : Bytes}
      (h : s.pollNext env revs wevs = (.pending, out, s1, revs1, wevs1)) (t : Awaits env s1 revs1 wevs1 r s' left wleft) :
      Awaits env s revs wevs r s' left wleft

/-- A consumer awaiting one item after the other from the stream over the socket, up to `n` items. -/
inductive Consumes (env : Env) : Nat → PStream → List ReadEv → List WriteEv → List (PPoll × List ReadEv) → PStream → List ReadEv →
    List WriteEv → Prop where
  | none {s : PStream} {revs : List ReadEv} {wevs : List WriteEv} : Consumes env 0 s revs wevs [] s revs wevs
  | some {n : Nat} {s s1 s' : PStream} {revs revs1 left : List ReadEv} {wevs wevs1 wleft : List WriteEv} {r : PPoll}
      {rs : List (PPoll × List ReadEv)} (h : Awaits env s revs wevs r s1 revs1 wevs1)
      (t : Consumes env n s1 revs1 wevs1 rs s' left wleft) :
      Consumes env (n + 1) s revs wevs ((r, revs1) :: rs) s' left wleft

/-- The first `n` items of the other stream. -/
def nexts : Nat → CStream → List CItem × CStream
  | 0, s => ([], s)
  | n + 1, s =>
    let a := s.next
    let b := nexts n a.2
    (a.1 :: b.1, b.2)

/-- Two lists of results agree, one by one. -/
inductive AllAgree (env : Env) : List (PPoll × List ReadEv) → List CItem → Prop where
  | nil : AllAgree env [] []
  | cons {r : PPoll} {revs : List ReadEv} {x : CItem} {rs : List (PPoll × List ReadEv)} {xs : List CItem}
      (h : Agree env revs r x) (t : AllAgree env rs xs) : AllAgree env ((r, revs) :: rs) (x :: xs)

end CH.Spec
