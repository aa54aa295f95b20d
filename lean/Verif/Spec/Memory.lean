import Verif.Model.Memory

/-! What is expected of the code that handles raw memory. -/

namespace CH.Spec

open CH.Mem

/-- A socket that keeps to its contract: it never claims to have written more bytes than it was lent. -/
def HonestSock (s : Sock) : Prop := ∀ room b, s room = .ready b → b.length ≤ room

/-- The answers the sockets gave, each to an offer of some room; being offered none, a socket could only answer "no bytes", which
would pass for the end of the stream. -/
inductive Answers : List Sock → List ReadEv → Prop
  | nil : Answers [] []
  | cons {s : Sock} {room : Nat} {socks : List Sock} {evs : List ReadEv} : 0 < room → Answers socks evs →
      Answers (s :: socks) (s room :: evs)

/-- The vector holds exactly these bytes, all of them written, in its allocation. -/
def BufHolds (v : Buf) (bs : Bytes) : Prop := v.len ≤ v.mem.length ∧ v.shown = bs.map some

/-- A reader that keeps to the contract of `io::Read`: it never claims more than it has or than is asked for, and claims nothing only
if it has nothing. -/
def ReadsSome (pick : Nat → Nat → Nat) : Prop :=
  ∀ have_ asked, pick have_ asked ≤ have_ ∧ pick have_ asked ≤ asked ∧ (0 < have_ → 0 < asked → 0 < pick have_ asked)

/-- The life of the receive buffer of a connection: created empty, filled from any honest sockets, and emptied message by
message. -/
inductive BufLife (grow : Nat → Nat → Nat) : Buf → Prop
  | new : BufLife grow ⟨[], 0⟩
  | fill {v v' : Buf} {socks rest : List Sock} {f : Fill} : BufLife grow v → (∀ s ∈ socks, HonestSock s) →
      Mem.readToEnd grow socks v = some (f, v', rest) → BufLife grow v'
  | consume {v v' : Buf} {pos : Nat} : BufLife grow v → pos ≤ v.len → v.consume pos = some v' → BufLife grow v'

/-- The byte is a value of `bool`. -/
def BoolByte (b : UInt8) : Prop := b = 0 ∨ b = 1

/-- Types interned one after the other: the references, in order, and the cache at the end. -/
inductive Interned : Cache → List (SqlType × TypeRef) → Cache → Prop
  | nil (c : Cache) : Interned c [] c
  | cons {c : Cache} {t : SqlType} {l : List (SqlType × TypeRef)} {c' : Cache} : Interned (intern c t).2 l c' →
      Interned c ((t, (intern c t).1) :: l) c'

end CH.Spec
