import Verif.Model.Client

/-!
Which message decides how an operation ends, for C71: stated on the sequence of messages alone, without streams or loops.
-/

namespace CH.Spec
open CH

/-- What a sequence of messages means to an operation. -/
inductive Verdict where
  /-- the message the operation waits for, and what follows it -/
  | finished (p : Packet) (rest : List Inc)
  /-- the server reports an error -/
  | refused (e : ServerError)
  /-- the socket failed or a message could not be decoded -/
  | failed
  /-- a message that has no place here -/
  | misplaced
  /-- the connection ended -/
  | lost
  /-- nothing decisive has come -/
  | silent

/-- `Judged skips ends ms v`: reading the messages `ms` in order, passing over those in `skips`, until one in `ends` or a
decisive other one. -/
inductive Judged (skips ends : Packet → Prop) : List Inc → Verdict → Prop where
  | silent : Judged skips ends [] .silent
  | skip {p : Packet} {l : List Inc} {v : Verdict} (h : skips p) (t : Judged skips ends l v) : Judged skips ends (.packet p :: l) v
  | finished {p : Packet} {l : List Inc} (h : ends p) : Judged skips ends (.packet p :: l) (.finished p l)
  | refused {e : ServerError} {l : List Inc} : Judged skips ends (.packet (.exception e) :: l) (.refused e)
  | failed {e : Err} {l : List Inc} : Judged skips ends (.error e :: l) .failed
  | misplaced {p : Packet} {l : List Inc} (h1 : ¬ skips p) (h2 : ¬ ends p) (h3 : ∀ e, p ≠ .exception e) :
      Judged skips ends (.packet p :: l) .misplaced
  | lost {l : List Inc} : Judged skips ends (.closed :: l) .lost

/-- Messages on the way of a statement that gives no result to the caller. -/
inductive ExecuteSkips : Packet → Prop where
  | block {b : Block} : ExecuteSkips (.block b)
  | profile {p : ProfileInfo} : ExecuteSkips (.profileInfo p)
  | progress {p : Progress} : ExecuteSkips (.progress p)

/-- The end of an answer. -/
inductive IsEnd : Packet → Prop where
  | eof : IsEnd .eof

/-- The answer to a ping. -/
inductive IsPong : Packet → Prop where
  | pong : IsPong .pong

/-- The greeting. -/
inductive IsGreeting : Packet → Prop where
  | hello {i : ServerInfo} : IsGreeting (.hello i)

/-- No message is passed over. -/
def NoSkips (_ : Packet) : Prop := False

/-- Messages passed over while an INSERT waits for the header or for the end of its data. -/
inductive InsertSkips : Packet → Prop where
  | columns {a b : String} : InsertSkips (.tableColumns a b)

/-- Messages an INSERT waits for. -/
inductive InsertEnds : Packet → Prop where
  | block {b : Block} : InsertEnds (.block b)
  | eof : InsertEnds .eof

/-- Everything that may be left of an abandoned answer. -/
inductive LeftOver : Packet → Prop where
  | block {b : Block} : LeftOver (.block b)
  | profile {p : ProfileInfo} : LeftOver (.profileInfo p)
  | progress {p : Progress} : LeftOver (.progress p)
  | columns {a b : String} : LeftOver (.tableColumns a b)

/-- The end of an abandoned answer. -/
inductive EndsLeftOver : Packet → Prop where
  | pong : EndsLeftOver .pong
  | eof : EndsLeftOver .eof

end CH.Spec
