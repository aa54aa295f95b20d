import Verif.Spec.Answer
import Verif.Spec.Outage

/-!
# Connections on which no whole answer comes (C89)
-/

namespace CH.Spec

/-- All the bytes that a connection will deliver are `pre` and then either less than a whole answer, cut anywhere, or messages of an answer
followed by an exception. -/
inductive NoAnswer (env : Env) (pre : Bytes) (k : Sock) : Prop where
  | cut {tz said b missing} (htz : k.t.info.timezone = some tz) (hb : k.t.rd ++ received k.revs ++ missing = pre ++ b) (hm : missing ≠ [])
      (hl : AnswerLaid env.codec tz k.t.info.revision k.t.info.compress said b) (hr : ∀ m ∈ said, Readable env.known m)
  | exception {tz said x e more} (htz : k.t.info.timezone = some tz) (hb : k.t.rd ++ received k.revs = pre ++ (x ++ encException e ++ more))
      (hl : InTurn (SaidLaid env.codec tz k.t.info.revision k.t.info.compress) said x) (he : ExceptionOK e) (hr : ∀ m ∈ said, Readable env.known m)

end CH.Spec
