import Verif.Model.Transport

/-!
What "decoding the whole byte stream" and "the history of a connection" mean, for C40–C44. `parsePacket` (one message at the
front of some bytes) is used as it is: that it reads messages properly is C05, C07, C08.
-/

namespace CH.Spec
open CH

/-- What a connection knows after a packet: the greeting tells zone and revision, other packets tell nothing. -/
inductive Knows : TransportInfo → Packet → TransportInfo → Prop where
  | hello {i : TransportInfo} {s : ServerInfo} : Knows i (.hello s) { timezone := some s.timezone, revision := s.revision, compress := i.compress }
  | other {i : TransportInfo} {p : Packet} (h : ∀ s, p ≠ .hello s) : Knows i p i

/-- `Decodes env i bs xs i' rest`: decoding `bs` message by message from the front gives the packets and errors `xs`, then
`rest` is left. -/
inductive Decodes (env : Env) : TransportInfo → Bytes → List (Packet ⊕ Err) → TransportInfo → Bytes → Prop where
  | done {i : TransportInfo} {bs : Bytes} : Decodes env i bs [] i bs
  | packet {i j k : TransportInfo} {bs rest rest' : Bytes} {p : Packet} {xs : List (Packet ⊕ Err)}
      (h : parsePacket env i bs = .ok p rest) (hk : Knows i p j) (t : Decodes env j rest xs k rest') :
      Decodes env i bs (.inl p :: xs) k rest'
  | error {i k : TransportInfo} {bs rest rest' : Bytes} {e : Err} {xs : List (Packet ⊕ Err)}
      (h : parsePacket env i bs = .err e rest) (t : Decodes env i rest xs k rest') :
      Decodes env i bs (.inr e :: xs) k rest'

/-- The bytes a socket delivered. -/
def received (evs : List ReadEv) : Bytes :=
  evs.flatMap fun
    | .ready b => b
    | _ => []

/-- The packet or decoding error a poll gives, if any. -/
def given : TPoll → List (Packet ⊕ Err)
  | .item p => [.inl p]
  | .bad e => [.inr e]
  | _ => []

/-- The bytes of commands, one after the other (a command that cannot be encoded has none). -/
def cmdBytes (z : Codec) (cs : List Cmd) : Bytes :=
  cs.flatMap fun c =>
    match c.encode z with
    | .ok b => b
    | _ => []

/-- `History env c t recv got issued sent`: a connection made with compression flag `c` has reached state `t` by some
interleaving of polls, sends and new commands, with any socket; it received the bytes `recv`, gave `got` to its user,
was given the commands `issued` and wrote the bytes `sent`. -/
inductive History (env : Env) (c : Bool) : Transport → Bytes → List (Packet ⊕ Err) → List Cmd → Bytes → Prop where
  | start : History env c (Transport.new c) [] [] [] []
  | poll {t t' : Transport} {recv : Bytes} {got : List (Packet ⊕ Err)} {issued : List Cmd} {sent : Bytes} {r : TPoll}
      {used left : List ReadEv} (h : History env c t recv got issued sent)
      (hp : t.pollNext env (used ++ left) = (r, t', left)) :
      History env c t' (recv ++ received used) (got ++ given r) issued sent
  | send {t t' : Transport} {recv : Bytes} {got : List (Packet ⊕ Err)} {issued : List Cmd} {sent out : Bytes} {r : SPoll}
      {evs left : List WriteEv} (h : History env c t recv got issued sent)
      (hs : t.send env.codec evs = (r, out, t', left)) :
      History env c t' recv got issued (sent ++ out)
  | call {t t' : Transport} {recv : Bytes} {got : List (Packet ⊕ Err)} {issued : List Cmd} {sent : Bytes} {cmd : Cmd}
      (h : History env c t recv got issued sent) (hc : (t.call cmd).inner = some t') :
      History env c t' recv got (issued ++ [cmd]) sent
  | mark {t : Transport} {recv : Bytes} {got : List (Packet ⊕ Err)} {issued : List Cmd} {sent : Bytes} (b : Bool)
      (h : History env c t recv got issued sent) : History env c { t with inconsistent := b } recv got issued sent

/-- The socket's last answer was "not ready". -/
def NotReady (evs left : List ReadEv) : Prop := ∃ used, evs = used ++ .pending :: left

/-- The same for writing. -/
def NotReadyW (evs left : List WriteEv) : Prop := ∃ used, evs = used ++ .pending :: left

/-- The packets a packet stream gives. -/
def packets : PPoll → List (Packet ⊕ Err)
  | .item p _ => [.inl p]
  | .bad e => [.inr e]
  | _ => []

/-- A consumer polling a packet stream `n` times: the results in order, and the bytes handed to the socket. -/
def polls (env : Env) : Nat → PStream → List ReadEv → List WriteEv → List PPoll × Bytes × PStream × List ReadEv × List WriteEv
  | 0, s, revs, wevs => ([], [], s, revs, wevs)
  | n + 1, s, revs, wevs =>
    let a := s.pollNext env revs wevs
    let b := polls env n a.2.2.1 a.2.2.2.1 a.2.2.2.2
    (a.1 :: b.1, a.2.1 ++ b.2.1, b.2.2)

/-- The connection a result hands back. -/
def handedBack : PPoll → Option Transport
  | .item _ conn => conn
  | _ => none

/-- Packets that end an exchange. -/
inductive EndsExchange : Packet → Prop where
  | hello {s : ServerInfo} : EndsExchange (.hello s)
  | pong : EndsExchange .pong
  | eof : EndsExchange .eof

end CH.Spec
