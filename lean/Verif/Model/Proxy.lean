import Verif.Model.Kex
import Verif.Model.Auth
/-
  Model of a proxied session: the connection from the client and the connection
  to the target, coupled by two `ProxyConnectionHandler`s
  (src/ProxyConnectionHandler.cxx, src/Connection.cxx:172-182, 1403-1419).

  The key exchange of both connections is Kex.lean.  Here we add the reading side
  (`OnInputReady`, `BlockRead`, `UnblockRead`) and the coupling: when one
  connection cannot write, the other one stops reading.
-/
namespace Lukko.Model
open Lukko.Spec

/-- The two connections of a proxied session. -/
inductive Side
  | client | target
  deriving DecidableEq, Repr

/-- One connection with its reading state, ssh/Connection.hxx:108-127. -/
structure Half where
  sys : KxSys
  /-- `read_blocked` -/
  blocked : Bool := false
  /-- `input_ready` -/
  inputReady : Bool := false
  /-- `resume_input` is scheduled -/
  resume : Bool := false
  /-- reading from the socket is scheduled -/
  reading : Bool := true
  /-- packets decrypted by `Input`, not yet returned by `ReadPacket` -/
  pending : List Bytes := []
  /-- all packets handled so far (for the specification) -/
  handled : List Bytes := []
  deriving DecidableEq, Repr

/-- `BlockRead`, ssh/Connection.hxx:259-262. -/
def Half.blockRead (h : Half) : Half := { h with blocked := true, inputReady := false }

/-- `UnblockRead`, ssh/Connection.hxx:267-274. -/
def Half.unblockRead (h : Half) : Half := { h with blocked := false, resume := h.resume || h.inputReady }

/-- `ProxyConnectionHandler::OnWriteBlocked`, `OnWriteUnblocked`,
ProxyConnectionHandler.cxx:20-31, 44-56: what the other connection's handler does
when it is told about an event on this connection. -/
def Half.note (h : Half) : Entry → Half
  | .blocked => h.blockRead
  | .unblocked => h.unblockRead
  | _ => h

/-- Something happens on connection `me`; `other` is told about each change.  The
new entries of the history are those the step has added. -/
def kxStep (e : KexEnv) (me other : Half) (ev : KxEvent) : Half × Half :=
  let sys := me.sys.step e ev
  ({ me with sys := sys }, (sys.kx.log.drop me.sys.kx.log.length).foldl Half.note other)

/-- `ProxyConnectionHandler::HandlePacket`, ProxyConnectionHandler.cxx:33-42: what
is not hop-by-hop is passed on and claimed.  (What is passed on: C29 and Auth.lean.
`SendPacket` on the other connection does not change anything modelled here.) -/
def proxyClaim (raw : Bytes) : Claim :=
  match raw with
  | [] => .unclaimed
  | msg :: _ => bif shouldProxy msg then .claimed else .unclaimed

/-- The loop of `OnInputReady`, ssh/Connection.cxx:915-960.  An exception ends the
session. -/
def inputLoop (e : KexEnv) : List Bytes → Half → Half → Half × Half
  | ps, me, other =>
    bif me.sys.stop.isSome then ({ me with pending := ps }, other)
    else bif me.blocked then ({ me with pending := ps, inputReady := true, reading := false }, other)
    else match ps with
      | [] => ({ me with pending := [], inputReady := false, reading := true }, other)
      | raw :: ps =>
        let r := kxStep e { me with handled := me.handled ++ [raw] } other (.packet raw (proxyClaim raw))
        inputLoop e ps r.1 r.2

/-- `OnInputReady`, ssh/Connection.cxx:910-960. -/
def onInputReady (e : KexEnv) (me other : Half) : Half × Half := inputLoop e me.pending me other

/-- Things that happen on one of the two connections. -/
inductive PxEvent
  /-- a packet has been received and decrypted (`Input::OnWorkFinished` and so on
  call `OnInputReady`) -/
  | arrive (raw : Bytes)
  /-- the event loop gets to `resume_input` -/
  | resume
  /-- the rekey timer fires (also after 1 GB) -/
  | rekeyTimer
  /-- the socket is writable; `more`: not everything fits -/
  | writable (more : Bool)
  deriving DecidableEq, Repr

/-- An event on the connection `me`. -/
def Half.step (e : KexEnv) (me other : Half) : PxEvent → Half × Half
  | .arrive raw => onInputReady e { me with pending := me.pending ++ [raw] } other
  | .resume => bif me.resume then onInputReady e { me with resume := false } other else (me, other)
  | .rekeyTimer => kxStep e me other .rekeyTimer
  | .writable more => kxStep e me other (.writable more)

/-- A proxied session. -/
structure ProxySys where
  client : Half
  target : Half
  deriving DecidableEq, Repr

/-- One event.  When one of the connections ends, the handlers are removed and the
other one is ended as well (Connection.cxx:1265-1275, 1335-1360, 1437-1447): nothing
happens any more in this model. -/
def ProxySys.step (e : Side → KexEnv) (y : ProxySys) (ev : Side × PxEvent) : ProxySys :=
  bif y.client.sys.stop.isSome || y.target.sys.stop.isSome then y
  else match ev.1 with
    | .client => let r := Half.step (e .client) y.client y.target ev.2; ⟨r.1, r.2⟩
    | .target => let r := Half.step (e .target) y.target y.client ev.2; ⟨r.2, r.1⟩

def ProxySys.run (e : Side → KexEnv) (y : ProxySys) (evs : List (Side × PxEvent)) : ProxySys :=
  evs.foldl (ProxySys.step e) y

/-- `OnOutgoingUserauthSuccess`, Connection.cxx:1403-1419: the two connections,
after their own histories, are coupled. -/
def ProxySys.start (client target : KxSys) : ProxySys := ⟨{ sys := client }, { sys := target }⟩

end Lukko.Model
