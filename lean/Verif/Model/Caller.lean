import Verif.Model.Server
import Verif.Model.TargetLogin
import Verif.Spec.Caller
/-
  `OutgoingConnection` (/repo/src/OutgoingConnection.cxx): the transport layer (Transport.lean) and the
  login (TargetLogin.lean) connected with each other.
-/
namespace Lukko.Model
open Spec (TargetEntry)

structure CallerEnv (σ : Type) where
  trans : TransEnv σ
  /-- (the session id in it is not used) -/
  login : TargetCfg

/-- `given`: the packets which the proxy has sent with this connection. -/
structure Caller (σ : Type) where
  trans : Trans σ := Trans.init .client
  login : Target := {}
  given : List Bytes := []

/-- `GetSessionId`, ssh/Connection.hxx:245-247, used in UserAuthClient.cxx:95. -/
def Caller.cfg {σ} (x : CallerEnv σ) (s : Caller σ) : TargetCfg :=
  { x.login with sessionId := s.trans.kx.kx.ks.sessionId }

/-- Neither destroyed nor `IsDead()`. -/
def Caller.live {σ} (s : Caller σ) : Bool := s.trans.live && !s.login.over

/-- The loop over the handlers, ssh/Connection.cxx:748-750, for a packet (with its message number):
`UserAuthClient::HandlePacket`, UserAuthClient.cxx:125-184, and, when it does not exist any more,
`ProxyConnectionHandler::HandlePacket` (if there is one).  Errors which are neither `Disconnect` nor
`MalformedPacket` close the connection; see `Target.step`. -/
def Target.claim (t : Target) (proxied : Bool) : Bytes → Claim
  | [] => .unclaimed
  | msg :: payload =>
    match t.auth with
    | none => bif proxied && shouldProxy msg then .claimed else .unclaimed
    | some st =>
      if msg = MSG_SERVICE_ACCEPT then
        bif st == .serviceRequest && parseServiceAccept.parse payload == some (ascii "ssh-userauth") then .claimed
        else .refused
      else if msg = MSG_USERAUTH_FAILURE ∨ msg = MSG_USERAUTH_SUCCESS then
        bif st == .request then .claimed else .refused
      else bif isConnectionMessage msg && st != .success then .refused
      else .unclaimed

/-- The packet, if it is one which is sent. -/
def sentEntry : TargetEntry → Option Bytes
  | .sent msg payload => some (msg :: payload)
  | _ => none

/-- What follows from what the login has done: `y` is its new state; `none` = an `assert()` failed.
`SetAuthenticated`: OutgoingConnection.cxx:46.  When the connection has come to its end below, it has above as
well. -/
def Caller.settle {σ} (x : CallerEnv σ) (s : Caller σ) (y : Target) : Option (Caller σ) :=
  bif y.fault then none
  else
    (bif y.authenticated && !s.login.authenticated then s.trans.setAuthenticated x.trans else some s.trans).bind fun t =>
    (t.sendAll x.trans ((y.log.drop s.login.log.length).filterMap sentEntry)).map fun t =>
      { s with trans := t, login := bif t.live then y else y.step (s.cfg x) .lost }

/-- `OnEncrypted`, OutgoingConnection.cxx:60-68, with the assertion of UserAuthClient.cxx:29. -/
def Caller.onEncrypted {σ} (x : CallerEnv σ) (s : Caller σ) : Option Target :=
  bif s.trans.kx.kx.isEncrypted then some (s.login.step (s.cfg x) .encrypted) else none

/-- One iteration of `OnInputReady`; `proxied`: is there a `ProxyConnectionHandler`?  There are no handlers before
`OnEncrypted`.  The assertion of UserAuthClient.cxx:129 is checked whenever there is a packet and a handler. -/
def Caller.ready {σ} (x : CallerEnv σ) (s : Caller σ) (proxied : Bool) : Option (Caller σ) :=
  let cfg := s.cfg x
  let claim := bif s.login.encrypted then s.login.claim proxied else fun _ => .unclaimed
  (s.trans.step x.trans (.ready claim)).bind fun t =>
    match s.trans.incoming x.trans with
    | some (msg :: payload) =>
      bif s.login.encrypted then
        bif s.trans.kx.kx.isEncrypted then
          ({ s with trans := t } : Caller σ).settle x (s.login.step cfg (.packet msg payload))
        else none
      else bif becameEncrypted s.trans.kx.kx t.kx.kx then
        (({ s with trans := t } : Caller σ).onEncrypted x).bind fun y => ({ s with trans := t } : Caller σ).settle x y
      else ({ s with trans := t } : Caller σ).settle x s.login
    | _ => ({ s with trans := t } : Caller σ).settle x s.login

inductive CallerEvent
  | io (ev : TransEvent)
  /-- a packet may be ready -/
  | ready (proxied : Bool)
  /-- the proxy sends something -/
  | send (payload : Bytes)
  /-- the connection breaks, or is destroyed -/
  | lost

/-- One event; `none` = an `assert()` failed.  (That the proxy sends something only after the login, and not on a
dead connection, is a matter of Gateway.lean.) -/
def Caller.step {σ} (x : CallerEnv σ) (s : Caller σ) : CallerEvent → Option (Caller σ)
  | .io ev =>
    bif ev.isIo && (s.live || !ev.needsLive) then
      (s.trans.step x.trans ev).bind fun t => ({ s with trans := t } : Caller σ).settle x s.login
    else some s
  | .ready proxied => bif s.live then s.ready x proxied else some s
  | .send p =>
    bif s.live && s.login.authenticated then
      (s.trans.step x.trans (.send p)).map fun t => { s with trans := t, given := s.given ++ [p] }
    else some s
  | .lost => some { s with login := s.login.step (s.cfg x) .lost }

def Caller.run {σ} (x : CallerEnv σ) : Caller σ → List CallerEvent → Option (Caller σ)
  | s, [] => some s
  | s, ev :: evs => (s.step x ev).bind fun s => s.run x evs

end Lukko.Model
