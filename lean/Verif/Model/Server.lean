import Verif.Model.Transport
import Verif.Model.Auth
import Verif.Model.Messages
/-
  `class Connection` of the server (/repo/src/Connection.cxx): the transport layer
  (Transport.lean) and what is above it (Auth.lean) connected with each other.
-/
namespace Lukko.Model
open Spec (AuthEntry Entry)

structure ServerEnv (σ : Type) where
  trans : TransEnv σ
  /-- (the session id in it is not used) -/
  auth : AuthCfg

structure Server (σ : Type) where
  trans : Trans σ := Trans.init .server
  auth : Auth := {}

/-- `GetSessionId`, ssh/Connection.hxx:245-247, used in Connection.cxx:1012, 1075. -/
def Server.cfg {σ} (x : ServerEnv σ) (s : Server σ) : AuthCfg :=
  { x.auth with sessionId := s.trans.kx.kx.ks.sessionId }

/-- Neither closed nor `IsDead()`. -/
def Server.live {σ} (s : Server σ) : Bool := s.trans.live && !s.auth.stop

/-- Has the handler thrown something else than `Disconnect` or `MalformedPacket` (then the connection is
closed), has it thrown one of them, or has it returned `true`? -/
def claimFrom (y : Auth) : Claim :=
  bif y.stop && (y.log.getLast? != some .closed) then .refused else .claimed

/-- The loop over the handlers, ssh/Connection.cxx:748-750, for a packet (with its message number). -/
def Auth.claim (cfg : AuthCfg) (y : Auth) (delay : Bool) : Bytes → Claim
  | [] => .unclaimed
  | msg :: payload =>
    match y.laterHandlers msg payload with
    | some y => claimFrom y
    | none =>
      bif !y.userAuth then .unclaimed
      else bif y.task.isSome && !allowedWhileOccupied msg then .refused
      else if msg = MSG_SERVICE_REQUEST then claimFrom (y.serviceRequest payload)
      else if msg = MSG_USERAUTH_REQUEST then claimFrom (y.handleUserauthRequest cfg payload delay)
      else .unclaimed

/-- What was serialized after the header. -/
def serialized : Except SerError Ser → Option Bytes
  | .ok s => some (s.since 5)
  | .error _ => none

/-- The packet which is sent to the client, if there is one (UserAuthServer.cxx:35, Connection.cxx:1033,
1138, 1166, ProxyConnectionHandler.cxx; the answers to channel and global requests are in Requests.lean
and ChannelSupport.lean, UNIMPLEMENTED in Kex.lean). -/
def authAnswer : AuthEntry → Option Bytes
  | .serviceAccepted name => serialized (makeServiceAccept name)
  | .failure methods => serialized (makeUserauthFailure methods false)
  | .keyOk alg key => serialized (makeUserauthPkOk alg key)
  | .success => some [MSG_USERAUTH_SUCCESS]
  | .toClient msg payload => some (msg :: payload)
  | .disconnected _ => some [MSG_DISCONNECT]
  | _ => none

/-- `SendPacket` for each of them. -/
def Trans.sendAll {σ} (x : TransEnv σ) : Trans σ → List Bytes → Option (Trans σ)
  | t, [] => some t
  | t, p :: ps => (t.step x (.send p)).bind fun t => t.sendAll x ps

/-- `SetAuthenticated`, Connection.cxx:1149, with its assertions, ssh/Connection.cxx:105-116. -/
def Trans.setAuthenticated {σ} (x : TransEnv σ) (t : Trans σ) : Option (Trans σ) :=
  bif t.live then
    bif t.kx.kx.isEncrypted && !t.kx.kx.authenticated then t.step x .authenticated else none
  else some t

/-- What follows from what the upper layer has done: `y` is its new state.  When the connection has
come to its end below, it has above as well (Connection.cxx:1260-1276). -/
def Server.settle {σ} (x : ServerEnv σ) (s : Server σ) (y : Auth) : Option (Server σ) :=
  (bif y.authenticated && !s.auth.authenticated then s.trans.setAuthenticated x.trans else some s.trans).bind fun t =>
  (t.sendAll x.trans ((y.log.drop s.auth.log.length).filterMap authAnswer)).map fun t =>
    { trans := t, auth := bif t.live then y else y.step (s.cfg x) .closed }

/-- The packet which `OnInputReady` gets from `ReadPacket`, ssh/Connection.cxx:931-940. -/
def Trans.incoming {σ} (x : TransEnv σ) (t : Trans σ) : Option Bytes :=
  bif t.live && t.kx.kx.versionExchanged then
    match t.input x .read with
    | none => none
    | some t => bif t.inp.dead then none else t.inp.handling
  else none

/-- Was `OnEncrypted` called between the two? -/
def becameEncrypted (old new : Kx) : Bool := (new.log.drop old.log.length).contains .encrypted

/-- `OnEncrypted`, Connection.cxx:1251-1258, with the assertion of UserAuthServer.cxx:21. -/
def Server.onEncrypted {σ} (x : ServerEnv σ) (s : Server σ) : Option Auth :=
  bif s.trans.kx.kx.isEncrypted then some (s.auth.step (s.cfg x) .encrypted) else none

/-- One iteration of `OnInputReady`.  There are no handlers before `OnEncrypted`.  The assertion of
UserAuthServer.cxx:122 is checked whenever there is a packet and a handler. -/
def Server.ready {σ} (x : ServerEnv σ) (s : Server σ) (delay : Bool) : Option (Server σ) :=
  let cfg := s.cfg x
  let claim := bif s.auth.encrypted then s.auth.claim cfg delay else fun _ => .unclaimed
  (s.trans.step x.trans (.ready claim)).bind fun t =>
    match s.trans.incoming x.trans with
    | some (msg :: payload) =>
      bif s.auth.encrypted then
        bif s.trans.kx.kx.isEncrypted then
          ({ s with trans := t } : Server σ).settle x (s.auth.step cfg (.packet msg payload delay))
        else none
      else bif becameEncrypted s.trans.kx.kx t.kx.kx then
        (({ s with trans := t } : Server σ).onEncrypted x).bind fun y => ({ s with trans := t } : Server σ).settle x y
      else ({ s with trans := t } : Server σ).settle x s.auth
    | _ => ({ s with trans := t } : Server σ).settle x s.auth

/-- Events of the transport layer which have nothing to do with the upper layer. -/
def TransEvent.isIo : TransEvent → Bool
  | .ready _ | .send _ | .authenticated => false
  | _ => true

/-- … and do not happen any more on a connection which was closed or has sent DISCONNECT. -/
def TransEvent.needsLive : TransEvent → Bool
  | .version _ | .feed _ | .rekeyTimer => true
  | _ => false

/-- Events of the upper layer which have nothing to do with the transport layer: timers, answers of the
translation server, files, other servers. -/
def AuthEv.isOther : AuthEv → Bool
  | .encrypted | .packet .. => false
  | _ => true

inductive ServerEvent
  | io (ev : TransEvent)
  /-- a packet may be ready; `delay`: see `AuthEv.packet` -/
  | ready (delay : Bool)
  | other (ev : AuthEv)
  /-- a channel, or the code for global requests, sends something -/
  | send (payload : Bytes)

/-- One event; `none` = an `assert()` failed. -/
def Server.step {σ} (x : ServerEnv σ) (s : Server σ) : ServerEvent → Option (Server σ)
  | .io ev =>
    bif ev.isIo && (s.live || !ev.needsLive) then
      (s.trans.step x.trans ev).bind fun t => ({ s with trans := t } : Server σ).settle x s.auth
    else some s
  | .ready delay => bif s.live then s.ready x delay else some s
  | .other ev => bif s.live && ev.isOther then s.settle x (s.auth.step (s.cfg x) ev) else some s
  | .send p =>
    bif s.live && s.auth.channels then
      (s.trans.step x.trans (.send p)).map fun t => { s with trans := t }
    else some s

def Server.run {σ} (x : ServerEnv σ) : Server σ → List ServerEvent → Option (Server σ)
  | s, [] => some s
  | s, ev :: evs => (s.step x ev).bind fun s => s.run x evs

end Lukko.Model
