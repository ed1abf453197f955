import Verif.Model.Caller
import Verif.Spec.Gateway
/-
  A proxied connection: the connection of the client (Server.lean) and the one to the target (Caller.lean)
  connected with each other by `ProxyHandlers` and the `OnOutgoing…` methods of /repo/src/Connection.cxx.
-/
namespace Lukko.Model
open Spec (AuthEntry TargetEntry)

structure GatewayEnv (σ τ : Type) where
  server : ServerEnv σ
  out : TransEnv τ
  /-- (user name and session id in it are not used) -/
  login : TargetCfg

/-- `caller`: `outgoing`, as soon as there is one (`Auth.outgoing`). -/
structure Gateway (σ τ : Type) where
  server : Server σ := {}
  caller : Caller τ := {}

variable {σ τ : Type}

/-- `username`, Connection.cxx:1387. -/
def Gateway.calls (x : GatewayEnv σ τ) (s : Gateway σ τ) : CallerEnv τ :=
  { trans := x.out, login := { x.login with user := s.server.auth.username } }

/-- What is sent to the target: Connection.cxx:1399 and ProxyConnectionHandler.cxx:38. -/
def towardsTarget : AuthEntry → Option Bytes
  | .requestToTarget message => some message
  | .toTarget msg payload => some (msg :: payload)
  | _ => none

/-- `SendPacket` for each of them; `none` = `assert(!IsDead())`, ssh/Connection.cxx:142, fails. -/
def Caller.deliver (x : CallerEnv τ) : Caller τ → List Bytes → Option (Caller τ)
  | s, [] => some s
  | s, p :: ps =>
    bif s.live then
      (s.trans.step x.trans (.send p)).bind fun t => ({ s with trans := t, given := s.given ++ [p] } : Caller τ).deliver x ps
    else none

/-- What the connection of the client has to tell the target; `v` is its new state. -/
def Gateway.forward (x : GatewayEnv σ τ) (s : Gateway σ τ) (v : Server σ) : Option (Gateway σ τ) :=
  (s.caller.deliver (({ s with server := v } : Gateway σ τ).calls x)
      ((v.auth.log.drop s.server.auth.log.length).filterMap towardsTarget)).map fun c => { server := v, caller := c }

/-- One of the `OnOutgoing…` methods, or `ProxyConnectionHandler::HandlePacket`. -/
def Gateway.tell (x : GatewayEnv σ τ) (s : Gateway σ τ) (ev : AuthEv) : Option (Gateway σ τ) :=
  (s.server.step x.server (.other ev)).bind fun v => s.forward x v

/-- What the target has said, between the two states. -/
def heardFrom (old new : Target) : Option AuthEv :=
  match new.log.drop old.log.length with
  | [.received msg payload] => bif old.authenticated then some (.targetPacket msg payload) else none
  | l => bif l.contains .loggedIn then some .targetSuccess else none

/-- DISCONNECT is being sent to the target. -/
def Caller.dying (s : Caller τ) : Bool := !s.trans.closed && s.trans.kx.stop == some .disconnect

/-- Destroyed. -/
def Caller.gone (s : Caller τ) : Bool := !s.live && !s.dying

/-- The end of the connection to the target: `OnOutgoingError`, `OnOutgoingUserauthFailure`, `Dispose` or
`OnOutgoingDisconnecting`, Connection.cxx:1336-1360, 1421-1446. -/
def endedFrom (old new : Caller τ) : Option AuthEv :=
  bif new.gone && !old.gone then some .targetGone
  else bif new.dying && old.live then some .targetDisconnecting
  else none

/-- The connection to the target has changed; `c` is its new state. -/
def Gateway.report (x : GatewayEnv σ τ) (s : Gateway σ τ) (c : Caller τ) : Option (Gateway σ τ) :=
  (match heardFrom s.caller.login c.login with
    | some ev => ({ s with caller := c } : Gateway σ τ).tell x ev
    | none => some { s with caller := c }).bind fun s' =>
  match endedFrom s.caller c with
  | some ev => s'.tell x ev
  | none => some s'

/-- An event of the upper layer which comes from the target. -/
def AuthEv.isTarget : AuthEv → Bool
  | .targetSuccess | .targetPacket .. | .targetDisconnecting | .targetGone => true
  | _ => false

def ServerEvent.isTarget : ServerEvent → Bool
  | .other ev => ev.isTarget
  | _ => false

inductive GatewayEvent
  /-- on the connection of the client, or timers and so on -/
  | client (ev : ServerEvent)
  /-- on the connection to the target -/
  | io (ev : TransEvent)
  /-- a packet of the target may be ready -/
  | ready
  /-- the connection to the target breaks, or is destroyed after DISCONNECT was sent -/
  | lost

/-- `ready`: is there a `ProxyConnectionHandler`? -/
def GatewayEvent.forCaller (proxied : Bool) : GatewayEvent → Option CallerEvent
  | .client _ => none
  | .io ev => some (.io ev)
  | .ready => some (.ready proxied)
  | .lost => some .lost

/-- One event; `none` = an `assert()` failed.  When the connection of the client has come to its end, nothing
that happens on the other one is considered any more (see `C75_violated` for what it may cause). -/
def Gateway.step (x : GatewayEnv σ τ) (s : Gateway σ τ) (ev : GatewayEvent) : Option (Gateway σ τ) :=
  match ev with
  | .client ev =>
    bif ev.isTarget then some s
    else (s.server.step x.server ev).bind fun v => s.forward x v
  | ev =>
    bif s.server.live && s.server.auth.outgoing then
      match ev.forCaller s.server.auth.proxied with
      | none => some s
      | some ev => (s.caller.step (s.calls x) ev).bind fun c => s.report x c
    else some s

def Gateway.run (x : GatewayEnv σ τ) : Gateway σ τ → List GatewayEvent → Option (Gateway σ τ)
  | s, [] => some s
  | s, ev :: evs => (s.step x ev).bind fun s => s.run x evs

end Lukko.Model
