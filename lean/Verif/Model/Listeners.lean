import Verif.Model.Auth
import Verif.Spec.Listeners
/-
  Remote port forwarding: the global requests "tcpip-forward" and "cancel-tcpip-forward",
  and `class SocketForwardListener`.  Which requests get here is decided by Model/Auth.
  The limit on pending requests (GSupport.cxx:131-135) and the order of the replies are in
  Model/Requests; the channels are in Model/ChannelSupport.
-/
namespace Lukko.Model
open Lukko.Spec

/-- `class SocketForwardListener`, SocketForwardListener.hxx:15-43; `bound`: the port of the
socket. -/
structure FwListener where
  host : Bytes
  port : Nat
  bound : Nat
  deriving DecidableEq, Repr

/-- `class Connection`: `pending`: the coroutines of `HandleGlobalRequest` which are suspended in
`ResolveBindTCP`; `listeners`: `socket_forward_listeners`; `waiting`: the `factories` of all
listeners, that is connections which have been accepted and are not yet confirmed by the
client.  `req`, `conn`: for numbering only. -/
structure Rfw where
  auth : Auth := {}
  req : Nat := 0
  conn : Nat := 0
  pending : List (Nat × Bytes × Nat) := []
  listeners : List FwListener := []
  waiting : List (Nat × Bytes × Nat) := []
  log : List FwEntry := []

def Rfw.say (s : Rfw) (e : FwEntry) : Rfw := { s with log := s.log ++ [e] }

/-- `IsBindAddress`, SocketForwardListener.hxx:34-36. -/
def FwListener.isBindAddress (l : FwListener) (host : Bytes) (port : Nat) : Bool :=
  l.host == host && l.port == port

/-- "tcpip-forward", Connection.cxx:1201-1202: the coroutine is started; it may be resumed
at once. -/
def Rfw.forward (s : Rfw) (host : Bytes) (port : Nat) : Rfw :=
  { s with req := s.req + 1, pending := s.pending ++ [(s.req, host, port)] }.say (.asked s.req host port)

/-- "cancel-tcpip-forward", Connection.cxx:1215-1223; `~SocketForwardListener`,
SocketForwardListener.cxx:131-134: connections which are waiting are closed. -/
def Rfw.cancel (s : Rfw) (host : Bytes) (port : Nat) : Rfw :=
  let gone := s.waiting.filter fun w => w.2 == (host, port)
  { s with
    listeners := s.listeners.filter fun l => !l.isBindAddress host port
    waiting := s.waiting.filter fun w => !(w.2 == (host, port))
    log := s.log ++ .cancel host port (s.listeners.any (·.isBindAddress host port)) :: gone.map (.dropped ·.1) }

/-- What a request leads to. -/
def Rfw.effect (s : Rfw) : AuthEntry → Rfw
  | .bindTcp host port => s.forward host port
  | .unbindTcp host port => s.cancel host port
  | _ => s

/-- `OnDisconnecting`, Connection.cxx:1269, GSupport.cxx:167-173; `~Connection`,
Connection.cxx:206-212; `~GlobalRequestSupport`, GSupport.cxx:71-74. -/
def Rfw.finish (s : Rfw) : Rfw :=
  { s with
    pending := []
    listeners := []
    waiting := []
    log := s.log ++ s.waiting.map (.dropped ·.1) ++ [.ended] }

/-- Everything in Model/Auth. -/
def Rfw.client (cfg : AuthCfg) (s : Rfw) (ev : AuthEv) : Rfw :=
  let y := s.auth.step cfg ev
  let t := (y.log.drop s.auth.log.length).foldl Rfw.effect { s with auth := y }
  bif y.stop && !s.auth.stop then t.finish else t

/-- `ResolveBindTCP` and `Listen` have finished, Connection.cxx:1203-1214; `none`: an exception.
The operating system chooses a port if it is asked for port 0. -/
def Rfw.bound (s : Rfw) (n : Nat) (res : Option Nat) : Rfw :=
  match s.pending.find? (·.1 == n) with
  | none => s
  | some (n, host, port) =>
    let s := { s with pending := s.pending.filter (·.1 != n) }
    match res with
    | none => s.say (.failed n)
    | some q =>
      { s with listeners := s.listeners ++ [FwListener.mk host port (if port = 0 then q else port)] }.say (.granted n host port)

/-- `OnAccept`, SocketForwardListener.cxx:136-151; `room`: `OpenChannel` does not throw. -/
def Rfw.accept (s : Rfw) (i : Nat) (room : Bool) : Rfw :=
  match s.listeners[i]? with
  | none => s
  | some l =>
    let c := s.conn
    let s := { s with conn := c + 1 }.say (.arrived c l.bound)
    bif room then { s with waiting := s.waiting ++ [(c, l.host, l.port)] }.say (.offered c l.host l.port)
    else s.say (.dropped c)

/-- The connection stops waiting. -/
def Rfw.resolve (s : Rfw) (c : Nat) (e : FwEntry) : Rfw :=
  bif s.waiting.any (·.1 == c) then { s with waiting := s.waiting.filter (·.1 != c) }.say e else s

inductive RfwEv
  | client (ev : AuthEv)
  | bound (n : Nat) (res : Option Nat)
  | accept (i : Nat) (room : Bool)
  /-- `CreateChannel`, SocketForwardListener.cxx:84-94 -/
  | confirmed (c : Nat)
  /-- `OnChannelOpenFailure`, `OnSocketReady` (the peer has closed the connection),
  SocketForwardListener.cxx:69-72, 96-108; the defect described in C23 is not modelled here -/
  | refused (c : Nat)
  deriving DecidableEq, Repr

def Rfw.step (cfg : AuthCfg) (s : Rfw) : RfwEv → Rfw
  | .client ev => s.client cfg ev
  | .bound n res => s.bound n res
  | .accept i room => s.accept i room
  | .confirmed c => s.resolve c (.joined c)
  | .refused c => s.resolve c (.dropped c)

def Rfw.run (cfg : AuthCfg) (s : Rfw) (evs : List RfwEv) : Rfw := evs.foldl (Rfw.step cfg) s

end Lukko.Model
