import Verif.Spec.Shutdown
/-
  The end of a connection: `DoDisconnect`, and everything that may still happen while the
  DISCONNECT packet is being flushed.  What handlers do while the connection is alive is
  left open (`Work`); what matters is who can still do something afterwards.
-/
namespace Lukko.Model
open Lukko.Spec

/-- `class Connection` (with `class SSH::Connection`).  `authTimer`, `rekeyTimer`: the timer is
scheduled; `userAuth`, `handlers` (`channels` and `global_requests`), `proxied`
(`proxy_handlers`): the pointer is not null; `task`: `occupied_task`; `channels`, `requests`,
`listeners`: how many there are; `outgoing`: the outgoing connection, if there is one, and
whether it is authenticated; `gone`: the object has been deleted. -/
structure Down where
  encrypted : Bool := false
  authenticated : Bool := false
  dead : Bool := false
  gone : Bool := false
  authTimer : Bool := true
  rekeyTimer : Bool := false
  userAuth : Bool := false
  task : Bool := false
  handlers : Bool := false
  channels : Nat := 0
  requests : Nat := 0
  listeners : Nat := 0
  outgoing : Option Bool := none
  proxied : Bool := false
  log : List EndEntry := []
  deriving DecidableEq, Repr

def Down.say (s : Down) (e : EndEntry) : Down := { s with log := s.log ++ [e] }

/-- `assert(…)`; the program goes on in a release build. -/
def Down.check (s : Down) (ok : Bool) : Down := bif ok then s else s.say .checkFailed

/-- `SendPacket`, ssh/Connection.cxx:139-161; `big`: enough has been sent for a new key
exchange. -/
def Down.send (s : Down) (msg : UInt8) (big : Bool) : Down :=
  let s := (s.check !s.dead).say (.sent msg)
  { s with rekeyTimer := s.rekeyTimer || (s.encrypted && s.authenticated && big) }

/-- `disposer.Dispose(this)`: Listener.cxx deletes the object. -/
def Down.dispose (s : Down) : Down := { s with gone := true }.say .destroyed

/-- `OnDisconnecting`, Connection.cxx:1259-1276; `SSH::Connection::OnDisconnecting`,
ssh/Connection.cxx:244-250; `ChannelSupport::OnDisconnecting`, CSupport.cxx:563-572;
`GlobalRequestSupport::OnDisconnecting`, GSupport.cxx:167-173. -/
def Down.onDisconnecting (s : Down) : Down :=
  { s with
    channels := bif s.handlers then 0 else s.channels
    requests := bif s.handlers then 0 else s.requests
    authTimer := false
    listeners := 0
    proxied := false
    userAuth := false
    task := false }

/-- `DoDisconnect`, ssh/Connection.cxx:183-227; `big` as above. -/
def Down.doDisconnect (s : Down) (big : Bool) : Down :=
  bif s.dead then s
  else
    let s := s.onDisconnecting
    let s := (s.check !s.dead).say .disconnect
    let s := { s with rekeyTimer := s.rekeyTimer || (s.encrypted && s.authenticated && big) }
    bif s.encrypted then { s with dead := true, rekeyTimer := false } else s.dispose

/-- `AddHandler`, ssh/Connection.cxx:84-90. -/
def Down.addHandler (s : Down) : Down := s.check !s.dead

/-- Things a handler may do. -/
inductive Work
  | send (msg : UInt8) (big : Bool)
  /-- a key exchange has made both directions encrypted; Connection.cxx:1250-1258 -/
  | encrypted
  /-- the coroutine is suspended -/
  | suspend
  /-- the client is authenticated; Connection.cxx:1147-1149, ssh/Connection.cxx:105-116 -/
  | authenticated
  /-- Connection.cxx:1163-1168 -/
  | serve
  /-- Connection.cxx:1152-1161 -/
  | connectTarget
  | newChannel
  | endChannel
  | newRequest
  | endRequest
  | newListener
  | endListener
  deriving DecidableEq, Repr

def Down.work (s : Down) : Work → Down
  | .send msg big => s.send msg big
  | .encrypted =>
    bif s.encrypted then s else { s.addHandler with encrypted := true, userAuth := true }
  | .suspend => bif s.userAuth then { s with task := true } else s
  | .authenticated =>
    bif s.encrypted && !s.authenticated then
      { s.check !s.dead with authenticated := true, authTimer := false, rekeyTimer := true }
    else s
  | .serve =>
    bif s.authenticated && s.outgoing.isNone then { s.addHandler.addHandler with handlers := true } else s
  | .connectTarget =>
    bif s.authenticated && !s.handlers && s.outgoing.isNone then { s with outgoing := some false } else s
  | .newChannel => bif s.handlers then { s with channels := s.channels + 1 } else s
  | .endChannel => { s with channels := s.channels - 1 }
  | .newRequest => bif s.handlers then { s with requests := s.requests + 1 } else s
  | .endRequest => { s with requests := s.requests - 1 }
  | .newListener => bif s.handlers then { s with listeners := s.listeners + 1 } else s
  | .endListener => { s with listeners := s.listeners - 1 }

/-- How a handler ends. -/
inductive WorkEnd
  | done
  /-- `Disconnect` is thrown -/
  | disconnect (big : Bool)
  /-- any other exception, or `CloseError` -/
  | close
  deriving DecidableEq, Repr

def Down.works (s : Down) (ws : List Work) (e : WorkEnd) : Down :=
  let s := ws.foldl Down.work s
  match e with
  | .done => s
  | .disconnect big => s.doDisconnect big
  | .close => s.dispose

/-- Where something comes from. -/
inductive DownEv
  /-- `OnInputReady`, ssh/Connection.cxx:914-957: packets from the peer -/
  | input (ws : List Work) (e : WorkEnd)
  /-- the coroutine handling a login is resumed; UserAuthServer.cxx:45-58 -/
  | resumed (ws : List Work) (e : WorkEnd) (finished : Bool)
  /-- a process, a socket or a timer which belongs to a channel -/
  | channel (ws : List Work) (e : WorkEnd)
  /-- a pending global request is finished; GSupport.cxx:81-126 -/
  | request (ws : List Work) (e : WorkEnd)
  /-- a connection on a listener; SocketForwardListener.hxx -/
  | listener (ws : List Work) (e : WorkEnd)
  | authTimeout
  /-- `idle`: `kex_flags.IsIdle()` -/
  | rekeyTimeout (idle : Bool)
  /-- `OnOutgoingUserauthSuccess`, Connection.cxx:1402-1419 -/
  | targetSuccess
  /-- a packet from the target is forwarded; ProxyConnectionHandler.cxx -/
  | targetPacket (msg : UInt8) (big : Bool)
  /-- `OnOutgoingDisconnecting`, Connection.cxx:1435-1448 -/
  | targetDisconnecting
  /-- `Dispose`, `OnOutgoingError`, `OnOutgoingUserauthFailure`, Connection.cxx:1336-1360, 1421-1432 -/
  | targetGone (big : Bool)
  /-- everything has been written; `OnBufferedWrite`, ssh/Connection.cxx:866-881 -/
  | flushed
  /-- the peer has closed the connection, an error, or the time limit for writing -/
  | lost
  deriving DecidableEq, Repr

/-- What is done; the cited functions. -/
def Down.react (s : Down) (ev : DownEv) : Down :=
  match ev with
  | .input ws e => bif s.dead then s else s.works ws e
  | .resumed ws e finished => bif s.task then { s with task := !finished }.works ws e else s
  | .channel ws e => if 0 < s.channels then s.works ws e else s
  | .request ws e => if 0 < s.requests then s.works ws e else s
  | .listener ws e => if 0 < s.listeners then s.works ws e else s
  | .authTimeout => bif s.authTimer then { s with authTimer := false }.doDisconnect false else s
  | .rekeyTimeout idle =>
    bif s.rekeyTimer then
      let s := { s with rekeyTimer := false }.check !s.dead
      bif idle then s.send 20 false else s
    else s
  | .targetSuccess =>
    if s.outgoing = some false then
      { s.addHandler with outgoing := some true, proxied := true }.send 52 false
    else s
  | .targetPacket msg big => bif s.proxied then s.send msg big else s
  | .targetDisconnecting => { s with proxied := false }
  | .targetGone big =>
    bif s.outgoing.isSome then { s with proxied := false, outgoing := none }.doDisconnect big else s
  | .flushed => bif s.dead then s.dispose else s
  | .lost => s.dispose

/-- A deleted object does nothing. -/
def Down.step (s : Down) (ev : DownEv) : Down := bif s.gone then s else s.react ev

def Down.run (s : Down) (evs : List DownEv) : Down := evs.foldl Down.step s

end Lukko.Model
