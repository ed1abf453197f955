import Verif.Model.Host
import Verif.Model.Relay
import Verif.Spec.Tunnel
/-
  A connection of the server with the forwarded connections on it which the client has asked for
  (`direct-tcpip` and `direct-streamlocal@openssh.com`, /repo/src/Connection.cxx, /repo/src/ssh/CSupport.cxx;
  Server.lean has the layers below, Relay.lean a single forwarded connection).

  Channels of other kinds are not included: they take up channel numbers, and what they send is an event
  (`ServerEvent.send`).  When a message makes a channel throw, `SockCh.stop` says so; that the connection is closed by
  this is left out, and so is the disconnect after a message for a channel which does not exist or which is not yet
  connected (the client's further messages are passed on as if it were not).
-/
namespace Lukko.Model
open Spec (AuthEntry RelayEntry IoEntry)

structure HubEnv (σ : Type) where
  server : ServerEnv σ
  /-- are assertions compiled out? -/
  ndebug : Bool

/-- An `OpeningChannel` or a `SocketChannel` in the array `channels`, or what became of it. -/
structure Tunnel where
  /-- `local_channel` -/
  number : Nat
  /-- `peer_channel` -/
  peer : Nat
  /-- `initial_window_size` -/
  window : Nat
  /-- to what the client wants to be connected -/
  target : AuthEntry
  /-- as soon as the connection to the host is established -/
  relay : Option Relay := none
  /-- still in the array (also as `TombstoneChannel`) -/
  isOpen : Bool := true
  /-- record of the messages which were sent to the client -/
  out : List Bytes := []

structure Hub (σ : Type) where
  server : Server σ := {}
  tunnels : List Tunnel := []

/-- CHANNEL_WINDOW_ADJUST, Channel.cxx:98-107. -/
def adjustMessage (peer : Nat) : IoEntry → Option Bytes
  | .tx (.adjust n) => serialized (makeChannelWindowAdjust peer n)
  | _ => none

/-- CHANNEL_DATA, Channel.cxx:109-120; CHANNEL_CLOSE, CSupport.cxx:189, 455. -/
def relayMessage (peer : Nat) : RelayEntry → Option Bytes
  | .toClient bs => serialized (makeChannelData peer bs)
  | .closes => serialized (makeChannelClose peer)
  | _ => none

/-- What is sent in an event; first, data is passed to the socket, SocketChannel.cxx:62-63, 97-100, then something is read
from it and the channel may be closed, SocketChannel.cxx:105-141. -/
def relayMessages (peer : Nat) (old new : Relay) : List Bytes :=
  (new.ch.sock.log.drop old.ch.sock.log.length).filterMap (adjustMessage peer) ++
  (new.log.drop old.log.length).filterMap (relayMessage peer)

/-- An event of a channel; `HandleChannelClose` removes it from the array, CSupport.cxx:457-458. -/
def Tunnel.handle (nd : Bool) (t : Tunnel) (ev : RelayEvent) : Tunnel :=
  match t.relay with
  | none => t
  | some r =>
    { t with relay := some (r.step nd ev), isOpen := t.isOpen && !(ev == .clientClose),
             out := t.out ++ relayMessages t.peer r (r.step nd ev) }

/-- The connection to the host is established: `OnCompletion`, Connection.cxx:647-651, 694-698, and
`AsyncChannelOpenSuccess`, CSupport.cxx:264-285. -/
def Tunnel.connected (t : Tunnel) : Tunnel :=
  match t.relay with
  | some _ => t
  | none =>
    bif t.isOpen then
      { t with relay := some (Relay.init t.window),
               out := t.out ++ (serialized (makeChannelOpenConfirmation t.peer t.number RECEIVE_WINDOW 32768)).toList }
    else t

/-- It could not be established: `OnCompletion`, Connection.cxx:641-646, 688-693, and `AsyncChannelOpenFailure`,
CSupport.cxx:287-303 (reason 2: CONNECT_FAILED). -/
def Tunnel.failed (t : Tunnel) (text : Bytes) : Tunnel :=
  match t.relay with
  | some _ => t
  | none =>
    bif t.isOpen then
      { t with isOpen := false, out := t.out ++ (serialized (makeChannelOpenFailure t.peer 2 text)).toList }
    else t

/-- `HandleChannelOpen`, CSupport.cxx:305-334, with an asynchronous operation, Connection.cxx:745-747, 762-764; the number is
the lowest one which is not in use (AllocateChannelIndex, CSupport.cxx:204-214); there may be none. -/
def openTunnel (c : Chance) (payload : Bytes) (target : AuthEntry) (ts : List Tunnel) : List Tunnel :=
  match parseChannelOpen.parse payload with
  | none => ts
  | some p =>
    bif decide (c.number < MAX_CHANNELS) && !(ts.any fun t => t.isOpen && (t.number == c.number)) then
      ts ++ [{ number := c.number, peer := p.peerChannel, window := p.window, target := target }]
    else ts

/-- For which channel a message is, and what it tells a forwarded connection, CSupport.cxx:405-460.
`none`: malformed, or nothing which concerns a forwarded connection. -/
def tunnelEvent (c : Chance) (msg : UInt8) (payload : Bytes) : Option (Nat × RelayEvent) :=
  if msg = MSG_CHANNEL_WINDOW_ADJUST then
    (parseChannelWindowAdjust.parse payload).map fun p => (p.localChannel, .clientAdjust p.nbytes)
  else if msg = MSG_CHANNEL_DATA then
    (parseChannelData.parse payload).map fun p => (p.localChannel, .clientData p.data c.wrote)
  else if msg = MSG_CHANNEL_EXTENDED_DATA then
    (parseChannelExtendedData.parse payload).map fun p => (p.localChannel, .clientExt p.data.length)
  else if msg = MSG_CHANNEL_EOF then
    (parseChannelEof.parse payload).map fun n => (n, .clientEof)
  else if msg = MSG_CHANNEL_CLOSE then
    (parseChannelClose.parse payload).map fun n => (n, .clientClose)
  else none

/-- `GetChannel`, CSupport.cxx:216-230 (other numbers: disconnect, left out here). -/
def routeTo (nd : Bool) (n : Nat) (ev : RelayEvent) (ts : List Tunnel) : List Tunnel :=
  ts.map fun t => bif t.isOpen && (t.number == n) then t.handle nd ev else t

/-- What happens on the connection is passed to the forwarded connections, CSupport.cxx:490-545. -/
def route (nd : Bool) (c : Chance) (payload : Bytes) (e : AuthEntry) (ts : List Tunnel) : List Tunnel :=
  match e with
  | .connectTcp host port => openTunnel c payload (.connectTcp host port) ts
  | .connectLocal path => openTunnel c payload (.connectLocal path) ts
  | .channelMessage msg p =>
    match tunnelEvent c msg p with
    | some (n, ev) => routeTo nd n ev ts
    | none => ts
  | _ => ts

/-- All new entries, in order; `payload` is the message in question. -/
def routeAll (nd : Bool) (c : Chance) : Bytes → List AuthEntry → List Tunnel → List Tunnel
  | _, [], ts => ts
  | _, .received _ p :: es, ts => routeAll nd c p es ts
  | p, e :: es, ts => routeAll nd c p es (route nd c p e ts)

/-- Events of a forwarded connection which are not caused by the client. -/
def RelayEvent.isLocal : RelayEvent → Bool
  | .clientData .. | .clientExt _ | .clientEof | .clientAdjust _ | .clientClose => false
  | _ => true

/-- What the forwarded connections have sent. -/
def tunnelMessages : List Tunnel → List Tunnel → List Bytes
  | t :: ts, t' :: ts' => t'.out.drop t.out.length ++ tunnelMessages ts ts'
  | _, _ => []

inductive HubEvent
  | server (ev : ServerEvent) (c : Chance)
  /-- the `i`-th connection to a host is established -/
  | connected (i : Nat)
  /-- it could not be established -/
  | failed (i : Nat) (text : Bytes)
  /-- something happens to the connection with the host -/
  | relay (i : Nat) (ev : RelayEvent)

/-- The forwarded connections have changed; what they have to say is sent. -/
def Hub.settle {σ} (x : HubEnv σ) (s : Server σ) (old new : List Tunnel) : Option (Hub σ) :=
  (s.run x.server ((tunnelMessages old new).map .send)).map fun s => { server := s, tunnels := new }

/-- What happens to a forwarded connection on the side of the host. -/
def HubEvent.onTunnel (nd : Bool) : HubEvent → Nat × (Tunnel → Tunnel)
  | .connected i => (i, Tunnel.connected)
  | .failed i text => (i, fun t => t.failed text)
  | .relay i ev => (i, fun t => bif ev.isLocal then t.handle nd ev else t)
  | .server .. => (0, id)

/-- One event; `none` = an `assert()` failed. -/
def Hub.step {σ} (x : HubEnv σ) (h : Hub σ) (ev : HubEvent) : Option (Hub σ) :=
  match ev with
  | .server ev c =>
    (h.server.step x.server ev).bind fun s =>
      Hub.settle x s h.tunnels (routeAll x.ndebug c [] (s.auth.log.drop h.server.auth.log.length) h.tunnels)
  | ev => Hub.settle x h.server h.tunnels (h.tunnels.modify (ev.onTunnel x.ndebug).1 (ev.onTunnel x.ndebug).2)

def Hub.run {σ} (x : HubEnv σ) : Hub σ → List HubEvent → Option (Hub σ)
  | h, [] => some h
  | h, ev :: evs => (h.step x ev).bind fun h => h.run x evs

end Lukko.Model
