import Verif.Model.Tunnel
import Verif.Model.Listeners
import Verif.Spec.Reverse
/-
  A connection of the server with the remote forwardings on it: the client asks the server to listen on an address, and
  the connections which arrive there are passed to the client (/repo/src/SocketForwardListener.cxx, /repo/src/Connection.cxx,
  /repo/src/ssh/CSupport.cxx; Server.lean has the layers below, Listeners.lean the list of listeners, Relay.lean a single
  forwarded connection).

  Channels of other kinds are not included: they take up channel numbers, and what they send is an event
  (`ServerEvent.send`).  When a message makes a channel throw, `SockCh.stop` says so; that the connection is closed by
  this is left out, and so is the disconnect after a message for a channel which does not exist or is not yet confirmed.
  The defect described in C23 (use after free when the client refuses a connection) is left out: the connection is closed.
-/
namespace Lukko.Model
open Spec (AuthEntry RelayEntry FwEntry)

/-- A connection which has arrived at a listener: the `Factory` with its `RequestedChannel`, SocketForwardListener.cxx:18-73,
CSupport.cxx:47-104, and what becomes of it: a `SocketChannel` or a `TombstoneChannel`.  The `Factory` exists as long as the
connection is in `Rfw.waiting`; if it does not exist any more, the `RequestedChannel` is `canceled`. -/
structure Incoming where
  /-- the number of the connection in `Rfw` -/
  call : Nat
  /-- `bind_address`, `bind_port` -/
  host : Bytes
  port : Nat
  /-- `peer_address`, `peer_port` -/
  origin : Bytes
  originPort : Nat
  /-- the channel; `peer` and `window` are known as soon as the client has confirmed it -/
  line : Tunnel
  /-- the client has confirmed it after it was canceled -/
  tomb : Bool := false

/-- It is a `RequestedChannel`. -/
def Incoming.awaits (c : Incoming) : Bool := c.line.isOpen && c.line.relay.isNone && !c.tomb

/-- The listeners and what has arrived there. -/
structure Board where
  fw : Rfw := {}
  calls : List Incoming := []

structure Desk (σ : Type) where
  server : Server σ := {}
  board : Board := {}

/-- `OpenChannel`, CSupport.cxx:113-134, with `SerializeOpen`, SocketForwardListener.cxx:56-82; the number is the lowest one
which is not in use (AllocateChannelIndex, CSupport.cxx:203-214). -/
def offerMessage (number : Nat) (l : FwListener) (origin : Bytes) (originPort : Nat) : Option Bytes :=
  serialized (makeChannelOpen (ascii "forwarded-tcpip") number RECEIVE_WINDOW 32768
    (Spec.str l.host ++ (Spec.u32 l.port ++ (Spec.str origin ++ Spec.u32 originPort))))

/-- A new `Factory` and `RequestedChannel`, SocketForwardListener.cxx:32-47, CSupport.cxx:53-64, after this message. -/
def Incoming.offer (call : Nat) (l : FwListener) (origin : Bytes) (originPort number : Nat) (p : Bytes) : Incoming where
  call := call
  host := l.host
  port := l.port
  origin := origin
  originPort := originPort
  line := { number := number, peer := 0, window := 0, target := .bindTcp l.host l.port, out := [p] }

/-- `OnAccept`, SocketForwardListener.cxx:136-151. -/
def Board.accept (b : Board) (i number : Nat) (origin : Bytes) (originPort : Nat) : Board :=
  match b.fw.listeners[i]? with
  | none => b
  | some l =>
    bif decide (number < MAX_CHANNELS) && !(b.calls.any fun c => c.line.isOpen && (c.line.number == number)) then
      match offerMessage number l origin originPort with
      | none => { b with fw := b.fw.accept i false }
      | some p =>
        { fw := b.fw.accept i true
          calls := b.calls ++ [.offer b.fw.conn l origin originPort number p] }
    else { b with fw := b.fw.accept i false }

/-- `CreateChannel`, SocketForwardListener.cxx:84-94, with the parameters of `OnChannelOpenConfirmation`, CSupport.cxx:72-84. -/
def Incoming.join (c : Incoming) (peer window : Nat) : Incoming :=
  { c with line := { c.line with peer := peer, window := window, relay := some (Relay.init window) } }

/-- The client has confirmed a connection which does not exist any more: it is told to close the channel, CSupport.cxx:374-389. -/
def Incoming.bury (c : Incoming) (peer : Nat) : Incoming :=
  { c with tomb := true, line := { c.line with out := c.line.out ++ (serialized (makeChannelClose peer)).toList } }

/-- `OnChannelOpenFailure`, CSupport.cxx:87-97, 395-402. -/
def Incoming.refuse (c : Incoming) : Incoming := { c with line := { c.line with isOpen := false } }

/-- `PopRequestedChannel`, CSupport.cxx:232-245 (other numbers: disconnect, left out here), and what is done with it: `f`, which
is told whether the `Factory` still exists; `e` is what happens to the `Factory` then. -/
def pop (fw : Rfw) (n : Nat) (e : Nat → FwEntry) (f : Bool → Incoming → Incoming) : List Incoming → Rfw × List Incoming
  | [] => (fw, [])
  | c :: cs =>
    bif c.awaits && (c.line.number == n) then
      (fw.resolve c.call (e c.call), f (fw.waiting.any (·.1 == c.call)) c :: cs)
    else ((pop fw n e f cs).1, c :: (pop fw n e f cs).2)

/-- A message for this channel, CSupport.cxx:405-460; a `TombstoneChannel` only waits for CHANNEL_CLOSE. -/
def Incoming.handle (nd : Bool) (c : Incoming) (ev : RelayEvent) : Incoming :=
  bif c.tomb && (ev == .clientClose) then { c with line := { c.line with isOpen := false } }
  else { c with line := c.line.handle nd ev }

/-- A message about a channel, CSupport.cxx:365-460. -/
def Board.message (nd : Bool) (c : Chance) (b : Board) (msg : UInt8) (payload : Bytes) : Board :=
  if msg = MSG_CHANNEL_OPEN_CONFIRMATION then
    match parseChannelOpenConfirmation.parse payload with
    | none => b
    | some q =>
      let r := pop b.fw q.localChannel .joined (fun w i => bif w then i.join q.peerChannel q.window else i.bury q.peerChannel) b.calls
      { fw := r.1, calls := r.2 }
  else if msg = MSG_CHANNEL_OPEN_FAILURE then
    match parseChannelOpenFailure.parse payload with
    | none => b
    | some q =>
      let r := pop b.fw q.localChannel .dropped (fun _ i => i.refuse) b.calls
      { fw := r.1, calls := r.2 }
  else
    match tunnelEvent c msg payload with
    | none => b
    | some (n, ev) => { b with calls := b.calls.map fun i => bif i.line.isOpen && (i.line.number == n) then i.handle nd ev else i }

/-- What happens on the connection, Connection.cxx:1183-1223, CSupport.cxx:490-545. -/
def Board.entry (nd : Bool) (c : Chance) (b : Board) : AuthEntry → Board
  | .channelMessage msg payload => b.message nd c msg payload
  | e => { b with fw := b.fw.effect e }

/-- What was sent to the client about the connections. -/
def callMessages : List Incoming → List Incoming → List Bytes
  | c :: cs, c' :: cs' => c'.line.out.drop c.line.out.length ++ callMessages cs cs'
  | [], c' :: cs' => c'.line.out ++ callMessages [] cs'
  | _, [] => []

inductive DeskEvent
  | server (ev : ServerEvent) (c : Chance)
  /-- the address of the `n`-th request was resolved, and so on; `none`: failed -/
  | bound (n : Nat) (res : Option Nat)
  /-- a connection arrives at the `i`-th listener; the channel gets this number -/
  | accept (i number : Nat) (origin : Bytes) (originPort : Nat)
  /-- the `i`-th connection is closed by its other end while it waits, SocketForwardListener.cxx:69-72 -/
  | hangup (i : Nat)
  /-- something happens to the `i`-th connection -/
  | relay (i : Nat) (ev : RelayEvent)

/-- What does not come from the client. -/
def Board.happens (nd : Bool) (b : Board) : DeskEvent → Board
  | .server .. => b
  | .bound n res => { b with fw := b.fw.bound n res }
  | .accept i number origin originPort => b.accept i number origin originPort
  | .hangup i =>
    match b.calls[i]? with
    | none => b
    | some c => { b with fw := b.fw.resolve c.call (.dropped c.call) }
  | .relay i ev => { b with calls := b.calls.modify i fun c => bif ev.isLocal then { c with line := c.line.handle nd ev } else c }

/-- What there is to say is sent; when the connection ends, so do the listeners and what waits there, Connection.cxx:206-212,
1269. -/
def Desk.settle {σ} (x : HubEnv σ) (h : Desk σ) (s : Server σ) (b : Board) : Option (Desk σ) :=
  (s.run x.server ((callMessages h.board.calls b.calls).map .send)).map fun s =>
    { server := s, board := bif h.server.live && !s.live then { b with fw := b.fw.finish } else b }

/-- One event; `none` = an `assert()` failed. -/
def Desk.step {σ} (x : HubEnv σ) (h : Desk σ) : DeskEvent → Option (Desk σ)
  | .server ev c =>
    (h.server.step x.server ev).bind fun s =>
      h.settle x s (bif h.server.live then
        (s.auth.log.drop h.server.auth.log.length).foldl (Board.entry x.ndebug c) h.board
      else h.board)
  | ev => h.settle x h.server (h.board.happens x.ndebug ev)

def Desk.run {σ} (x : HubEnv σ) : Desk σ → List DeskEvent → Option (Desk σ)
  | h, [] => some h
  | h, ev :: evs => (h.step x ev).bind fun h => h.run x evs

end Lukko.Model
