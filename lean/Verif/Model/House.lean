import Verif.Model.Reverse
/-
  A connection of the server with channels of all kinds on it: sessions (Host.lean), connections to hosts (Tunnel.lean), and
  connections which have arrived at listeners (Reverse.lean).  They share the array `channels`
  (/repo/src/ssh/CSupport.hxx:62) and the connection.

  Not included are the channels for the agent (Agent.lean); they take up channel numbers, and what they send is an event
  (`ServerEvent.send`).  For the rest see the parts.
-/
namespace Lukko.Model

structure HouseEnv (σ : Type) where
  host : HostEnv σ
  /-- are assertions compiled out? -/
  ndebug : Bool

def HouseEnv.hub {σ} (x : HouseEnv σ) : HubEnv σ where
  server := x.host.server
  ndebug := x.ndebug

/-- `class Connection` with everything in `channels`, and `socket_forward_listeners`. -/
structure House (σ : Type) where
  server : Server σ := {}
  sessions : List Session := []
  tunnels : List Tunnel := []
  board : Board := {}

/-- `channels[n] != nullptr`. -/
def House.taken {σ} (h : House σ) (n : Nat) : Bool :=
  (h.sessions.any fun s => s.isOpen && (s.number == n)) || (h.tunnels.any fun t => t.isOpen && (t.number == n)) ||
    (h.board.calls.any fun c => c.line.isOpen && (c.line.number == n))

/-- `AllocateChannelIndex`, CSupport.cxx:203-214: a number which is not in use (the code takes the lowest one; here any), or
`channels.size()`. -/
def House.number {σ} (h : House σ) (n : Nat) : Nat := bif h.taken n then MAX_CHANNELS else n

inductive HouseEvent
  | server (ev : ServerEvent) (c : Chance)
  /-- something happens to the `i`-th session -/
  | session (i : Nat) (ev : SessEvent)
  /-- something happens to a connection to a host -/
  | tunnel (ev : HubEvent)
  /-- something happens to a listener or a connection which has arrived there -/
  | desk (ev : DeskEvent)

/-- What there is to say is sent; when the connection ends, so do the listeners (see `Desk.settle`). -/
def House.settle {σ} (x : HouseEnv σ) (h : House σ) (s : Server σ) (ss : List Session) (ts : List Tunnel) (b : Board) :
    Option (House σ) :=
  (s.run x.host.server ((newMessages h.sessions ss ++ tunnelMessages h.tunnels ts ++ callMessages h.board.calls b.calls).map .send)).map
    fun s => { server := s, sessions := ss, tunnels := ts, board := bif h.server.live && !s.live then { b with fw := b.fw.finish } else b }

/-- With a number which is free. -/
def House.deskEvent {σ} (h : House σ) : DeskEvent → DeskEvent
  | .accept i n origin originPort => .accept i (h.number n) origin originPort
  | ev => ev

/-- A message from the client is passed to the channel with this number, whatever it is, CSupport.cxx:365-470, 490-545;
everything else is for one kind only. -/
def House.deliver {σ} (x : HouseEnv σ) (h : House σ) (s : Server σ) (c : Chance) : Option (House σ) :=
  h.settle x s
    (deliverAll x.host s.auth c [] (s.auth.log.drop h.server.auth.log.length) h.sessions)
    (routeAll x.ndebug c [] (s.auth.log.drop h.server.auth.log.length) h.tunnels)
    (bif h.server.live then (s.auth.log.drop h.server.auth.log.length).foldl (Board.entry x.ndebug c) h.board else h.board)

/-- One event; `none` = an `assert()` failed. -/
def House.step {σ} (x : HouseEnv σ) (h : House σ) : HouseEvent → Option (House σ)
  | .server ev c => (h.server.step x.host.server ev).bind fun s => h.deliver x s { c with number := h.number c.number }
  | .session i ev =>
    bif ev.isLocal then h.settle x h.server (h.sessions.modify i (·.handle ev)) h.tunnels h.board else some h
  | .tunnel ev => h.settle x h.server h.sessions (h.tunnels.modify (ev.onTunnel x.ndebug).1 (ev.onTunnel x.ndebug).2) h.board
  | .desk ev => h.settle x h.server h.sessions h.tunnels (h.board.happens x.ndebug (h.deskEvent ev))

def House.run {σ} (x : HouseEnv σ) : House σ → List HouseEvent → Option (House σ)
  | h, [] => some h
  | h, ev :: evs => (h.step x ev).bind fun h => h.run x evs

end Lukko.Model
