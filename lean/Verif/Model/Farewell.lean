import Verif.Model.Strict
/-
  The end of a connection with channels of all kinds.  When DISCONNECT is sent, all channels are deleted
  (`ChannelSupport::OnDisconnecting`, /repo/src/ssh/CSupport.cxx:563-572, called by `OnDisconnecting`,
  /repo/src/ssh/Connection.cxx:244-250); when the connection is closed without it, so is everything which belongs to it
  (`~Connection`, /repo/src/Connection.hxx:66-102, `~ChannelSupport`, CSupport.cxx:31-35).  For the listeners see
  `House.settle`.

  An object which has been deleted still is in the model, as a record of what has happened; its `stop` is set.
-/
namespace Lukko.Model
open Spec (RelayEntry)

/-- `~SessionChannel`, SessionChannel.cxx:60-66; with `child`, the process is killed (`ChildProcessHandle`). -/
def Session.destroy (s : Session) : Session :=
  { s with isOpen := false, ch := { s.ch with s := s.ch.s.dropChild, stop := s.ch.stop.or (some .connection) } }

/-- `~SocketChannel`, SocketChannel.cxx:21-24: the connection to the host is closed. -/
def Relay.destroy (y : Relay) : Relay :=
  match y.ch.stop with
  | some _ => y
  | none => { y with ch := { y.ch with stop := some .connection }, log := y.log ++ [.dies] }

/-- The same, or `~OpeningChannel`, CSupport.cxx:165-168, with which the attempt to connect is given up. -/
def Tunnel.destroy (t : Tunnel) : Tunnel := { t with isOpen := false, relay := t.relay.map Relay.destroy }

/-- The same, or `~RequestedChannel`, CSupport.cxx:65-68, or `~TombstoneChannel`. -/
def Incoming.destroy (c : Incoming) : Incoming := { c with line := c.line.destroy }

/-- Everything is deleted. -/
def House.farewell {σ} (h : House σ) : House σ :=
  { h with
    sessions := h.sessions.map Session.destroy
    tunnels := h.tunnels.map Tunnel.destroy
    board := { h.board with calls := h.board.calls.map Incoming.destroy } }

/-- One event; `none` = an `assert()` failed. -/
def House.fullStep {σ} (x : HouseEnv σ) (h : House σ) (ev : HouseEvent) : Option (House σ) :=
  (h.strictStep x ev).map fun h => bif h.server.live then h else h.farewell

def House.fullRun {σ} (x : HouseEnv σ) : House σ → List HouseEvent → Option (House σ)
  | h, [] => some h
  | h, ev :: evs => (h.fullStep x ev).bind fun h => h.fullRun x evs

end Lukko.Model
