import Verif.Model.Server
import Verif.Model.Identity
/-
  A connection of the server with the session channels on it: what `ChannelSupport`
  (/repo/src/ssh/CSupport.cxx) does with messages for them (Server.lean has the layers below,
  Session.lean a single session channel).

  Channels of other kinds are not included; they only take up channel numbers.  When a message makes a
  session throw, `SessCh.stop` says so; that the connection is closed by this is left out (the client's
  further messages are passed to the other channels as if it were not).
-/
namespace Lukko.Model
open Spec (AuthEntry SessEntry Restrictions AccountSettings)

structure HostEnv (σ : Type) where
  server : ServerEnv σ
  /-- `getpwnam()` -/
  pw : Bytes → Nat × Nat × Bytes
  /-- the other settings in an answer of the translation server -/
  settings : Spec.Account → AccountSettings
  /-- settings of the listener -/
  sess : SessCfg

/-- A `SessionChannel` in the array `channels`, or what became of it. -/
structure Session where
  /-- `local_channel` -/
  number : Nat
  /-- `peer_channel` -/
  peer : Nat
  cfg : SessCfg
  ch : SessCh
  /-- still in the array (also as `TombstoneChannel`) -/
  isOpen : Bool := true

structure Host (σ : Type) where
  server : Server σ := {}
  sessions : List Session := []

/-- What the server does not determine itself: the number for a new channel, whether a system call
succeeds, and how much of the data the process takes at once. -/
structure Chance where
  number : Nat
  sysOk : Bool := true
  wrote : Wrote := .wouldBlock

/-- `std::array<Channel *, 64> channels`, CSupport.hxx:62. -/
abbrev MAX_CHANNELS : Nat := 64

/-- The settings of a session channel which is opened now. -/
def Auth.sessCfg {σ} (x : HostEnv σ) (y : Auth) : SessCfg :=
  (y.ident (y.translation.map fun t => x.settings t.account) x.pw).sessCfg { x.sess with sftpOnly := y.sftpOnly }

def Session.handle (s : Session) (ev : SessEvent) : Session :=
  { s with ch := s.ch.step s.cfg ev, isOpen := s.isOpen && !(ev == .gone) }

/-- `HandleChannelOpen`, CSupport.cxx:305-366, for a session; the number is the lowest one which is not in
use (AllocateChannelIndex, CSupport.cxx:204-214); there may be none. -/
def openSession {σ} (x : HostEnv σ) (y : Auth) (c : Chance) (payload : Bytes) (ss : List Session) : List Session :=
  match parseChannelOpen.parse payload with
  | none => ss
  | some p =>
    bif decide (c.number < MAX_CHANNELS) && !(ss.any fun s => s.isOpen && (s.number == c.number)) then
      ss ++ [{ number := c.number, peer := p.peerChannel, cfg := y.sessCfg x,
               ch := SessCh.init y.opts.restrictions p.window }]
    else ss

/-- For which channel a message is, and what it tells a session channel, CSupport.cxx:405-470.
`none`: malformed, or nothing which concerns a session channel. -/
def channelEvent (c : Chance) (msg : UInt8) (payload : Bytes) : Option (Nat × SessEvent) :=
  if msg = MSG_CHANNEL_WINDOW_ADJUST then
    (parseChannelWindowAdjust.parse payload).map fun p => (p.localChannel, .recvAdjust p.nbytes)
  else if msg = MSG_CHANNEL_DATA then
    (parseChannelData.parse payload).map fun p => (p.localChannel, .recvData p.data c.wrote)
  else if msg = MSG_CHANNEL_EXTENDED_DATA then
    (parseChannelExtendedData.parse payload).map fun p => (p.localChannel, .recvExt p.data.length)
  else if msg = MSG_CHANNEL_EOF then
    (parseChannelEof.parse payload).map fun n => (n, .recvEof)
  else if msg = MSG_CHANNEL_CLOSE then
    (parseChannelClose.parse payload).map fun n => (n, .gone)
  else if msg = MSG_CHANNEL_REQUEST then
    (parseChannelRequest.parse payload).map fun p => (p.localChannel, .request p.type p.rest c.sysOk)
  else none

/-- `GetChannel`, CSupport.cxx:216-230 (other numbers: disconnect, left out here). -/
def deliverTo (n : Nat) (ev : SessEvent) (ss : List Session) : List Session :=
  ss.map fun s => bif s.isOpen && (s.number == n) then s.handle ev else s

/-- What happens on the connection is passed to the session channels.  They all use the connection's
restrictions (`GetAuthorizedKeyOptions`, Connection.hxx:188-190). -/
def deliver {σ} (x : HostEnv σ) (y : Auth) (c : Chance) (payload : Bytes) (e : AuthEntry) (ss : List Session) :
    List Session :=
  match e with
  | .openSession => openSession x y c payload ss
  | .restricted r => ss.map fun s => bif s.isOpen then s.handle (.restricted r) else s
  | .channelMessage msg p =>
    match channelEvent c msg p with
    | some (n, ev) => deliverTo n ev ss
    | none => ss
  | _ => ss

/-- All new entries, in order; `payload` is the message in question. -/
def deliverAll {σ} (x : HostEnv σ) (y : Auth) (c : Chance) : Bytes → List AuthEntry → List Session → List Session
  | _, [], ss => ss
  | _, .received _ p :: es, ss => deliverAll x y c p es ss
  | p, e :: es, ss => deliverAll x y c p es (deliver x y c p e ss)

/-- Events of a session channel which are caused neither by the client nor by the connection. -/
def SessEvent.isLocal : SessEvent → Bool
  | .request .. | .restricted _ | .recvData .. | .recvExt _ | .recvEof | .recvAdjust _ => false
  | _ => true

/-- The message which is sent to the client, Channel.cxx:98-149, CSupport.cxx:178-189 (exit status, signal and the
answers to requests are in Model/Messages and Model/Requests). -/
def sessMessage (peer : Nat) : SessEntry → Option Bytes
  | .sent .stderr bs => serialized (makeChannelExtendedData peer 1 bs)
  | .sent _ bs => serialized (makeChannelData peer bs)
  | .io (.tx .eof) => serialized (makeChannelEof peer)
  | .io (.tx .close) => serialized (makeChannelClose peer)
  | .io (.tx (.adjust n)) => serialized (makeChannelWindowAdjust peer n)
  | _ => none

/-- What the session channels have sent: the new entries of each of them. -/
def newMessages : List Session → List Session → List Bytes
  | s :: ss, s' :: ss' => (s'.ch.s.log.drop s.ch.s.log.length).filterMap (sessMessage s.peer) ++ newMessages ss ss'
  | _, _ => []

inductive HostEvent
  | server (ev : ServerEvent) (c : Chance)
  /-- something happens to a session (the `i`-th one of all) -/
  | session (i : Nat) (ev : SessEvent)

/-- The sessions have changed; what they have to say is sent. -/
def Host.settle {σ} (x : HostEnv σ) (s : Server σ) (old new : List Session) : Option (Host σ) :=
  (s.run x.server ((newMessages old new).map .send)).map fun s => { server := s, sessions := new }

/-- One event; `none` = an `assert()` failed. -/
def Host.step {σ} (x : HostEnv σ) (h : Host σ) : HostEvent → Option (Host σ)
  | .server ev c =>
    (h.server.step x.server ev).bind fun s =>
      Host.settle x s h.sessions
        (deliverAll x s.auth c [] (s.auth.log.drop h.server.auth.log.length) h.sessions)
  | .session i ev =>
    bif ev.isLocal then Host.settle x h.server h.sessions (h.sessions.modify i (·.handle ev))
    else some h

def Host.run {σ} (x : HostEnv σ) : Host σ → List HostEvent → Option (Host σ)
  | h, [] => some h
  | h, ev :: evs => (h.step x ev).bind fun h => h.run x evs

end Lukko.Model
