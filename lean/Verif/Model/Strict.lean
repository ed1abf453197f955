import Verif.Model.House
/-
  A connection with channels of all kinds, as in House.lean, but with what was left out there: the exceptions.  A message for a
  channel which does not exist, or which is not yet open, and a message which is malformed, lead to a DISCONNECT; other
  exceptions which are thrown in a channel close the connection (/repo/src/ssh/CSupport.cxx,
  /repo/src/ssh/Connection.cxx:783-800, 931-960).

  There are no channels for the agent on this connection.  A message for a channel which the server has closed and the client
  has not (`TombstoneChannel`) has no effect, unless it is malformed, or CHANNEL_CLOSE.
-/
namespace Lukko.Model
open Spec (AuthEntry)

/-- What is thrown while a message is handled. -/
inductive Verdict
  | fine
  /-- `Disconnect` with PROTOCOL_ERROR and this text -/
  | disconnect (text : Bytes)
  /-- something else: `CloseError` -/
  | close
  deriving DecidableEq, Repr

/-- `GetChannel`, CSupport.cxx:216-230: there is a channel with this number, and it is neither an `OpeningChannel` nor a
`RequestedChannel`. -/
def House.reachable {σ} (h : House σ) (n : Nat) : Bool :=
  (h.sessions.any fun s => s.isOpen && (s.number == n)) ||
    (h.tunnels.any fun t => t.isOpen && t.relay.isSome && (t.number == n)) ||
    (h.board.calls.any fun c => c.line.isOpen && !c.awaits && (c.line.number == n))

/-- `PopRequestedChannel`, CSupport.cxx:232-245. -/
def House.awaited {σ} (h : House σ) (n : Nat) : Bool := h.board.calls.any fun c => c.awaits && (c.line.number == n)

/-- CSupport.cxx:223-226, 238-241. -/
def Verdict.found (ok : Bool) : Verdict := bif ok then .fine else .disconnect (ascii "Bad channel")

/-- ssh/Connection.cxx:794-800; `f` for a message which is well-formed. -/
def Verdict.wellFormed {α} (q : Option α) (f : α → Verdict) : Verdict :=
  match q with
  | none => .disconnect (ascii "Malformed packet")
  | some a => f a

/-- A message about a channel, CSupport.cxx:365-545, as far as it is judged before it is passed to the channel, except for the
receive window (see `Relay.breaks` and `SessCh`). -/
def House.judge {σ} (h : House σ) (msg : UInt8) (payload : Bytes) : Verdict :=
  if msg = MSG_CHANNEL_OPEN_CONFIRMATION then
    .wellFormed (parseChannelOpenConfirmation.parse payload) fun q => .found (h.awaited q.localChannel)
  else if msg = MSG_CHANNEL_OPEN_FAILURE then
    .wellFormed (parseChannelOpenFailure.parse payload) fun q => .found (h.awaited q.localChannel)
  else if msg = MSG_CHANNEL_WINDOW_ADJUST then
    .wellFormed (parseChannelWindowAdjust.parse payload) fun q =>
      if q.nbytes = 0 then .close else .found (h.reachable q.localChannel)
  else if msg = MSG_CHANNEL_DATA then
    .wellFormed (parseChannelData.parse payload) fun q => .found (h.reachable q.localChannel)
  else if msg = MSG_CHANNEL_EXTENDED_DATA then
    .wellFormed (parseChannelExtendedData.parse payload) fun q => .found (h.reachable q.localChannel)
  else if msg = MSG_CHANNEL_EOF then
    .wellFormed (parseChannelEof.parse payload) fun n => .found (h.reachable n)
  else if msg = MSG_CHANNEL_CLOSE then
    .wellFormed (parseChannelClose.parse payload) fun n => .found (h.reachable n)
  else if msg = MSG_CHANNEL_REQUEST then
    .wellFormed (parseChannelRequest.parse payload) fun q => .found (h.reachable q.localChannel)
  else .wellFormed (parseChannelResponse.parse payload) fun n => .found (h.reachable n)

/-- For the first message which is refused. -/
def House.judgeAll {σ} (h : House σ) : List AuthEntry → Verdict
  | [] => .fine
  | .channelMessage msg payload :: es =>
    match h.judge msg payload with
    | .fine => h.judgeAll es
    | v => v
  | _ :: es => h.judgeAll es

/-- An exception which closes the connection was thrown in a channel. -/
def House.threw {σ} (h : House σ) : Bool :=
  (h.sessions.any fun s => s.isOpen && (s.ch.stop == some .connection)) ||
    (h.tunnels.any fun t => t.isOpen && t.relay.any (·.ch.stop == some .connection)) ||
    (h.board.calls.any fun c => c.line.isOpen && c.line.relay.any (·.ch.stop == some .connection))

/-- The exception has its effect: ssh/Connection.cxx:931-960 (`DoDisconnect`, ssh/Connection.cxx:183-195; `CloseError`). -/
def Verdict.events : Verdict → List HouseEvent
  | .fine => []
  | .disconnect text =>
    (serialized (makeDisconnect 2 text)).toList.map (fun p => .server (.send p) { number := 0 }) ++
      [.server (.other .closed) { number := 0 }]
  | .close => [.server (.other .closed) { number := 0 }]

/-- One event; `none` = an `assert()` failed. -/
def House.strictStep {σ} (x : HouseEnv σ) (h : House σ) (ev : HouseEvent) : Option (House σ) :=
  (h.step x ev).bind fun h' =>
  (h'.run x (h.judgeAll (h'.server.auth.log.drop h.server.auth.log.length)).events).bind fun h' =>
    h'.run x (bif h'.threw then Verdict.close else .fine).events

def House.strictRun {σ} (x : HouseEnv σ) : House σ → List HouseEvent → Option (House σ)
  | h, [] => some h
  | h, ev :: evs => (h.strictStep x ev).bind fun h => h.strictRun x evs

end Lukko.Model
