import Verif.Spec.Messages
import Verif.Spec.Session
import Verif.Spec.Relay
import Verif.Spec.Auth
/-
  Specification of the data which is sent to the client.  Nothing here refers to the model.
-/
namespace Lukko.Spec

/-- A message with which data is sent on a channel: CHANNEL_DATA or CHANNEL_EXTENDED_DATA (RFC 4254 section 5.2). -/
def isData (p : Bytes) : Bool := (p.headD 0 == 94) || (p.headD 0 == 95)

/-- A message which allows the client to send more: CHANNEL_WINDOW_ADJUST. -/
def isAdjust (p : Bytes) : Bool := p.headD 0 == 93

/-- One of these. -/
def isFlow (p : Bytes) : Bool := isData p || isAdjust p

/-- What the client is sent when a session passes something on: its standard output, its terminal or a message for the user as CHANNEL_DATA,
its standard error as CHANNEL_EXTENDED_DATA; `peer` is the number the client has given the channel. -/
def sessionData (peer : Nat) : SessEntry → Option Bytes
  | .sent .stderr bs => some (95 :: channelExtendedDataBody peer 1 bs)
  | .sent _ bs => some (94 :: channelDataBody peer bs)
  | _ => none

/-- What it is sent when bytes from the other end of a forwarded connection are passed on. -/
def socketData (peer : Nat) : RelayEntry → Option Bytes
  | .toClient bs => some (94 :: channelDataBody peer bs)
  | _ => none

/-- What it is sent when a session allows it to send more, or a forwarded connection. -/
def sessionGives (peer : Nat) : SessEntry → Option Bytes
  | .io (.tx (.adjust k)) => some (93 :: windowAdjustBody peer k)
  | _ => none

def socketGives (peer : Nat) : IoEntry → Option Bytes
  | .tx (.adjust k) => some (93 :: windowAdjustBody peer k)
  | _ => none

/-- A message which has come from the server to which the connection is passed on as a whole. -/
def targetData : AuthEntry → Option Bytes
  | .toClient m q => some (m :: q)
  | _ => none

end Lukko.Spec
