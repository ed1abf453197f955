import Verif.Base
/-
  Specification: the life of incoming connections, the statistics and the log lines about them.
  Connections are numbered in the order in which they are accepted.
-/
namespace Lukko.Spec

/-- The published statistics about connections. -/
inductive CensusCounter
  /-- "connections_accepted" -/
  | accepted
  /-- "connections_rejected" -/
  | rejected
  /-- "connections_closed" with reason "terminated", "unsupported_service", "protocol" -/
  | terminated | unsupportedService | protocol
  deriving DecidableEq, Repr

/-- The log lines about the end of a connection. -/
inductive EndLine
  | disconnected | disconnecting | clientDisconnected | terminating | authTimeout
  | outgoingDisconnecting | outgoingDisconnected
  deriving DecidableEq, Repr

inductive CensusEntry
  /-- the kernel handed out a connection -/
  | accepted (id : Nat)
  /-- it is turned away: too many connections of this client -/
  | refused (id : Nat)
  /-- it has to wait, because the client is throttled -/
  | waits (id : Nat)
  /-- the client went away while waiting -/
  | left (id : Nat)
  /-- it could not be set up -/
  | failed (id : Nat)
  /-- it is served -/
  | started (id : Nat)
  /-- the server says good-bye, with this reason -/
  | goodbye (id reason : Nat)
  /-- it is gone -/
  | ended (id : Nat)
  /-- the client asked for a service which does not exist -/
  | wrongService (id : Nat)
  /-- the client offered a key which cannot be parsed (this is refused, and the connection goes on) -/
  | badKey (id : Nat)
  /-- the administrator ordered that the connection be terminated -/
  | order (id : Nat)
  /-- a counter is incremented on account of this connection -/
  | count (id : Nat) (c : CensusCounter)
  /-- a line is logged -/
  | line (id : Nat) (l : EndLine)
  deriving DecidableEq, Repr

/-- The value of a counter. -/
def census (c : CensusCounter) (log : List CensusEntry) : Nat :=
  log.countP fun e => match e with | .count _ c' => c' == c | _ => false

/-- How often a connection was counted as rejected or closed. -/
def countedClosed (id : Nat) (log : List CensusEntry) : Nat :=
  log.countP fun e => match e with | .count i c => i == id && c != .accepted | _ => false

/-- The log lines about the end of a connection. -/
def endLines (id : Nat) (log : List CensusEntry) : Nat :=
  log.countP fun e => match e with | .line i _ => i == id | _ => false

/-- Reasons which are counted as protocol errors: PROTOCOL_ERROR, KEY_EXCHANGE_FAILED, MAC_ERROR, COMPRESSION_ERROR,
PROTOCOL_VERSION_NOT_SUPPORTED, ILLEGAL_USER_NAME. -/
def protocolReason (n : Nat) : Bool := n == 2 || n == 3 || n == 5 || n == 6 || n == 8 || n == 15

/-- Reasons which mean that the client is not welcome: HOST_NOT_ALLOWED_TO_CONNECT, TOO_MANY_CONNECTIONS. -/
def unwelcomeReason (n : Nat) : Bool := n == 1 || n == 12

/-- Occasions on which a connection is counted. -/
def protocolGoodbyes (log : List CensusEntry) : Nat :=
  log.countP fun e => match e with | .goodbye _ n => protocolReason n | _ => false
def unwelcomeGoodbyes (log : List CensusEntry) : Nat :=
  log.countP fun e => match e with | .goodbye _ n => unwelcomeReason n | _ => false
def badKeys (log : List CensusEntry) : Nat :=
  log.countP fun e => match e with | .badKey _ => true | _ => false
def orders (log : List CensusEntry) : Nat :=
  log.countP fun e => match e with | .order _ => true | _ => false
def wrongServices (log : List CensusEntry) : Nat :=
  log.countP fun e => match e with | .wrongService _ => true | _ => false
def refusals (log : List CensusEntry) : Nat :=
  log.countP fun e => match e with | .refused _ => true | _ => false

/-- Unparsable keys and orders on account of one connection. -/
def badKeysOf (id : Nat) (log : List CensusEntry) : Nat :=
  log.countP fun e => match e with | .badKey i => i == id | _ => false
def ordersOf (id : Nat) (log : List CensusEntry) : Nat :=
  log.countP fun e => match e with | .order i => i == id | _ => false

/-- How many connections were accepted, and what became of them. -/
def acceptances (log : List CensusEntry) : Nat :=
  log.countP fun e => match e with | .accepted _ => true | _ => false
def failuresToStart (log : List CensusEntry) : Nat :=
  log.countP fun e => match e with | .failed _ => true | _ => false
def departures (log : List CensusEntry) : Nat :=
  log.countP fun e => match e with | .left _ => true | _ => false
def starts (log : List CensusEntry) : Nat :=
  log.countP fun e => match e with | .started _ => true | _ => false
def endings (log : List CensusEntry) : Nat :=
  log.countP fun e => match e with | .ended _ => true | _ => false

end Lukko.Spec
