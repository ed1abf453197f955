import Verif.Spec.Caller
/-
  Specification of a server which passes on connections to another one.  Nothing here refers to the model.
-/
namespace Lukko.Spec

/-- A message of the connection protocol (RFC 4251 section 7: numbers from 80). -/
def isConnection (p : Bytes) : Bool := decide (80 ≤ p.headD 0)

/-- Those which were sent, in order. -/
def connectionSent (posts : List Outgoing) : List Bytes := (packetsSent posts).filter isConnection

/-- The messages with the numbers that RFC 4254 defines. -/
def isDefined : Bytes → Bool
  | m :: _ => decide (IsConnectionMessage m)
  | [] => false

/-- What the target has sent since it granted the login. -/
def targetTalk (log : List TargetEntry) : List Bytes := targetMessages (log.dropWhile (· != .loggedIn))

end Lukko.Spec
