import Verif.Spec.TargetLogin
import Verif.Spec.Server
/-
  Specification of the connection of a proxy to a target, with both of its layers.  Nothing here refers
  to the model.
-/
namespace Lukko.Spec

/-- The messages of the target which were acted upon, with their message numbers. -/
def targetMessages (log : List TargetEntry) : List Bytes :=
  log.filterMap fun | .received m p => some (m :: p) | _ => none

/-- The messages of the login. -/
def loginMessages (log : List TargetEntry) : List Bytes :=
  log.filterMap fun | .sent m p => some (m :: p) | _ => none

/-- A message of the authentication or of the connection protocol (RFC 4251 section 7: numbers from 50). -/
def isUpper (p : Bytes) : Bool := decide (50 ≤ p.headD 0)

/-- Those which were sent, in order. -/
def upperSent (posts : List Outgoing) : List Bytes := (packetsSent posts).filter isUpper

end Lukko.Spec
