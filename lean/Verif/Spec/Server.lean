import Verif.Spec.Auth
import Verif.Spec.Channel
/-
  Specification of a server connection with both of its layers: transport (described by what was
  received and sent) and authentication.  Nothing here refers to the model.
-/
namespace Lukko.Spec

/-- The messages of the client which were acted upon, with their message numbers. -/
def clientMessages (log : List AuthEntry) : List Bytes :=
  log.filterMap fun | .received m p => some (m :: p) | _ => none

/-- The packets received after the first keys for receiving were put into use. -/
def receivedEncrypted (log : List Entry) : List Bytes := received ((log.dropWhile (!·.isInstallIn)).drop 1)

/-- All packets sent, in order. -/
def packetsSent (posts : List Outgoing) : List Bytes := posts.filterMap fun | .packet p => some p | _ => none

/-- A message of the transport layer (RFC 4251 section 7: numbers below 50). -/
def IsTransportMessage (p : Bytes) : Prop := ∃ m rest, p = m :: rest ∧ m < 50

/-- The message which tells the client about it (RFC 4253 section 10, RFC 4252 sections 5.1 and 7). -/
def AuthEntry.message? : AuthEntry → Option Bytes
  | .serviceAccepted name => some (6 :: str name)
  | .failure methods => some (51 :: (str methods ++ bool false))
  | .keyOk algorithm key => some (60 :: (str algorithm ++ str key))
  | .success => some [52]
  | .toClient msg payload => some (msg :: payload)
  | _ => none

end Lukko.Spec
