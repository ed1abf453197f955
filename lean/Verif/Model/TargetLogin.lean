import Verif.Model.Keys
import Verif.Spec.TargetLogin
/-
  Logging in to the host a connection is proxied to:
  /repo/src/ssh/UserAuthClient.cxx, /repo/src/OutgoingConnection.cxx and the
  `OnOutgoing…` methods of /repo/src/Connection.cxx which take part in it.
-/
namespace Lukko.Model
open Lukko.Spec (TargetEntry)

/-! ## The requests -/

/-- The data to be signed, UserAuthClient.cxx:56-59 and 94-97. -/
def clientSignedData (sessionId part : Bytes) : Except SerError Bytes := do
  let s ← Ser.empty.writeString sessionId
  let s ← s.writeU8 MSG_USERAUTH_REQUEST
  let s ← s.writeN part
  pure s.buf

/-- UserAuthClient.cxx:41-52. -/
def publicKeyRequestHead (k : SecKey) (alg user : Bytes) (s : Ser) : Except KeyError Ser := do
  let s ← liftSer (s.writeString user)
  let s ← liftSer (s.writeString (ascii "ssh-connection"))
  let s ← liftSer (s.writeString (ascii "publickey"))
  let s ← liftSer (s.writeBool true)
  let s ← liftSer (s.writeString alg)
  s.keyLength (pubKeySerialize k.pub)

/-- UserAuthClient.cxx:78-91. -/
def hostRequestHead (k : SecKey) (alg user host clientUser : Bytes) (s : Ser) : Except KeyError Ser := do
  let s ← liftSer (s.writeString user)
  let s ← liftSer (s.writeString (ascii "ssh-connection"))
  let s ← liftSer (s.writeString (ascii "hostbased"))
  let s ← liftSer (s.writeString alg)
  let s ← s.keyLength (pubKeySerialize k.pub)
  let s ← liftSer (s.writeString host)
  liftSer (s.writeString clientUser)

/-- The common parts of `SendUserAuthRequestPublicKey` and
`SendUserAuthRequestHostbased`, UserAuthClient.cxx:35-67 and 69-105: the
packet, without padding. -/
def signedRequest (c : Crypto) (sessionId : Bytes) (k : SecKey) (alg : Bytes) (head : Ser → Except KeyError Ser) :
    Except KeyError Ser := do
  let s := PacketSer.begin MSG_USERAUTH_REQUEST
  let mark := s.size
  let s ← head s
  let m ← liftSer (clientSignedData sessionId (s.since mark))
  s.keyLength (k.sign c m alg)

/-! ## The state machine -/

/-- `UserAuthClient::State`, UserAuthClient.hxx:24-30. -/
inductive UacState
  | init | serviceRequest | service | request | success
  deriving DecidableEq, Repr

/-- What the machine depends on: the crypto library, the session id of the
outgoing connection, `GetHostKeys().Choose("ssh-ed25519")` with the algorithm
it returns, the user name, and `client_user_name` (Connection.cxx:1374-1385). -/
structure TargetCfg where
  c : Crypto
  sessionId : Bytes
  hostKey : Option (SecKey × Bytes)
  user : Bytes
  clientUser : Bytes

/-- `OutgoingConnection` during the login. `auth`: `user_auth`; `over`: the
outgoing connection was closed or destroyed (an exception leaves the packet
handler, or `OnOutgoingUserauthFailure`); `fault`: a failed assertion. -/
structure Target where
  auth : Option UacState := none
  encrypted : Bool := false
  authenticated : Bool := false
  over : Bool := false
  fault : Bool := false
  log : List TargetEntry := []
  deriving DecidableEq, Repr

def Target.say (t : Target) (e : TargetEntry) : Target := { t with log := t.log ++ [e] }

/-- `SendPacket(s)`. -/
def Target.send (t : Target) (msg : UInt8) (s : Ser) : Target := t.say (.sent msg (s.buf.drop 6))

/-- `UserAuthClient::Start`, UserAuthClient.cxx:26-34, called by
`OutgoingConnection::OnEncrypted`, OutgoingConnection.cxx:60-68.
(`MakeServiceRequest` is `noexcept` and the text is short.) -/
def Target.onEncrypted (t : Target) : Target :=
  if t.auth.isSome then { t with fault := true }
  else
    let t := { t with encrypted := true }
    match makeServiceRequest (ascii "ssh-userauth") with
    | .error _ => { t with fault := true }
    | .ok s => { t.send MSG_SERVICE_REQUEST s with auth := some .serviceRequest }

/-- `UserAuthClient::SendUserAuthRequestHostbased`, UserAuthClient.cxx:69-105. -/
def Target.sendHostRequest (cfg : TargetCfg) (t : Target) (k : SecKey) (alg host : Bytes) : Target :=
  if t.auth ≠ some .service then { t with fault := true }
  else
    match signedRequest cfg.c cfg.sessionId k alg (hostRequestHead k alg cfg.user host cfg.clientUser) with
    | .error .thrown => { t with over := true }
    | .error .assertFailed => { t with fault := true }
    | .ok s => { t.send MSG_USERAUTH_REQUEST s with auth := some .request }

/-- `OnOutgoingUserauthService`, Connection.cxx:1362-1389. -/
def Target.onService (cfg : TargetCfg) (t : Target) : Target :=
  match cfg.hostKey with
  | none => { t with over := true }
  | some (k, alg) => t.sendHostRequest cfg k alg (ascii "localhost")

/-- `HandleServiceAccept`, UserAuthClient.cxx:107-123. -/
def Target.serviceAccept (cfg : TargetCfg) (t : Target) (st : UacState) (payload : Bytes) : Target :=
  match parseServiceAccept.parse payload with
  | none => { t with over := true }
  | some name =>
    if st = .serviceRequest ∧ name = ascii "ssh-userauth" then { t with auth := some .service }.onService cfg
    else { t with over := true }

/-- Messages of the connection protocol, UserAuthClient.cxx:157-170. -/
def isConnectionMessage (msg : UInt8) : Bool :=
  msg == MSG_GLOBAL_REQUEST || msg == MSG_REQUEST_SUCCESS || msg == MSG_REQUEST_FAILURE ||
  msg == MSG_CHANNEL_OPEN || msg == MSG_CHANNEL_OPEN_CONFIRMATION || msg == MSG_CHANNEL_OPEN_FAILURE ||
  msg == MSG_CHANNEL_WINDOW_ADJUST || msg == MSG_CHANNEL_DATA || msg == MSG_CHANNEL_EXTENDED_DATA ||
  msg == MSG_CHANNEL_EOF || msg == MSG_CHANNEL_CLOSE || msg == MSG_CHANNEL_REQUEST ||
  msg == MSG_CHANNEL_SUCCESS || msg == MSG_CHANNEL_FAILURE

/-- `UserAuthClient::HandlePacket`, UserAuthClient.cxx:125-184, with
`OnUserAuthSuccess` and `OnUserAuthFailure`, OutgoingConnection.cxx:40-58. -/
def Target.authPacket (cfg : TargetCfg) (t : Target) (st : UacState) (msg : UInt8) (payload : Bytes) : Target :=
  if !t.encrypted then { t with fault := true }
  else if msg = MSG_SERVICE_ACCEPT then t.serviceAccept cfg st payload
  else if msg = MSG_USERAUTH_FAILURE then
    if st ≠ .request then { t with over := true }
    else { t.say .refused with auth := none, over := true }
  else if msg = MSG_USERAUTH_SUCCESS then
    if st ≠ .request then { t with over := true }
    else { t.say .loggedIn with auth := none, authenticated := true }
  else if isConnectionMessage msg then
    if st ≠ .success then { t with over := true } else t
  else t

inductive TargetEv
  /-- the first key exchange with the target is finished -/
  | encrypted
  | packet (msg : UInt8) (payload : Bytes)
  /-- the connection breaks, or is closed by somebody else -/
  | lost

/-- Packets for which there is no handler are of no interest here. -/
def Target.step (cfg : TargetCfg) (t : Target) (ev : TargetEv) : Target :=
  if t.over ∨ t.fault then t
  else
    match ev with
    | .encrypted => if t.encrypted then t else t.onEncrypted
    | .packet msg payload =>
      match t.auth with
      | none => t.say (.received msg payload)
      | some st => (t.say (.received msg payload)).authPacket cfg st msg payload
    | .lost => { t with over := true }

def Target.run (cfg : TargetCfg) (t : Target) (evs : List TargetEv) : Target := evs.foldl (Target.step cfg) t

end Lukko.Model
