import Verif.Model.Auth
import Verif.Spec.Tally
/-
  The part of user authentication which Model/Auth.lean leaves out: the statistics and the token bucket of the
  client.  Every function here accompanies one function there and says which counters are incremented
  (`instance.counters`, Instance.hxx:154-173) and what the client is charged
  (`accounting.UpdateTokenBucket()`), in this order.
-/
namespace Lukko.Model
open Lukko.Spec (Account AuthEntry Tally Counter)

/-- Connection.cxx:1004-1026, 1029; with `Auth.checkKeySignature` -/
def tallyKeySignature (cfg : AuthCfg) (r : AuthReq) (k : KeyReq) (sig : Bytes) : List Tally :=
  match signedData cfg.sessionId (consumed r.payload k.rest) with
  | .error _ => [.count .publickeyFailed]
  | .ok m =>
    match cfg.verify k.blob m sig with
    | some true => [.count .publickeyAccepted]
    | _ => [.count .publickeyFailed]

/-- Connection.cxx:986-999; with `Auth.keyAccepted` -/
def tallyKeyAccepted (cfg : AuthCfg) (r : AuthReq) (k : KeyReq) : List Tally :=
  bif !cfg.parseKey k.blob then [.count .publickeyFailed, .count .protocolError]
  else bif !k.withSig then []
  else
    match parseSignature k.rest with
    | none => []
    | some (sig, _) => tallyKeySignature cfg r k sig

/-- Connection.cxx:976-982; with `Auth.publickey` -/
def Auth.tallyPublickey (cfg : AuthCfg) (y : Auth) (r : AuthReq) : List Tally :=
  match parseKeyReq r.rest with
  | none => []
  | some (k, _) =>
    .tokens 200000000 ::
    match y.findKey cfg k.blob with
    | some _ => tallyKeyAccepted cfg r k
    | none => bif y.useHome then [] else [.count .publickeyFailed]

/-- Connection.cxx:1058-1091, 1122; with `Auth.hostAccepted` -/
def tallyHostAccepted (cfg : AuthCfg) (r : AuthReq) (h : HostReq) : List Tally :=
  bif !cfg.parseKey h.blob then [.count .hostbasedFailed, .count .protocolError]
  else
    match signedData cfg.sessionId (consumed r.payload h.rest) with
    | .error _ => [.count .hostbasedFailed]
    | .ok m =>
      match cfg.verify h.blob m h.sig with
      | some true => [.count .hostbasedAccepted]
      | _ => [.count .hostbasedFailed]

/-- Connection.cxx:1049-1056; with `Auth.hostBased` -/
def tallyHostBased (cfg : AuthCfg) (r : AuthReq) : List Tally :=
  match parseHostReq r.rest with
  | none => []
  | some (h, _) =>
    match cfg.hostKeys.find h.blob with
    | none => [.tokens 10000000000, .count .hostbasedFailed]
    | some _ => tallyHostAccepted cfg r h

/-- Connection.cxx:1132-1140; with `Auth.byMethod` -/
def Auth.tallyMethod (cfg : AuthCfg) (y : Auth) (r : AuthReq) (passwordAccepted : Bool) : List Tally :=
  if r.method = ascii "publickey" then y.tallyPublickey cfg r
  else if r.method = ascii "hostbased" then tallyHostBased cfg r
  else bif passwordAccepted then []
  else if r.method = ascii "none" then [.tokens 100000000]
  else [.count .unsupportedFailed, .tokens 5000000000]

/-- Connection.cxx:881-887, 931-944; with `Auth.accountKnown` -/
def Auth.tallyAccount (cfg : AuthCfg) (y : Auth) (r : AuthReq) (password : Bytes) (a : Account) : List Tally :=
  bif !a.ok then
    [.tokens 8000000000, .count (bif password.isEmpty then .unknownFailed else .passwordFailed)]
  else bif a.shell && !a.shellValid then [.count .translationError, .tokens 2000000000]
  else (bif passwordAccepted a password then [.count .passwordAccepted] else []) ++
    y.tallyMethod cfg r (passwordAccepted a password)

/-- Connection.cxx:281-287; with `Auth.lazyTranslate` -/
def Auth.tallyLazy (cfg : AuthCfg) (y : Auth) (r : AuthReq) (password : Bytes) : List Tally :=
  match y.translation with
  | some t => bif password.isEmpty && t.user == r.user then y.tallyAccount cfg r password t.account else []
  | none => []

/-- Connection.cxx:855-876; with `Auth.withTranslation` -/
def Auth.tallyTranslation (cfg : AuthCfg) (y : Auth) (r : AuthReq) : List Tally :=
  if r.method = ascii "password" then
    match parsePassword r.rest with
    | none => []
    | some ((change, password), _) =>
      bif change then [.count .unsupported]
      else bif password.isEmpty then [.tokens 10000000000, .count .passwordFailed]
      else .tokens 1000000000 :: y.tallyLazy cfg r password
  else y.tallyLazy cfg r []

/-- Connection.cxx:825-836, 953-958; with `Auth.afterTarpit` -/
def Auth.tallyAfter (cfg : AuthCfg) (y : Auth) (r : AuthReq) : List Tally :=
  if r.service ≠ ascii "ssh-connection" then []
  else bif !isValidUsername r.user then [.tokens 10000000000]
  else bif cfg.translation then y.tallyTranslation cfg r
  else bif !cfg.getpwnam r.user then [.count .unknownFailed]
  else y.tallyMethod cfg r false

/-- Connection.cxx:814-823; with `Auth.userAuthRequest` -/
def Auth.tallyRequest (cfg : AuthCfg) (y : Auth) (payload : Bytes) (delay : Bool) : List Tally :=
  match parseAuthReq payload with
  | none => []
  | some r => .count .received :: bif delay then [.count .tarpit] else y.tallyAfter cfg r

/-- `OnUnsupportedService`, Connection.cxx:774-778; with `Auth.serviceRequest` -/
def tallyService (payload : Bytes) : List Tally :=
  match parseServiceRequest.parse payload with
  | none => []
  | some name => if name = ascii "ssh-userauth" then [] else [.count .unsupportedService]

/-- with `Auth.handleUserauthRequest` and `Auth.userAuthPacket` -/
def Auth.tallyPacket (cfg : AuthCfg) (y : Auth) (msg : UInt8) (payload : Bytes) (delay : Bool) : List Tally :=
  match y.laterHandlers msg payload with
  | some _ => []
  | none =>
    bif !y.userAuth then []
    else bif y.task.isSome && !allowedWhileOccupied msg then []
    else if msg = MSG_SERVICE_REQUEST then tallyService payload
    else if msg = MSG_USERAUTH_REQUEST then
      bif y.authenticated then [] else bif !y.haveService then [] else y.tallyRequest cfg payload delay
    else []

/-- Connection.cxx:299-303; with `Auth.translated` -/
def Auth.tallyTranslated (cfg : AuthCfg) (y : Auth) (r : AuthReq) (password : Bytes) : Option Account → List Tally
  | none => [.count .translationError, .tokens 2000000000]
  | some a =>
    { y with translation := some { user := r.user, password := password, account := a } }.tallyAccount cfg r password a

/-- Connection.cxx:978-982; with `Auth.homeRead` -/
def tallyHome (cfg : AuthCfg) (r : AuthReq) (k : KeyReq) (text : Option Bytes) : List Tally :=
  match text.bind fun t => fileContains cfg.decode t k.blob with
  | some _ => tallyKeyAccepted cfg r k
  | none => [.count .publickeyFailed]

/-- with `Auth.resume` -/
def Auth.tallyResume (cfg : AuthCfg) (y : Auth) (t : AuthTask) (ev : AuthEv) : List Tally :=
  match t, ev with
  | .tarpit r, .timer => y.tallyAfter cfg r
  | .translate r password, .translated a => y.tallyTranslated cfg r password a
  | .home r k, .home text => tallyHome cfg r k text
  | _, _ => []

/-- `OnDisconnecting`, Connection.cxx:1279-1306 (the reasons for which `n_rejected_connections` is incremented do
not occur). -/
def tallyDisconnect : AuthEntry → List Tally
  | .disconnected reason => bif [2, 3, 5, 6, 8, 15].contains reason then [.count .protocolError] else []
  | _ => []

/-- What one event does to the books; with `Auth.step`. -/
def Auth.tallyStep (cfg : AuthCfg) (y : Auth) (ev : AuthEv) : List Tally :=
  bif y.stop then []
  else
    match ev with
    | .packet msg payload delay => (y.say (.received msg payload)).tallyPacket cfg msg payload delay
    /- `OnAuthTimeout`, Connection.cxx:1322-1334 -/
    | .authTimeout => bif y.authenticated then [] else [.count .timeout]
    | ev =>
      match y.task with
      | none => []
      | some t => y.tallyResume cfg t ev

/-- … and what `OnDisconnecting` adds. -/
def Auth.tally (cfg : AuthCfg) (y : Auth) (ev : AuthEv) : List Tally :=
  y.tallyStep cfg ev ++ ((y.step cfg ev).log.drop y.log.length).flatMap tallyDisconnect

/-- Everything that a connection does to the books. -/
def Auth.tallies (cfg : AuthCfg) : Auth → List AuthEv → List Tally
  | _, [] => []
  | y, ev :: evs => y.tally cfg ev ++ (y.step cfg ev).tallies cfg evs

end Lukko.Model
