import Verif.Model.KeyFile
import Verif.Spec.Auth
/-
  The upper layer of a server connection: /repo/src/Connection.cxx (user
  authentication, permissions, proxying) with /repo/src/ssh/UserAuthServer.cxx,
  ProxyConnectionHandler.cxx and ProxyCheck.hxx.

  Packets arrive decrypted (Model/Input, Model/Kex); channels are in
  Model/Channels, pending requests in Model/Requests.  `OnUserAuthRequest` is a
  coroutine: `AuthTask` is what it is waiting for.  `log` is a record of what
  happened (not in the code).

  Left out: counters, logging, the rate limiter (whether it delays a request is a
  parameter of the event, see Model/Accounting), `peer_address`.
-/
namespace Lukko.Model
open Lukko.Spec (Account AuthEntry Login)

/-- What `Listener::GetProxyTo` returns, Listener.cxx:175-206. -/
inductive ProxyChoice
  | direct | target | throws
  deriving DecidableEq, Repr

/-- Everything that does not change while the connection exists. `verify` is
`PublicKey::Verify` (`none`: throws), `parseKey`: `ParsePublicKeyBlob` does not throw;
`syncDone`: does `EagerInvokeTask` call its callback if the coroutine was never
suspended? -/
structure AuthCfg where
  translation : Bool := true
  getpwnam : Bytes → Bool := fun _ => false
  globalKeys : KeySet := []
  hostKeys : KeySet := []
  decode : Bytes → Option Bytes
  parseKey : Bytes → Bool
  verify : Bytes → Bytes → Bytes → Option Bool
  proxyTo : Nat → Bytes → ProxyChoice := fun _ _ => .direct
  sessionId : Bytes
  syncDone : Bool := false

/-- The request being processed: the payload, the fields read by
Connection.cxx:810-812 and the unread rest. -/
structure AuthReq where
  payload : Bytes
  user : Bytes
  service : Bytes
  method : Bytes
  rest : Bytes
  deriving DecidableEq, Repr

/-- Fields of a "publickey" request, Connection.cxx:957-959, and the unread rest. -/
structure KeyReq where
  withSig : Bool
  alg : Bytes
  blob : Bytes
  rest : Bytes
  deriving DecidableEq, Repr

/-- Suspension points of `OnUserAuthRequest`. -/
inductive AuthTask
  /-- `Co::Sleep`, Connection.cxx:822 -/
  | tarpit (r : AuthReq)
  /-- `TranslateLogin`, Connection.cxx:294-298 -/
  | translate (r : AuthReq) (password : Bytes)
  /-- `OpenInHome`, Connection.cxx:587 -/
  | home (r : AuthReq) (k : KeyReq)
  /-- `fail_sleep` and then `MakeUserauthFailure` -/
  | failSleep (methods : Bytes)
  /-- `CoConnectSocket`, Connection.cxx:1152 -/
  | connect
  deriving DecidableEq, Repr

/-- `struct Connection::Translation`; the password is not in the code. -/
structure Translation where
  user : Bytes
  password : Bytes
  account : Account
  deriving DecidableEq, Repr

/-- `class Connection`; `userAuth`, `channels` (with `global_requests`), `outgoing`,
`proxied` (`proxy_handlers`): the pointer is not null; `task`: `occupied_task`;
`targetDone`: the outgoing connection is authenticated. -/
structure Auth where
  encrypted : Bool := false
  userAuth : Bool := false
  haveService : Bool := false
  task : Option AuthTask := none
  authenticated : Bool := false
  hostbased : Bool := false
  username : Bytes := []
  opts : KeyOptions := {}
  translation : Option Translation := none
  allowExec : Bool := true
  allowSftp : Bool := true
  sftpOnly : Bool := false
  channels : Bool := false
  noMoreSessions : Bool := false
  outgoing : Bool := false
  targetDone : Bool := false
  proxied : Bool := false
  stop : Bool := false
  log : List AuthEntry := []
  deriving DecidableEq, Repr

def Auth.say (y : Auth) (e : AuthEntry) : Auth := { y with log := y.log ++ [e] }

/-- `throw Disconnect{…}` and `DoDisconnect`; the connection does nothing any more
(`OnDisconnecting`, Connection.cxx:1260-1276). -/
def Auth.disconnect (y : Auth) (reason : Nat) : Auth :=
  { y with stop := true, log := y.log ++ [.disconnected reason] }

/-- `CloseError` or destruction. -/
def Auth.close (y : Auth) : Auth := { y with stop := true, log := y.log ++ [.closed] }

/-- `MalformedPacket`: thrown out of `HandleRawPacket` (ssh/Connection.cxx:794-800), or
out of a coroutine which has been suspended (`async`, UserAuthServer.cxx:45-54). -/
def Auth.malformed (y : Auth) (async : Bool) : Auth := bif async then y.close else y.disconnect 2

/-- The coroutine returns; UserAuthServer.cxx:55-58, Connection.cxx:1172-1177. -/
def Auth.complete (cfg : AuthCfg) (y : Auth) (async : Bool) : Auth :=
  { y with task := none, userAuth := y.userAuth && !(y.authenticated && (async || cfg.syncDone)) }

/-- `SendPacket(MakeUserauthFailure(…)); co_return;` -/
def Auth.fail (cfg : AuthCfg) (y : Auth) (methods : Bytes) (async : Bool) : Auth :=
  (y.say (.failure methods)).complete cfg async

/-- `co_await fail_sleep;` followed by the same. -/
def Auth.failLater (y : Auth) (methods : Bytes) : Auth := { y with task := some (.failSleep methods) }

/-- `AuthMethods::ToString`, ssh/AuthMethods.hxx:23-39, Connection.cxx:838-853. -/
def authMethods (cfg : AuthCfg) : Bytes :=
  bif !cfg.hostKeys.isEmpty then
    bif cfg.translation then ascii "publickey,hostbased,password" else ascii "publickey,hostbased"
  else
    bif cfg.translation then ascii "publickey,password" else ascii "publickey"

/-- `arch` and `sticky_source`, Connection.cxx:845-846, 933-936. -/
def Auth.proxyKey (cfg : AuthCfg) (y : Auth) (user : Bytes) : Nat × Bytes :=
  bif cfg.translation then
    match y.translation with
    | some t => (t.account.arch, t.account.site.getD user)
    | none => (0, user)
  else (0, user)

/-- What is being granted (not in the code). -/
def Auth.login (y : Auth) (user method : Bytes) : Login where
  user := user
  method := method
  restrictions := y.opts.restrictions
  exec := y.allowExec
  sftp := y.allowSftp
  sftpOnly := y.sftpOnly

/-- The end of `OnUserAuthRequest`, Connection.cxx:1142-1169. -/
def Auth.accept (cfg : AuthCfg) (y : Auth) (r : AuthReq) (async : Bool) : Auth :=
  let y := { y with
    username := r.user
    authenticated := true
    log := y.log ++ [AuthEntry.loggedIn (y.login r.user r.method)] }
  match cfg.proxyTo (y.proxyKey cfg r.user).1 (y.proxyKey cfg r.user).2 with
  | .throws => y.close
  | .target => { y with task := some .connect }
  | .direct => { y with channels := true, log := y.log ++ [AuthEntry.success] }.complete cfg async

/-- The bytes whose signature is checked, Connection.cxx:999-1002 and 1067-1070. -/
def signedData (sessionId part : Bytes) : Except SerError Bytes := do
  let s ← Ser.empty.writeString sessionId
  let s ← s.writeU8 MSG_USERAUTH_REQUEST
  let s ← s.writeN part
  pure s.buf

/-- `d.Since(marker)`: what has been read of the payload. -/
def consumed (payload rest : Bytes) : Bytes := payload.take (payload.length - rest.length)

/-- Connection.cxx:994-996 -/
def parseSignature : Parser Bytes := do
  let sig ← readString
  expectEnd
  pure sig

/-- A signature has been read: verify it, Connection.cxx:998-1019. -/
def Auth.checkKeySignature (cfg : AuthCfg) (y : Auth) (r : AuthReq) (k : KeyReq) (sig : Bytes) (async : Bool) :
    Auth :=
  match signedData cfg.sessionId (consumed r.payload k.rest) with
  | .error _ => y.fail cfg (authMethods cfg) async
  | .ok m =>
    match cfg.verify k.blob m sig with
    | none => y.fail cfg (authMethods cfg) async
    | some false => y.failLater (authMethods cfg)
    | some true => y.accept cfg r async

/-- The key has been found; Connection.cxx:973-1019. -/
def Auth.keyAccepted (cfg : AuthCfg) (y : Auth) (r : AuthReq) (k : KeyReq) (async : Bool) : Auth :=
  bif !cfg.parseKey k.blob then y.fail cfg (authMethods cfg) async
  else bif !k.withSig then
    bif !k.rest.isEmpty then y.malformed async
    else (y.say (.keyOk k.alg k.blob)).complete cfg async
  else
    match parseSignature k.rest with
    | none => y.malformed async
    | some (sig, _) => y.checkKeySignature cfg r k sig async

/-- The first two places where `IsAcceptedPublicKey` looks, Connection.cxx:568-584. -/
def Auth.findKey (cfg : AuthCfg) (y : Auth) (blob : Bytes) : Option KeyOptions :=
  ((y.translation.bind (·.account.keys)).bind fun t => textContains cfg.decode t blob).or
    (cfg.globalKeys.find blob)

/-- `ShouldLoadHomeAuthorizedKeys`, Connection.cxx:556-566. -/
def Auth.useHome (y : Auth) : Bool :=
  match y.translation with
  | some t => !t.account.noHomeKeys
  | none => true

/-- Connection.cxx:957-959 -/
def parseKeyReq : Parser KeyReq := do
  let withSig ← readBool
  let alg ← readString
  let blob ← readString
  let rest ← getRest
  pure { withSig, alg, blob, rest }

/-- Method "publickey", Connection.cxx:956-1026. -/
def Auth.publickey (cfg : AuthCfg) (y : Auth) (r : AuthReq) (async : Bool) : Auth :=
  match parseKeyReq r.rest with
  | none => y.malformed async
  | some (k, _) =>
    match y.findKey cfg k.blob with
    | some o => { y with opts := o }.keyAccepted cfg r k async
    | none =>
      bif y.useHome then { y with task := some (.home r k) }
      else y.failLater (authMethods cfg)

/-- Fields of a "hostbased" request. -/
structure HostReq where
  alg : Bytes
  blob : Bytes
  host : Bytes
  user : Bytes
  /-- unread when `to_be_signed` is taken -/
  rest : Bytes
  sig : Bytes
  deriving DecidableEq, Repr

/-- Connection.cxx:1030-1036 -/
def parseHostReq : Parser HostReq := do
  let alg ← readString
  let blob ← readString
  let host ← readString
  let user ← readString
  let rest ← getRest
  let sig ← readString
  expectEnd
  pure { alg, blob, host, user, rest, sig }

/-- The key has been found; Connection.cxx:1050-1122. -/
def Auth.hostAccepted (cfg : AuthCfg) (y : Auth) (r : AuthReq) (h : HostReq) (async : Bool) : Auth :=
  bif !cfg.parseKey h.blob then y.fail cfg (authMethods cfg) async
  else
    match signedData cfg.sessionId (consumed r.payload h.rest) with
    | .error _ => y.fail cfg (authMethods cfg) async
    | .ok m =>
      match cfg.verify h.blob m h.sig with
      | some true => { y with hostbased := true }.accept cfg r async
      | _ => y.fail cfg (authMethods cfg) async

/-- Method "hostbased", Connection.cxx:1027-1122; `IsAcceptedHostPublicKey`, 603-612. -/
def Auth.hostBased (cfg : AuthCfg) (y : Auth) (r : AuthReq) (async : Bool) : Auth :=
  match parseHostReq r.rest with
  | none => y.malformed async
  | some (h, _) =>
    match cfg.hostKeys.find h.blob with
    | none => y.failLater (authMethods cfg)
    | some o => { y with opts := o }.hostAccepted cfg r h async

/-- Connection.cxx:956-1140. -/
def Auth.byMethod (cfg : AuthCfg) (y : Auth) (r : AuthReq) (passwordAccepted async : Bool) : Auth :=
  if r.method = ascii "publickey" then y.publickey cfg r async
  else if r.method = ascii "hostbased" then y.hostBased cfg r async
  else bif passwordAccepted then y.accept cfg r async
  else y.failLater (authMethods cfg)

/-- `password_accepted`, Connection.cxx:904-918. -/
def passwordAccepted (a : Account) (password : Bytes) : Bool :=
  bif !password.isEmpty then true
  else
    match a.noPassword with
    | none => false
    | some v => v == ascii "sftp" || v.isEmpty

/-- The permissions of the account are applied, Connection.cxx:893-918. -/
def Auth.applyAccount (y : Auth) (a : Account) (password : Bytes) : Auth :=
  let sftp := a.sftpOnlyToken || (password.isEmpty && a.noPassword == some (ascii "sftp"))
  { y with
    allowExec := y.allowExec && !sftp && a.shell
    allowSftp := bif a.shell then y.allowSftp else a.sftp
    sftpOnly := y.sftpOnly || sftp }

/-- After `LazyTranslate`, Connection.cxx:870-936; `CheckTranslateResponse` (333-361)
checks `execute_options`, if there are any. -/
def Auth.accountKnown (cfg : AuthCfg) (y : Auth) (r : AuthReq) (password : Bytes) (a : Account) (async : Bool) :
    Auth :=
  bif !a.ok then y.failLater []
  else
    let y := y.applyAccount a password
    bif a.shell && !a.shellValid then y.disconnect 7
    else y.byMethod cfg r (passwordAccepted a password) async

/-- `LazyTranslate`, Connection.cxx:281-313. -/
def Auth.lazyTranslate (cfg : AuthCfg) (y : Auth) (r : AuthReq) (password : Bytes) (async : Bool) : Auth :=
  match y.translation with
  | some t =>
    bif password.isEmpty && t.user == r.user then y.accountKnown cfg r password t.account async
    else { y with task := some (.translate r password) }
  | none => { y with task := some (.translate r password) }

/-- Connection.cxx:857-859 -/
def parsePassword : Parser (Bool × Bytes) := do
  let change ← readBool
  let password ← readString
  expectEnd
  pure (change, password)

/-- With a translation server, Connection.cxx:851-869. -/
def Auth.withTranslation (cfg : AuthCfg) (y : Auth) (r : AuthReq) (async : Bool) : Auth :=
  if r.method = ascii "password" then
    match parsePassword r.rest with
    | none => y.malformed async
    | some ((change, password), _) =>
      bif change || password.isEmpty then y.fail cfg (authMethods cfg) async
      else y.lazyTranslate cfg r password async
  else y.lazyTranslate cfg r [] async

/-- `IsValidUsername`, Connection.cxx:780-786. -/
def isValidUsername (u : Bytes) : Bool :=
  decide (u.length ≤ 255) && !u.isEmpty &&
  u.all fun c => (48 ≤ c && c ≤ 57) || (65 ≤ c && c ≤ 90) || (97 ≤ c && c ≤ 122) ||
    c == 45 || c == 95 || c == 46 || c == 64

/-- After the tarpit, Connection.cxx:825-954. -/
def Auth.afterTarpit (cfg : AuthCfg) (y : Auth) (r : AuthReq) (async : Bool) : Auth :=
  if r.service ≠ ascii "ssh-connection" then y.fail cfg [] async
  else bif !isValidUsername r.user then y.disconnect 15
  else bif cfg.translation then y.withTranslation cfg r async
  else bif !cfg.getpwnam r.user then y.failLater (authMethods cfg)
  else y.byMethod cfg r false async

/-- Connection.cxx:808-812 -/
def parseAuthReq (payload : Bytes) : Option AuthReq :=
  match (do
    let user ← readString
    let service ← readString
    let method ← readString
    let rest ← getRest
    pure ({ payload, user, service, method, rest } : AuthReq) : Parser AuthReq) payload with
  | none => none
  | some (r, _) => some r

/-- `OnUserAuthRequest`, Connection.cxx:788-823. -/
def Auth.userAuthRequest (cfg : AuthCfg) (y : Auth) (payload : Bytes) (delay : Bool) : Auth :=
  match parseAuthReq payload with
  | none => y.malformed false
  | some r =>
    bif delay then { y with task := some (.tarpit r) }
    else y.afterTarpit cfg r false

/-- `IsAllowedWhileOccupied`, UserAuthServer.cxx:97-116. -/
def allowedWhileOccupied (msg : UInt8) : Bool :=
  [MSG_DISCONNECT, MSG_IGNORE, MSG_NEWCOMPRESS, MSG_KEXINIT, MSG_NEWKEYS, MSG_ECDH_KEX_INIT,
    MSG_ECDH_KEX_INIT_REPLY].contains msg

/-- `UserAuthServer::HandleServiceRequest`, UserAuthServer.cxx:28-43. -/
def Auth.serviceRequest (y : Auth) (payload : Bytes) : Auth :=
  match parseServiceRequest.parse payload with
  | none => y.malformed false
  | some name =>
    if name = ascii "ssh-userauth" then { y with haveService := true }.say (.serviceAccepted name)
    else y.disconnect 7

/-- `UserAuthServer::HandleUserauthRequest`, UserAuthServer.cxx:61-92. -/
def Auth.handleUserauthRequest (cfg : AuthCfg) (y : Auth) (payload : Bytes) (delay : Bool) : Auth :=
  bif y.authenticated then y
  else bif !y.haveService then y.disconnect 2
  else y.userAuthRequest cfg payload delay

/-- `IsForwardingAllowed`, Connection.cxx:425-446. -/
def Auth.isForwardingAllowed (y : Auth) : Bool :=
  !y.opts.noPortForwarding && y.allowExec &&
  !(match y.translation with
    | some t => t.account.shell && t.account.ownNetwork
    | none => false)

/-- `IsLocalForwardingAllowed`, Connection.cxx:448-457. -/
def Auth.isLocalForwardingAllowed (y : Auth) : Bool := y.allowExec

/-- Connection.cxx:736-740 -/
def parseDirectTcp : Parser (Bytes × Nat) := do
  let host ← readString
  let port ← readU32
  let _ ← readString
  let _ ← readU32
  expectEnd
  pure (host, port)

/-- `CreateChannel`, Connection.cxx:710-772 (provided that there is an unused channel
number, see Model/Channels). -/
def Auth.createChannel (y : Auth) (type data : Bytes) : Auth :=
  if type = ascii "session" then
    bif y.noMoreSessions then y.disconnect 2
    else y.say .openSession
  else if type = ascii "direct-tcpip" then
    bif !y.isForwardingAllowed then y.say (.openRefused 1)
    else
      match parseDirectTcp.parse data with
      | none => y.malformed false
      | some (host, port) => y.say (.connectTcp host port)
  else if type = ascii "direct-streamlocal@openssh.com" then
    bif !y.isLocalForwardingAllowed then y.say (.openRefused 1)
    else
      match readString.parse data with
      | none => y.malformed false
      | some path => y.say (.connectLocal path)
  else y.say (.openRefused 3)

/-- `ChannelSupport::HandlePacket`, CSupport.cxx:490-545; what happens to channels which
are open is not modelled here. -/
def Auth.channelPacket (y : Auth) (msg : UInt8) (payload : Bytes) : Auth :=
  if msg = MSG_CHANNEL_OPEN then
    match parseChannelOpen.parse payload with
    | none => y.malformed false
    | some p => y.createChannel p.type p.rest
  else y.say (.channelMessage msg payload)

/-- Connection.cxx:1189-1193, 1215-1218 -/
def parseBind : Parser (Bytes × Nat) := do
  let host ← readString
  let port ← readU32
  expectEnd
  pure (host, port)

abbrev AUTHORIZED_KEY_OPTIONS_REQUEST : Bytes := ascii "authorized-key-options@lukko.cm4all.com"

/-- The request of a proxy, Connection.cxx:1226-1246. -/
def Auth.optionsRequest (y : Auth) (data : Bytes) : Auth :=
  bif !y.hostbased then y.say (.requestRefused AUTHORIZED_KEY_OPTIONS_REQUEST)
  else
    match deserializeKeyOptions {} data with
    | .error _ => y.close
    | .ok o =>
      bif (y.opts.restrict o).2 then
        { y with opts := (y.opts.restrict o).1 }.say (.restricted (y.opts.restrict o).1.restrictions)
      else y.say (.requestRefused AUTHORIZED_KEY_OPTIONS_REQUEST)

/-- `HandleGlobalRequest`, Connection.cxx:1179-1249; exceptions close the connection
(Model/Requests). -/
def Auth.globalRequest (y : Auth) (name data : Bytes) : Auth :=
  if name = ascii "tcpip-forward" then
    bif !y.isForwardingAllowed then y.say (.requestRefused name)
    else
      match parseBind.parse data with
      | none => y.close
      | some (host, port) => y.say (.bindTcp host port)
  else if name = ascii "cancel-tcpip-forward" then
    match parseBind.parse data with
    | none => y.close
    | some (host, port) => y.say (.unbindTcp host port)
  else if name = ascii "no-more-sessions@openssh.com" then
    { y with noMoreSessions := true }.say .noMoreSessions
  else if name = AUTHORIZED_KEY_OPTIONS_REQUEST then y.optionsRequest data
  else y.say (.requestRefused name)

/-- `GlobalRequestSupport::HandlePacket`, GSupport.cxx:150-165. -/
def Auth.globalPacket (y : Auth) (payload : Bytes) : Auth :=
  match parseGlobalRequest.parse payload with
  | none => y.malformed false
  | some p => y.globalRequest p.name p.rest

/-- `ShouldProxy`, ProxyCheck.hxx:9-38. -/
def shouldProxy (msg : UInt8) : Bool :=
  [MSG_GLOBAL_REQUEST, MSG_REQUEST_SUCCESS, MSG_REQUEST_FAILURE, MSG_CHANNEL_OPEN,
    MSG_CHANNEL_OPEN_CONFIRMATION, MSG_CHANNEL_OPEN_FAILURE, MSG_CHANNEL_WINDOW_ADJUST, MSG_CHANNEL_DATA,
    MSG_CHANNEL_EXTENDED_DATA, MSG_CHANNEL_EOF, MSG_CHANNEL_CLOSE, MSG_CHANNEL_REQUEST, MSG_CHANNEL_SUCCESS,
    MSG_CHANNEL_FAILURE].contains msg

/-- Messages handled by `ChannelSupport`. -/
def isChannelMessage (msg : UInt8) : Bool :=
  [MSG_CHANNEL_OPEN, MSG_CHANNEL_OPEN_CONFIRMATION, MSG_CHANNEL_OPEN_FAILURE, MSG_CHANNEL_WINDOW_ADJUST,
    MSG_CHANNEL_DATA, MSG_CHANNEL_EXTENDED_DATA, MSG_CHANNEL_EOF, MSG_CHANNEL_CLOSE, MSG_CHANNEL_REQUEST,
    MSG_CHANNEL_SUCCESS, MSG_CHANNEL_FAILURE].contains msg

/-- Messages which no handler wants, ssh/Connection.cxx:752-781; those for the transport
layer are in Model/Kex. -/
def Auth.transportPacket (y : Auth) (msg : UInt8) : Auth :=
  if msg = MSG_DISCONNECT then y.close
  else if [MSG_IGNORE, MSG_UNIMPLEMENTED, MSG_KEXINIT, MSG_NEWKEYS, MSG_ECDH_KEX_INIT, MSG_ECDH_KEX_INIT_REPLY].contains
      msg then y
  else y.say .unimplemented

/-- The handlers which were added after `UserAuthServer`. -/
def Auth.laterHandlers (y : Auth) (msg : UInt8) (payload : Bytes) : Option Auth :=
  bif y.proxied && shouldProxy msg then some (y.say (.toTarget msg payload))
  else bif y.channels && isChannelMessage msg then some (y.channelPacket msg payload)
  else bif y.channels && (msg == MSG_GLOBAL_REQUEST) then some (y.globalPacket payload)
  else none

/-- `UserAuthServer::HandlePacket`, UserAuthServer.cxx:118-142, and then the transport
layer. -/
def Auth.userAuthPacket (cfg : AuthCfg) (y : Auth) (msg : UInt8) (payload : Bytes) (delay : Bool) : Auth :=
  bif !y.userAuth then y.transportPacket msg
  else bif y.task.isSome && !allowedWhileOccupied msg then y.disconnect 2
  else if msg = MSG_SERVICE_REQUEST then y.serviceRequest payload
  else if msg = MSG_USERAUTH_REQUEST then y.handleUserauthRequest cfg payload delay
  else y.transportPacket msg

/-- `SSH::Connection::HandlePacket`, ssh/Connection.cxx:724-782: the handler that was added
last comes first. -/
def Auth.packet (cfg : AuthCfg) (y : Auth) (msg : UInt8) (payload : Bytes) (delay : Bool) : Auth :=
  match y.laterHandlers msg payload with
  | some y => y
  | none => y.userAuthPacket cfg msg payload delay

/-- What happens; `target…`: on the outgoing connection. -/
inductive AuthEv
  /-- the first key exchange is complete -/
  | encrypted
  /-- a packet from the client; `delay`: `accounting.GetDelay()` is positive -/
  | packet (msg : UInt8) (payload : Bytes) (delay : Bool)
  /-- a timer has expired -/
  | timer
  /-- the translation server has answered; `none`: error -/
  | translated (a : Option Account)
  /-- contents of `.ssh/authorized_keys`; `none`: it cannot be used -/
  | home (text : Option Bytes)
  | connected (ok : Bool)
  | targetSuccess
  | targetPacket (msg : UInt8) (payload : Bytes)
  /-- the outgoing connection is sending DISCONNECT -/
  | targetDisconnecting
  /-- error, failure or end of the outgoing connection -/
  | targetGone
  | authTimeout
  /-- the connection is closed for another reason -/
  | closed
  deriving DecidableEq, Repr

/-- The answer of the translation server, Connection.cxx:294-312. -/
def Auth.translated (cfg : AuthCfg) (y : Auth) (r : AuthReq) (password : Bytes) : Option Account → Auth
  | none => y.disconnect 7
  | some a =>
    { y with
      translation := some { user := r.user, password := password, account := a }
      log := y.log ++ [AuthEntry.account r.user password a] }.accountKnown cfg r password a true

/-- The rest of `IsAcceptedPublicKey`, Connection.cxx:587-600. -/
def Auth.homeRead (cfg : AuthCfg) (y : Auth) (r : AuthReq) (k : KeyReq) (text : Option Bytes) : Auth :=
  let y := y.say (.homeKeys text)
  match text.bind fun t => fileContains cfg.decode t k.blob with
  | some o => { y with opts := o }.keyAccepted cfg r k true
  | none => y.failLater (authMethods cfg)

/-- The coroutine is resumed. -/
def Auth.resume (cfg : AuthCfg) (y : Auth) (t : AuthTask) (ev : AuthEv) : Auth :=
  match t, ev with
  | .tarpit r, .timer => { y with task := none }.afterTarpit cfg r true
  | .translate r password, .translated a => { y with task := none }.translated cfg r password a
  | .home r k, .home text => { y with task := none }.homeRead cfg r k text
  | .failSleep methods, .timer => y.fail cfg methods true
  | .connect, .connected true => { y with outgoing := true }.complete cfg true
  | .connect, .connected false => y.close
  | _, _ => y

/-- `SendAuthorizedKeyOptions`, Connection.cxx:1392-1400. -/
def optionsPacket (o : KeyOptions) : Except SerError Ser := do
  let s ← makeGlobalRequest AUTHORIZED_KEY_OPTIONS_REQUEST false
  serializeKeyOptions s o

/-- `OnOutgoingUserauthSuccess`, Connection.cxx:1402-1419 (the first five bytes of the buffer
are for the packet header); an exception ends the outgoing
connection, and then (`OnOutgoingError`) this one. -/
def Auth.targetReady (y : Auth) : Auth :=
  match optionsPacket y.opts with
  | .error _ => y.disconnect 10
  | .ok s => { y with proxied := true, log := y.log ++ [.requestToTarget (s.buf.drop 5), .success] }

/-- Connection.cxx:1251-1258, 1323-1457; OutgoingConnection.cxx:41-86; ProxyConnectionHandler.cxx. -/
def Auth.step (cfg : AuthCfg) (y : Auth) (ev : AuthEv) : Auth :=
  bif y.stop then y
  else
    match ev with
    | .encrypted =>
      bif y.encrypted then y else { y with encrypted := true, userAuth := true }.say .encrypted
    | .packet msg payload delay => (y.say (.received msg payload)).packet cfg msg payload delay
    | .targetSuccess =>
      bif y.outgoing && !y.targetDone then { y with targetDone := true }.targetReady else y
    | .targetPacket msg payload =>
      bif y.proxied then
        bif shouldProxy msg then
          { y with log := y.log ++ [.targetReceived msg payload, .toClient msg payload] }
        else y.say (.targetReceived msg payload)
      else y
    | .targetDisconnecting => { y with proxied := false }
    | .targetGone => bif y.outgoing then y.disconnect 10 else y
    | .authTimeout => bif y.authenticated then y else y.disconnect 10
    | .closed => y.close
    | ev =>
      match y.task with
      | none => y
      | some t => y.resume cfg t ev

def Auth.run (cfg : AuthCfg) (y : Auth) (evs : List AuthEv) : Auth := evs.foldl (Auth.step cfg) y

end Lukko.Model
