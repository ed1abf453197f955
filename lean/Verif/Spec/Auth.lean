import Verif.Spec.KeyFile
import Verif.Spec.Wire
/-
  Specification of user authentication (RFC 4252) and of what an authenticated
  client may do.  A connection is described by the sequence of things that happened
  on it.  Nothing here refers to the model.
-/
namespace Lukko.Spec

/-- The answer of the service which knows the accounts ("translation server"). -/
structure Account where
  /-- the account exists, and the password (if one was given) is correct -/
  ok : Bool := true
  /-- has the token "sftp-only" -/
  sftpOnlyToken : Bool := false
  /-- programs may be executed -/
  shell : Bool := true
  /-- the settings for executing programs are complete -/
  shellValid : Bool := true
  /-- programs have their own network -/
  ownNetwork : Bool := false
  /-- there are settings for SFTP -/
  sftp : Bool := false
  /-- no password is necessary (the value says for what) -/
  noPassword : Option Bytes := none
  /-- contents of an authorized_keys file -/
  keys : Option Bytes := none
  /-- don't use the authorized_keys file in the user's home directory -/
  noHomeKeys : Bool := false
  arch : Nat := 0
  site : Option Bytes := none
  deriving DecidableEq, Repr

/-- A successful login. -/
structure Login where
  user : Bytes
  method : Bytes
  /-- restrictions in effect at that time -/
  restrictions : Restrictions
  /-- may execute programs -/
  exec : Bool
  /-- may use SFTP -/
  sftp : Bool
  /-- wants to be told that only SFTP is possible -/
  sftpOnly : Bool
  deriving DecidableEq, Repr

/-- What can happen on a connection. -/
inductive AuthEntry
  /-- the first key exchange is complete -/
  | encrypted
  /-- message received from the client -/
  | received (msg : UInt8) (payload : Bytes)
  /-- the answer about an account -/
  | account (user password : Bytes) (answer : Account)
  /-- contents of the authorized_keys file in the home directory, if there is one -/
  | homeKeys (text : Option Bytes)
  | serviceAccepted (name : Bytes)
  | failure (methods : Bytes)
  | keyOk (algorithm key : Bytes)
  | loggedIn (l : Login)
  | success
  | unimplemented
  | disconnected (reason : Nat)
  | closed
  /-- a session channel is opened -/
  | openSession
  | connectTcp (host : Bytes) (port : Nat)
  | connectLocal (path : Bytes)
  | openRefused (reason : Nat)
  /-- listen for TCP connections -/
  | bindTcp (host : Bytes) (port : Nat)
  /-- stop listening -/
  | unbindTcp (host : Bytes) (port : Nat)
  | noMoreSessions
  /-- additional restrictions received from a proxy -/
  | restricted (result : Restrictions)
  | requestRefused (name : Bytes)
  /-- some other message of the connection protocol was passed to a channel -/
  | channelMessage (msg : UInt8) (payload : Bytes)
  /-- a message of our own is sent to the target server -/
  | requestToTarget (message : Bytes)
  /-- message sent to the target server -/
  | toTarget (msg : UInt8) (payload : Bytes)
  /-- message received from the target server -/
  | targetReceived (msg : UInt8) (payload : Bytes)
  /-- message of the target server sent to the client -/
  | toClient (msg : UInt8) (payload : Bytes)
  deriving DecidableEq, Repr

/-- `message` is the request which tells another server about restrictions: a global request
with the names and values of the options. -/
def CarriesRestrictions (message : Bytes) (r : Restrictions) : Prop :=
  ∃ os : List (Bytes × Bytes),
    message = 80 :: (str (ascii "authorized-key-options@lukko.cm4all.com") ++
      (bool false ++ (os.map fun o => str o.1 ++ str o.2).flatten)) ∧
    applyOptions {} os = some r

/-- The effects which only a logged-in client may have. -/
def AuthEntry.isEffect : AuthEntry → Bool
  | .openSession | .connectTcp .. | .connectLocal .. | .openRefused .. | .bindTcp .. | .unbindTcp ..
  | .noMoreSessions | .restricted .. | .requestRefused .. | .channelMessage .. | .toTarget ..
  | .toClient .. => true
  | _ => false

/-- Messages of the connection protocol (RFC 4254 section 9). -/
def IsConnectionMessage (msg : UInt8) : Prop :=
  msg ∈ [80, 81, 82, 90, 91, 92, 93, 94, 95, 96, 97, 98, 99, 100]

instance : DecidablePred IsConnectionMessage := fun _ => inferInstanceAs (Decidable (_ ∈ _))

/-! ### Requests -/

/-- The most recent authentication request. -/
def lastRequest (log : List AuthEntry) : Option Bytes :=
  log.foldl (fun r e => match e with | .received m p => if m = 50 then some p else r | _ => r) none

/-- How many authentication requests there were. -/
def attempts (log : List AuthEntry) : Nat :=
  log.countP fun e => match e with | .received m _ => m == 50 | _ => false

/-- The most recent answer about an account. -/
def lastAccount (log : List AuthEntry) : Option (Bytes × Bytes × Account) :=
  log.foldl (fun r e => match e with | .account u p a => some (u, p, a) | _ => r) none

/-- The authorized_keys file in the home directory, as read for the most recent request. -/
def homeText (log : List AuthEntry) : Option Bytes :=
  log.foldl (fun r e =>
    match e with
    | .received m _ => if m = 50 then none else r
    | .homeKeys t => t
    | _ => r) none

/-- The restrictions in effect: those of the login, or as changed later. -/
def inEffect (log : List AuthEntry) : Option Restrictions :=
  log.foldl (fun r e =>
    match e with
    | .loggedIn l => some l.restrictions
    | .restricted r => some r
    | _ => r) none

/-- RFC 4252 section 5: fields of an authentication request for the connection protocol. -/
def authRequest (user method fields : Bytes) : Bytes :=
  str user ++ (str (ascii "ssh-connection") ++ (str method ++ fields))

/-- RFC 4252 sections 7 and 9: what is signed. -/
def signedBytes (sessionId request : Bytes) : Bytes := str sessionId ++ 50 :: request

/-- Acceptable user names. -/
def ValidUser (u : Bytes) : Prop :=
  u ≠ [] ∧ u.length ≤ 255 ∧
  ∀ c ∈ u, (48 ≤ c ∧ c ≤ 57) ∨ (65 ≤ c ∧ c ≤ 90) ∨ (97 ≤ c ∧ c ≤ 122) ∨ c = 45 ∨ c = 95 ∨ c = 46 ∨ c = 64

/-! ### Keys -/

/-- Everything that does not depend on what happens on the connection. -/
structure AuthWorld where
  /-- there is a service which knows the accounts -/
  translation : Bool
  /-- (otherwise:) the operating system knows the user -/
  knownUser : Bytes → Bool
  /-- base64 -/
  decode : Bytes → Option Bytes
  /-- the blob is a well-formed public key -/
  validKey : Bytes → Prop
  /-- `verify key message signature` -/
  verify : Bytes → Bytes → Bytes → Prop
  sessionId : Bytes
  /-- keys which give access to all accounts -/
  globalKey : Bytes → Option Restrictions
  /-- keys of trusted hosts -/
  hostKey : Bytes → Option Restrictions

/-- The first line which grants access to this key does so with these restrictions. -/
def GrantedIn (decode : Bytes → Option Bytes) (ls : List Bytes) (key : Bytes) (r : Restrictions) : Prop :=
  ∃ pre line post, ls = pre ++ line :: post ∧ Grants decode line key r ∧ ∀ l ∈ pre, ∀ r, ¬ Grants decode l key r

/-- … in a text -/
def TextGrants (decode : Bytes → Option Bytes) (text key : Bytes) (r : Restrictions) : Prop :=
  ∃ ls, LinesOf text ls ∧ GrantedIn decode ls key r

/-- A line of a file: without carriage return at the end, and only up to a null byte. -/
def fileLine (line : Bytes) : Bytes :=
  ((if line.getLast? = some 13 then line.dropLast else line).takeWhile (· != 0))

/-- … in a file -/
def FileGrants (decode : Bytes → Option Bytes) (text key : Bytes) (r : Restrictions) : Prop :=
  ∃ ls, LinesOf text ls ∧ GrantedIn decode (ls.map fileLine) key r

/-- The key gives access to the account, with these restrictions: it is in the account's
list of keys, or else in the global list of keys, or else in the file in the user's home
directory. -/
inductive KeyGrants (w : AuthWorld) (text home : Option Bytes) (key : Bytes) : Restrictions → Prop
  | text {t r} : text = some t → TextGrants w.decode t key r → KeyGrants w text home key r
  | global {r} : (∀ t, text = some t → ∀ r, ¬ TextGrants w.decode t key r) →
      w.globalKey key = some r → KeyGrants w text home key r
  | home {t r} : (∀ t, text = some t → ∀ r, ¬ TextGrants w.decode t key r) →
      w.globalKey key = none → home = some t → FileGrants w.decode t key r → KeyGrants w text home key r

/-! ### Valid logins -/

/-- The account is known: with a translation server, its most recent answer is about this
user and password, and positive. -/
def KnownAccount (w : AuthWorld) (log : List AuthEntry) (user password : Bytes) (acct : Option Account) : Prop :=
  (w.translation = true ∧ ∃ a, acct = some a ∧ lastAccount log = some (user, password, a) ∧ a.ok = true) ∨
  (w.translation = false ∧ acct = none ∧ w.knownUser user = true)

/-- Public key authentication: an accepted key has signed this request on this
connection. -/
def PublicKeyProof (w : AuthWorld) (log : List AuthEntry) (acct : Option Account) (l : Login) : Prop :=
  l.method = ascii "publickey" ∧
  ∃ b alg key sig, b ≠ 0 ∧
    lastRequest log = some (authRequest l.user l.method (b :: (str alg ++ (str key ++ str sig)))) ∧
    KeyGrants w (acct.bind (·.keys)) (if (acct.map (·.noHomeKeys)).getD false then none else homeText log) key
      l.restrictions ∧
    w.validKey key ∧
    w.verify key (signedBytes w.sessionId (authRequest l.user l.method (b :: (str alg ++ str key)))) sig

/-- Host based authentication: a trusted host has signed this request on this
connection. -/
def HostProof (w : AuthWorld) (log : List AuthEntry) (l : Login) : Prop :=
  l.method = ascii "hostbased" ∧
  ∃ alg key host user sig,
    lastRequest log = some (authRequest l.user l.method
      (str alg ++ (str key ++ (str host ++ (str user ++ str sig))))) ∧
    w.hostKey key = some l.restrictions ∧
    w.validKey key ∧
    w.verify key (signedBytes w.sessionId
      (authRequest l.user l.method (str alg ++ (str key ++ (str host ++ str user))))) sig

/-- Password authentication: `password` is in the request. -/
def PasswordProof (log : List AuthEntry) (password : Bytes) (l : Login) : Prop :=
  l.method = ascii "password" ∧ password ≠ [] ∧
  lastRequest log = some (authRequest l.user l.method (0 :: str password))

/-- The account needs no password. -/
def NoPasswordNeeded (log : List AuthEntry) (acct : Option Account) (l : Login) : Prop :=
  l.method ≠ ascii "publickey" ∧ l.method ≠ ascii "hostbased" ∧ l.method ≠ ascii "password" ∧
  (∃ fields, lastRequest log = some (authRequest l.user l.method fields)) ∧
  ∃ a, acct = some a ∧ (a.noPassword = some [] ∨ a.noPassword = some (ascii "sftp"))

/-- The login is justified by what happened before. -/
def Justified (w : AuthWorld) (log : List AuthEntry) (l : Login) : Prop :=
  ValidUser l.user ∧
  ∃ password acct, KnownAccount w log l.user password acct ∧
    ((password ≠ [] ∧ w.translation = true ∧ PasswordProof log password l) ∨
     (password = [] ∧ (PublicKeyProof w log acct l ∨ HostProof w log l ∨ NoPasswordNeeded log acct l)))

/-! ### Offered methods -/

/-- Names separated by commas. -/
def commaList : List Bytes → Bytes
  | [] => []
  | [n] => n
  | n :: ns => n ++ 44 :: commaList ns

/-- Can this method succeed? -/
def MethodUsable (w : AuthWorld) (method : Bytes) : Prop :=
  method = ascii "publickey" ∨ (method = ascii "hostbased" ∧ ∃ key, w.hostKey key ≠ none) ∨
  (method = ascii "password" ∧ w.translation = true)

/-- A list of methods, each of them once. -/
def OffersUsable (w : AuthWorld) (list : Bytes) : Prop :=
  ∃ ns : List Bytes, list = commaList ns ∧ ns.Nodup ∧ ∀ n, n ∈ ns ↔ MethodUsable w n

/-- There was a negative answer about an account, or a request for another service. -/
def NothingToOffer (log : List AuthEntry) : Prop :=
  (∃ u p acct, .account u p acct ∈ log ∧ acct.ok = false) ∨
  (∃ user service rest, .received 50 (str user ++ (str service ++ rest)) ∈ log ∧ service ≠ ascii "ssh-connection")

/-! ### Permissions -/

/-- May execute programs: unless the account says otherwise. -/
def mayExec (acct : Option Account) (password : Bytes) : Bool :=
  match acct with
  | none => true
  | some a => a.shell && !a.sftpOnlyToken && !(password.isEmpty && a.noPassword == some (ascii "sftp"))

/-- May use SFTP. -/
def maySftp (acct : Option Account) : Bool :=
  match acct with
  | none => true
  | some a => a.shell || a.sftp

/-- Only SFTP. -/
def isSftpOnly (acct : Option Account) (password : Bytes) : Bool :=
  match acct with
  | none => false
  | some a => a.sftpOnlyToken || (password.isEmpty && a.noPassword == some (ascii "sftp"))

/-! ### Forwarding -/

/-- Messages of the connection protocol received from the client. -/
def fromClient (log : List AuthEntry) : List (UInt8 × Bytes) :=
  log.filterMap fun e => match e with
    | .received m p => if IsConnectionMessage m then some (m, p) else none
    | _ => none

/-- Messages of the connection protocol received from the target server. -/
def fromTarget (log : List AuthEntry) : List (UInt8 × Bytes) :=
  log.filterMap fun e => match e with
    | .targetReceived m p => if IsConnectionMessage m then some (m, p) else none
    | _ => none

/-- Messages sent to the target server. -/
def sentToTarget (log : List AuthEntry) : List (UInt8 × Bytes) :=
  log.filterMap fun e => match e with | .toTarget m p => some (m, p) | _ => none

/-- Messages of the target server sent to the client. -/
def sentToClient (log : List AuthEntry) : List (UInt8 × Bytes) :=
  log.filterMap fun e => match e with | .toClient m p => some (m, p) | _ => none

end Lukko.Spec
