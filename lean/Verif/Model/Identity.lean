import Verif.Model.Auth
import Verif.Model.Session
import Verif.Spec.Identity
/-
  With which settings something is done for a client: /repo/src/RConnect.cxx, RBind.cxx,
  Delegate.cxx, and the functions of /repo/src/Connection.cxx and SessionChannel.cxx which
  choose the settings of child processes.

  `ChildOptions::CopyTo` (libcommon) is assumed to copy all settings.  Only settings which
  are visible in the functions modelled here are in `Settings`; `Namespaces.other` stands
  for all others in `NamespaceOptions`.  Whether a connection attempt, `bind()` or `open()`
  succeeds is up to the operating system.
-/
namespace Lukko.Model
open Lukko.Spec (Settings ServiceSettings AccountSettings Namespaces Actor Thing Deed Program Owner)

/-- Fields of `class Connection` after authentication; `translation`: the answer of the
translation server; `uid`, `gid`, `home`: from `getpwnam()`, Connection.cxx:960-963. -/
structure Ident where
  translation : Option AccountSettings := none
  uid : Nat := 0
  gid : Nat := 0
  home : Bytes := []
  allowExec : Bool := true
  allowSftp : Bool := true
  deriving DecidableEq, Repr

/-- `SSH::Service`, ssh/Service.hxx -/
inductive SshService
  | ssh | sftp
  deriving DecidableEq, Repr

/-- `GetNetworkChildOptions`, Connection.cxx:323-329. -/
def Ident.networkOptions (c : Ident) : Option Settings :=
  match c.translation with
  | some a => a.general.map (·.settings)
  | none => none

/-- `GetExecuteOptions`, Connection.cxx:363-384; `none`: an assertion fails. -/
def Ident.executeOptions (c : Ident) : SshService → Option Settings
  | .ssh => c.networkOptions
  | .sftp =>
    match c.translation with
    | none => none
    | some a =>
      bif !c.allowSftp then none
      else
        match a.sftp with
        | some o => some o.settings
        | none => a.general.map (·.settings)

/-- `PrepareChildProcess` with a service, Connection.cxx:522-541; `none`: an assertion
fails.  (The name of the cgroup session is left out.) -/
def Ident.prepare (c : Ident) (service : SshService) : Option Settings :=
  match c.translation with
  | some _ => c.executeOptions service
  | none => some { uid := some c.uid, gid := some c.gid, home := if c.home = [] then none else some c.home }

/-- `SpawnNsResolveConnectTCPFunction`, RConnect.cxx:79-104, and
`SpawnNsResolveBindTCPFunction`, RBind.cxx:98-123, with libseccomp. -/
def networkChild (s : Settings) : Settings where
  uid := s.uid
  gid := s.gid
  ns := { s.ns with pid := false, cgroup := false, ipc := false }
  forbidBind := s.forbidBind
  forbidMulticast := s.forbidMulticast

/-- `char host[1024]`, RConnect.cxx:48, RBind.cxx:68 -/
abbrev HOST_SIZE : Nat := 1024

/-- `char path[4096]`, Delegate.cxx:44, 67 -/
abbrev PATH_SIZE : Nat := 4096

/-- The host name as the child receives it, RConnect.cxx:50-66 and RBind.cxx:70-86: one
datagram with the port (four bytes) and the name; what does not fit is cut off by
`recvmsg()`.  `none`: it throws. -/
def receiveHost (host : Bytes) : Option Bytes :=
  if HOST_SIZE ≤ (host.take HOST_SIZE).length then none else some (cString (host.take HOST_SIZE))

/-- `ReceivePath`, Delegate.cxx:25-37. -/
def receivePath (path : Bytes) : Option Bytes :=
  if path = [] then none
  else if PATH_SIZE ≤ (path.take PATH_SIZE).length then none
  else some (cString (path.take PATH_SIZE))

/-- The host name as the resolver gets it, RBind.cxx:188-201, RConnect.cxx:159-173: a
`string_view` for systemd-resolved (`resolved`), or else a C string. -/
def resolverHost (resolved : Bool) (host : Bytes) : Bytes := bif resolved then host else cString host

/-- `ResolveConnectTCP`, RConnect.cxx:179-200. -/
def Ident.connectTcp (c : Ident) (resolved : Bool) (host : Bytes) (port : Nat) : Deed :=
  match c.networkOptions with
  | some s =>
    match receiveHost host with
    | none => .refused
    | some h => .attempted (.child (networkChild s)) (.tcp h port)
  | none =>
    bif c.translation.isSome then .refused
    else .attempted .server (.tcp (resolverHost resolved host) port)

/-- `SshResolveBindStreamSocket`, RBind.cxx:46-60; the beginning of `NormalResolveBindTCP`,
RBind.cxx:178-185. -/
def bindThing (host : Bytes) (port : Nat) : Option Thing :=
  if host = ascii "localhost" then some (.loopback port)
  else if host = [] then some (.anyAddress port)
  else none

/-- `ResolveBindTCP`, RBind.cxx:214-235. -/
def Ident.bindTcp (c : Ident) (resolved : Bool) (host : Bytes) (port : Nat) : Deed :=
  match c.networkOptions with
  | some s =>
    match receiveHost host with
    | none => .refused
    | some h => .attempted (.child (networkChild s)) ((bindThing h port).getD (.tcp h port))
  | none =>
    bif c.translation.isSome then .refused
    else .attempted .server ((bindThing host port).getD (.tcp (resolverHost resolved host) port))

/-- `SpawnOpen`, Delegate.cxx:79-107; `container`: `ToContainerPath` (libcommon). -/
def Ident.delegate (c : Ident) (container : Bytes → Option Bytes) (service : SshService) : Option Settings :=
  match c.prepare service with
  | none => none
  | some s =>
    match s.workdir with
    | some _ => some s
    | none => some { s with workdir := s.home.bind container }

/-- `DelegateLocalConnect`, Delegate.cxx:152-160, 116-142, 39-61. -/
def Ident.connectLocal (c : Ident) (container : Bytes → Option Bytes) (path : Bytes) : Deed :=
  bif !c.allowExec then .undefined
  else
    match c.delegate container .ssh with
    | none => .undefined
    | some s =>
      match receivePath path with
      | none => .refused
      | some p => .attempted (.child s) (.socket p)

/-- `DelegateOpen`, Delegate.cxx:143-150, 63-77. -/
def Ident.openFile (c : Ident) (container : Bytes → Option Bytes) (path : Bytes) : Deed :=
  bif !c.allowSftp then .undefined
  else
    match c.delegate container .sftp with
    | none => .undefined
    | some s =>
      match receivePath path with
      | none => .refused
      | some p => .attempted (.child s) (.file s.workdir p)

/-- `GetHome`, Connection.cxx:459-471. -/
def Ident.homeDir (c : Ident) : Option Bytes :=
  match c.networkOptions with
  | some s => s.home
  | none => if c.home = [] then none else some c.home

/-- How opening a file goes for the server itself: `home`: the directory cannot be opened. -/
inductive FileOpen
  | opened | home | noAccess | otherError
  deriving DecidableEq, Repr

/-- `OpenInHome`, Connection.cxx:485-506: everything that is tried. -/
def Ident.openInHome (c : Ident) (container : Bytes → Option Bytes) (path : Bytes) (first : FileOpen) : List Deed :=
  (match c.homeDir with
    | none => []
    | some h => [.attempted .server (.file (some h) path)]) ++
  (match c.homeDir, first with
    | some _, .opened | some _, .otherError => []
    | _, _ => bif c.allowSftp then [c.openFile container path] else [])

/-- The settings with which a process is started; `none`: an assertion fails (a null pointer
is dereferenced).  `PrepareExec`, SessionChannel.cxx:298; `ExecRsync`, 403; `ExecGit`, 474
(with the settings passed by `Exec`, 507-523); `PrepareSftpServer`, 633-661 (`present`:
/usr/lib/cm4all/openssh/libexec/sftp-server can be opened). -/
def Ident.process (c : Ident) (present : Bool) : Program → Option Settings
  | .loginShell => c.prepare .ssh
  | .command _ => c.prepare .ssh
  | .rsync _ =>
    match c.translation with
    | some a => a.rsync.map (·.settings)
    | none => none
  | .git service _ =>
    match c.translation with
    | some a => (if service = GIT_RECEIVE_PACK then a.gitReceive else a.gitUpload).map (·.settings)
    | none => none
  | .sftpServer =>
    match c.translation.bind (·.sftp) with
    | some o => bif o.program.isSome || present then some o.settings else c.prepare .ssh
    | none => c.prepare .ssh

/-- The settings of Model/Session which depend on the account, Connection.cxx:331-361 and
Connection.hxx:255-287. -/
def Ident.sessCfg (c : Ident) (cfg : SessCfg) : SessCfg :=
  { cfg with
    exec := c.allowExec
    sftp := c.allowSftp
    rsync := (c.translation.bind (·.rsync)).map (·.program.isSome)
    gitReceive := (c.translation.bind (·.gitReceive)).isSome
    gitUpload := (c.translation.bind (·.gitUpload)).isSome }

/-- The fields of a connection of Model/Auth, with the details `a` of the answer of the
translation server and `pw` of the answers of the operating system.  `uid`, `gid` and `home`
are only set if there is no translation server, Connection.cxx:949-964; otherwise, `home` is
empty, and the two numbers (not initialised in the code) are never used. -/
def Auth.ident (y : Auth) (a : Option AccountSettings) (pw : Bytes → Nat × Nat × Bytes) : Ident where
  translation := a
  uid := (pw y.username).1
  gid := (pw y.username).2.1
  home := bif a.isSome then [] else (pw y.username).2.2
  allowExec := y.allowExec
  allowSftp := y.allowSftp

/-- The account. -/
def Ident.owner (c : Ident) : Owner :=
  match c.translation with
  | some a => .translated a
  | none => .passwd c.uid c.gid (if c.home = [] then none else some c.home)

end Lukko.Model
