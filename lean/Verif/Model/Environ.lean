import Verif.Model.Session
import Verif.Spec.Environ
/-
  The environment and the arguments of the processes of a session, /repo/src/SessionChannel.cxx.

  `PreparedChildProcess` is in libcommon: `PutEnv` appends a C string, `SetEnv` appends
  "name=value", `HasEnv` looks for such an entry; `ChildOptions::CopyTo` appends the variables of the account.
-/
namespace Lukko.Model
open Spec (Program Proc EnvFacts envEntry)

/-- What the environment depends on. -/
structure EnvSource extends EnvFacts where
  /-- variables in the settings of the account for this program -/
  account : List Bytes := []
  /-- `ToContainerPath(GetHome())` -/
  home : Option Bytes := none
  /-- `enable_agent_forward` -/
  agent : Bool := false
  /-- for SFTP: settings with an executable are used (SessionChannel.cxx:645-660) -/
  sftpSettings : Bool := false

/-- `SetEnv` (libcommon). -/
def putVar (env : List Bytes) (name value : Bytes) : List Bytes := env ++ [cString (envEntry name value)]

/-- `HasEnv` (libcommon). -/
def hasVar (env : List Bytes) (name : Bytes) : Bool := env.any fun e => (name ++ [61]).isPrefixOf e

/-- `PrepareAddressEnv`, SessionChannel.cxx:197-214. -/
def EnvSource.address (x : EnvSource) (env : List Bytes) : List Bytes :=
  putVar (putVar env (ascii "SSH_CLIENT")
      (x.peerHost ++ 32 :: (ascii (toString x.peerPort) ++ 32 :: ascii (toString x.localPort))))
    (ascii "SSH_CONNECTION")
    (x.peerHost ++ 32 :: (ascii (toString x.peerPort) ++ 32 :: (x.localHost ++ 32 :: ascii (toString x.localPort))))

/-- `PrepareHome`, SessionChannel.cxx:240-250 (the working directory is in Model/Identity). -/
def EnvSource.addHome (x : EnvSource) (env : List Bytes) : List Bytes :=
  match x.home with
  | none => env
  | some h => bif hasVar env (ascii "HOME") then env else putVar env (ascii "HOME") h

/-- `PrepareAgentForward`, SessionChannel.cxx:279. -/
def EnvSource.addAgent (x : EnvSource) (env : List Bytes) : List Bytes :=
  bif x.agent then putVar env (ascii "SSH_AUTH_SOCK") (ascii "/run/agent-forward.socket") else env

/-- `PrepareExec`, SessionChannel.cxx:282-315. -/
def EnvSource.prepareExec (x : EnvSource) : List Bytes :=
  let env := putVar [] (ascii "USER") x.user
  let env := putVar env (ascii "LOGNAME") x.user
  let env := putVar env (ascii "SHELL") x.shell
  let env := x.address env
  let env := env ++ x.account
  let env := x.addHome env
  x.addAgent env

/-- `PrepareSftpServer`, SessionChannel.cxx:590-631. -/
def EnvSource.prepareSftp (x : EnvSource) : List Bytes :=
  let env := putVar [] (ascii "USER") x.user
  let env := bif x.sftpSettings then env else putVar env (ascii "LOGNAME") x.user
  x.addHome (env ++ x.account)

/-- What the server itself sets.  `Exec`, SessionChannel.cxx:550-553; `ExecRsync`, 403-405; `ExecGit`, 474-476. -/
def EnvSource.prepare (x : EnvSource) (p : Proc) : List Bytes :=
  match p.program with
  | .loginShell | .command _ =>
    match p.original with
    | some line => putVar x.prepareExec (ascii "SSH_ORIGINAL_COMMAND") line
    | none => x.prepareExec
  | .sftpServer => x.prepareSftp
  | .rsync _ | .git _ _ => x.addHome x.account

/-- The whole environment: the variables for which the client has asked are added by `SpawnChildProcess`,
SessionChannel.cxx:326-327 (the last one first). -/
def EnvSource.environ (x : EnvSource) (p : Proc) : List Bytes :=
  p.env.foldl (fun env v => putVar env v.1 v.2) (x.prepare p)

/-- `strrchr(shell, '/')`: what is behind it, if anything. -/
def afterLastSlash : Bytes → Option Bytes
  | [] => none
  | c :: s =>
    match afterLastSlash s with
    | some r => some r
    | none => if c = 47 then some s else none

/-- `LoginShellName`, SessionChannel.cxx:187-195. -/
def loginShellName (shell : Bytes) : Bytes :=
  match afterLastSlash shell with
  | some (c :: s) => 45 :: c :: s
  | _ => 45 :: shell

/-- `GetShell`, Connection.cxx:507-520: that of the translation server, of the operating system, or the default. -/
def getShell (translated : Option Bytes) (passwd : Bytes) : Bytes :=
  match translated with
  | some s => s
  | none => if passwd ≠ [] then passwd else ascii "/bin/sh"

/-- The arguments: `Exec`, SessionChannel.cxx:559-566; the SFTP server, 608, 630, 663; `ExecRsync`, 410-411; `ExecGit`,
482-483. -/
def EnvSource.args (x : EnvSource) : Program → List Bytes
  | .loginShell => [loginShellName x.shell]
  | .command line => [x.shell, ascii "-c", line]
  | .sftpServer => bif x.sftpSettings then [ascii "sftp-server"] else [ascii "/usr/lib/openssh/sftp-server"]
  | .rsync args => args
  | .git service repository => [service, repository]

end Lukko.Model
