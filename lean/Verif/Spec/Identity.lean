import Verif.Spec.Session
import Verif.Spec.Auth
/-
  Who does things for a client: processes, their user and their settings.  Nothing here
  refers to the model.
-/
namespace Lukko.Spec

/-- Which namespaces (Linux) a process has for itself; `other` stands for everything else:
network, file systems, users. -/
structure Namespaces where
  pid : Bool := false
  cgroup : Bool := false
  ipc : Bool := false
  other : Nat := 0
  deriving DecidableEq, Repr

/-- Settings with which a process is started. -/
structure Settings where
  uid : Option Nat := none
  gid : Option Nat := none
  home : Option Bytes := none
  /-- working directory -/
  workdir : Option Bytes := none
  ns : Namespaces := {}
  forbidBind : Bool := false
  forbidMulticast : Bool := false
  deriving DecidableEq, Repr

/-- The user, the group and the home directory are known. -/
def Settings.Complete (s : Settings) : Prop := s.uid ≠ none ∧ s.gid ≠ none ∧ s.home ≠ none

instance (s : Settings) : Decidable s.Complete := inferInstanceAs (Decidable (_ ∧ _ ∧ _))

/-- Settings for a service; `program`: a configured executable. -/
structure ServiceSettings where
  program : Option Bytes := none
  settings : Settings
  deriving DecidableEq, Repr

/-- What the translation server says about how processes for an account are started: in
general, and for some services. -/
structure AccountSettings where
  general : Option ServiceSettings := none
  sftp : Option ServiceSettings := none
  rsync : Option ServiceSettings := none
  gitReceive : Option ServiceSettings := none
  gitUpload : Option ServiceSettings := none
  deriving DecidableEq, Repr

/-- An account: known to the translation server, or to the operating system. -/
inductive Owner
  | translated (a : AccountSettings)
  | passwd (uid gid : Nat) (home : Option Bytes)
  deriving DecidableEq, Repr

/-- The general settings. -/
def Owner.general : Owner → Option Settings
  | .translated a => a.general.map (·.settings)
  | .passwd uid gid home => some { uid := some uid, gid := some gid, home := home }

/-- The settings for running a program: SFTP has settings of its own, or the general ones
apply; rsync and git are only possible with settings of their own. -/
def Owner.forProgram (o : Owner) (p : Program) : Option Settings :=
  match o, p with
  | .translated a, .sftpServer => (a.sftp.or a.general).map (·.settings)
  | .translated a, .rsync _ => a.rsync.map (·.settings)
  | .translated a, .git service _ =>
    (if service = ascii "git-receive-pack" then a.gitReceive else a.gitUpload).map (·.settings)
  | o, _ => o.general

/-- Who does something. -/
inductive Actor
  /-- the server itself -/
  | server
  /-- a process started for this purpose -/
  | child (s : Settings)
  deriving DecidableEq, Repr

/-- It is done by a process with the user, the group, the network, the file systems and the
prohibitions of these settings. -/
def Actor.Has (who : Actor) (s : Settings) : Prop :=
  ∃ c, who = .child c ∧ c.uid = s.uid ∧ c.gid = s.gid ∧ c.ns.other = s.ns.other ∧
    c.forbidBind = s.forbidBind ∧ c.forbidMulticast = s.forbidMulticast

/-- Something that can be connected to, listened on, or opened. -/
inductive Thing
  | tcp (host : Bytes) (port : Nat)
  /-- all addresses of this host -/
  | anyAddress (port : Nat)
  /-- the addresses of this host which cannot be reached from other hosts -/
  | loopback (port : Nat)
  | socket (path : Bytes)
  /-- relative to a directory, if one is known -/
  | file (dir : Option Bytes) (path : Bytes)
  deriving DecidableEq, Repr

/-- RFC 4254 section 7.1: what a client means with an address to listen on. -/
def listenOn (host : Bytes) (port : Nat) : Thing :=
  if host = [] then .anyAddress port
  else if host = ascii "localhost" then .loopback port
  else .tcp host port

/-- What becomes of the client's wish. -/
inductive Deed
  /-- nothing is done -/
  | refused
  | attempted (who : Actor) (what : Thing)
  /-- undefined behaviour -/
  | undefined
  deriving DecidableEq, Repr

/-- The answer `a` about an account goes with these settings. -/
def AccountSettings.Describes (s : AccountSettings) (a : Account) : Prop :=
  a.shell = s.general.isSome ∧ a.sftp = s.sftp.isSome ∧
  (a.shellValid = true → ∀ g, s.general = some g → g.settings.Complete)

end Lukko.Spec
