import Verif.Spec.Control
/-
  Model of the control socket's commands.

  src/Control.cxx:15-94            Instance::OnControlPacket
  src/Instance.cxx:157-172         Instance::ReloadState
  src/Listener.cxx:159-175         Listener::SetZeroconfVisible
  src/Listener.cxx:265-281         Listener::TerminateChildren
  src/Listener.hxx:98-111, 132-136 GetStateName, HasZeroconf
  src/Connection.cxx:216-229       Connection::Terminate
  src/Connection.cxx:414-421       Connection::HasTag

  The packet parser (BengControl::Server) is part of libcommon; the command
  numbers are left abstract.  `uid` is the sender's user id, or negative if
  the datagram was not received from a local process.  `Avahi::Publisher` has a
  flag of its own (HideServices/ShowServices); a service is announced if both
  flags are set.  Builds with HAVE_AVAHI and ENABLE_TRANSLATION are modelled.
-/
namespace Lukko.Model
open Lukko.Spec

/-- BengControl::Command, as far as listed in src/Control.cxx:26-93. -/
inductive ControlCommand
  | nop | tcacheInvalidate | expireTcacheTag | dumpPools | enableNode | fadeNode | nodeStatus | stats
  | verbose | fadeChildren | disableZeroconf | enableZeroconf | reloadState
  | flushNfsCache | flushFilterCache | stopwatchPipe | discardSession | flushHttpCache | enableQueue
  | disableQueue | disconnectDatabase | disableUring | resetLimiter | cancelJob
  | terminateChildren | rejectClient | tarpitClient
deriving DecidableEq, Repr

/-- A connection: whether a translation response has been received, and in it
the tag of `execute_options`, if there are any (src/Connection.cxx:414-421);
`serviceTags` are the tags of the options for single services, which HasTag does
not look at. `terminated`: Terminate() was called (src/Connection.cxx:216-229). -/
structure CtlConnection where
  translation : Bool := false
  executeTag : Option Bytes := none
  serviceTags : List Bytes := []
  terminated : Bool := false
deriving DecidableEq, Repr

/-- src/Connection.cxx:414-421 (StringListContains with the separator NUL). -/
def CtlConnection.hasTag (c : CtlConnection) (tag : Bytes) : Bool :=
  if !c.translation then false
  else match c.executeTag with
    | none => false
    | some t => (nulFields t).contains tag

/-- src/Connection.cxx:216-229: DISCONNECT is sent and the connection is destroyed. -/
def CtlConnection.terminate (c : CtlConnection) : CtlConnection := { c with terminated := true }

/-- A listener: its tag (src/Listener.hxx:98-111), its Avahi service's
`visible` flag if it has one, its connections. -/
structure CtlListener where
  tag : Bytes := []
  visible : Option Bool := none
  connections : List CtlConnection := []
deriving DecidableEq, Repr

/-- The instance: log level, the publisher's visibility if it exists
(`avahi_publisher`), the listeners. -/
structure CtlInstance where
  logLevel : Nat := 1
  publisher : Option Bool := none
  listeners : List CtlListener := []
deriving DecidableEq, Repr

/-- src/Listener.cxx:265-281; connections that were terminated before are no longer in the list. -/
def CtlListener.terminateChildren (tag : Bytes) (l : CtlListener) : CtlListener :=
  { l with connections := l.connections.map fun c => bif c.hasTag tag then c.terminate else c }

/-- src/Instance.cxx:157-172, one listener; `state name` is what
`state_directories.GetBool("lukko/listener/NAME/zeroconf", true)` returns. -/
def CtlListener.reload (state : Bytes → Bool) (l : CtlListener) : CtlListener :=
  if l.tag.isEmpty then l
  else match l.visible with
    | none => l
    | some _ => { l with visible := some (state l.tag) }

/-- src/Control.cxx:15-94. -/
def CtlInstance.onControlPacket (state : Bytes → Bool) (i : CtlInstance) (command : ControlCommand) (payload : Bytes)
    (uid : Int) : CtlInstance :=
  let isPrivileged := decide (uid ≥ 0)
  match command with
  | .verbose =>
    match payload with
    | [b] => bif isPrivileged then { i with logLevel := b.toNat } else i
    | _ => i
  | .disableZeroconf => bif isPrivileged && i.publisher.isSome then { i with publisher := some false } else i
  | .enableZeroconf => bif isPrivileged && i.publisher.isSome then { i with publisher := some true } else i
  | .reloadState => { i with listeners := i.listeners.map (CtlListener.reload state) }
  | .terminateChildren =>
    match payload with
    | [] => i
    | tag => { i with listeners := i.listeners.map (CtlListener.terminateChildren tag) }
  | _ => i

/-- What is visible of the instance from outside. -/
def CtlInstance.view (i : CtlInstance) : ServerView where
  logLevel := i.logLevel
  announced := i.listeners.map fun l => i.publisher == some true && l.visible == some true
  running := i.listeners.map fun l => l.connections.map fun c => !c.terminated

end Lukko.Model
