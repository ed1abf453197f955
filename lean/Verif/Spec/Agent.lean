import Verif.Spec.Session
/-
  Agent forwarding: processes of a session use the agent of the client (a program which
  keeps the keys of the user).  Nothing here refers to the model.
-/
namespace Lukko.Spec

inductive AgentEntry
  /-- something happens on the session channel -/
  | session (e : SessEntry)
  /-- a process has connected to the socket of this session -/
  | connected (c : Nat)
  /-- the client is asked to connect its agent with it -/
  | offered (c : Nat)
  /-- the client has done that -/
  | joined (c : Nat)
  /-- the process is disconnected -/
  | dropped (c : Nat)
  /-- the session has ended -/
  | ended
  deriving DecidableEq, Repr

/-- What has happened on the session channel. -/
def AgentEntry.toSession : AgentEntry → Option SessEntry
  | .session e => some e
  | _ => none

def sessionLog (log : List AgentEntry) : List SessEntry := log.filterMap AgentEntry.toSession

/-- Names of requests for agent forwarding. -/
def agentRequests : List Bytes := [ascii "agent-req", ascii "auth-agent-req@openssh.com"]

/-- The client has asked for agent forwarding. -/
def AskedAgent (log : List SessEntry) : Prop := ∃ n ∈ agentRequests, ∃ d, .asked n d ∈ log

/-- The client has asked for agent forwarding before any process was started. -/
def AskedAgentFirst (log : List SessEntry) : Prop :=
  ∃ a n d b, log = a ++ .asked n d :: b ∧ n ∈ agentRequests ∧ processes a = []

/-- A shell, or a command line. -/
def Program.isShell : Program → Bool
  | .loginShell => true
  | .command _ => true
  | _ => false

/-- The client has not answered yet. -/
def Pending (log : List AgentEntry) (c : Nat) : Prop := .offered c ∈ log ∧ .joined c ∉ log ∧ .dropped c ∉ log

/-- The client has asked for a shell or for a command line. -/
def AskedProgram (log : List SessEntry) : Prop := AskedShell log ∨ ∃ line, AskedExec log line

end Lukko.Spec
