import Verif.Spec.ChannelIo
import Verif.Spec.KeyFile
import Verif.Spec.Cmdline
import Verif.Spec.Wire
/-
  Vocabulary for session channels (RFC 4254 section 6): what happens on one of them,
  in the order in which it happens.  Nothing here refers to the model.
-/
namespace Lukko.Spec

/-- A part of the file system which a process sees. -/
structure MountPoint where
  /-- a part of the server's file system (and not, for example, `/proc`) -/
  bind : Bool
  /-- contains the user's home directory -/
  coversHome : Bool
  writable : Bool
  deriving DecidableEq, Repr

inductive Program
  /-- the user's shell, interactively -/
  | loginShell
  /-- the user's shell executes this command line -/
  | command (line : Bytes)
  | sftpServer
  /-- the executable which is configured for rsync, with these arguments -/
  | rsync (args : List Bytes)
  /-- the executable which is configured for this git service, for this repository -/
  | git (service repository : Bytes)
  deriving DecidableEq, Repr

/-- A process that is started. -/
structure Proc where
  program : Program
  /-- the command line sent by the client, if it is replaced (`SSH_ORIGINAL_COMMAND`) -/
  original : Option Bytes := none
  /-- variables set at the client's request -/
  env : List (Bytes × Bytes) := []
  /-- has a terminal -/
  terminal : Bool := false
  /-- what it sees of the file system; empty: everything -/
  mounts : List MountPoint := []
  deriving DecidableEq, Repr

/-- What the account may do. -/
structure Permit where
  /-- execute programs -/
  exec : Bool
  /-- use SFTP -/
  sftp : Bool
  /-- there are settings for rsync -/
  rsync : Bool
  /-- there are settings for git-receive-pack -/
  gitReceive : Bool
  /-- there are settings for git-upload-pack -/
  gitUpload : Bool
  deriving DecidableEq, Repr

inductive Stream
  | stdout | stderr | terminal
  deriving DecidableEq, Repr

inductive SessEntry
  /-- the client asked for something -/
  | asked (request data : Bytes)
  /-- the answer to one of the requests -/
  | answered (ok : Bool)
  /-- other restrictions apply from now on -/
  | restricted (r : Restrictions)
  | terminalAllocated
  | started (p : Proc)
  /-- the process has ended -/
  | exited
  /-- the process is killed -/
  | killed
  /-- bytes were written to the standard input of the process, or its terminal -/
  | input (bs : Bytes)
  /-- these bytes could not be written; they are thrown away -/
  | inputLost (bs : Bytes)
  /-- the standard input of the process was closed -/
  | inputClosed
  /-- the process wrote something -/
  | wrote (f : Stream) (bs : Bytes)
  /-- a message of the server for the user -/
  | message (bs : Bytes)
  /-- data was received from the client -/
  | data (bs : Bytes)
  /-- data was sent to the client -/
  | sent (f : Stream) (bs : Bytes)
  /-- other messages concerning the channel, and key exchanges -/
  | io (e : IoEntry)
  deriving DecidableEq, Repr

/-- The same without contents. -/
def SessEntry.toIo : SessEntry → Option IoEntry
  | .data bs => some (.rx (.data bs.length))
  | .sent .stderr bs => some (.tx (.ext bs.length))
  | .sent _ bs => some (.tx (.data bs.length))
  | .io e => some e
  | _ => none

/-- The restrictions in effect after `log`, starting with `r`. -/
def restrictionsNow (r : Restrictions) (log : List SessEntry) : Restrictions :=
  log.foldl (fun r e => match e with | .restricted r' => r' | _ => r) r

/-- The processes that were started. -/
def SessEntry.process : SessEntry → Option Proc
  | .started p => some p
  | _ => none

def processes (log : List SessEntry) : List Proc := log.filterMap SessEntry.process

/-- Number of processes which are running: started, and neither ended nor killed. -/
def running (log : List SessEntry) : Int :=
  (log.map fun e => match e with | .started _ => (1 : Int) | .exited => -1 | .killed => -1 | _ => 0).sum

/-- Messages about the channel and key exchanges. -/
def sessIo (log : List SessEntry) : List IoEntry := log.filterMap SessEntry.toIo

/-- All data received from the client. -/
def clientData (log : List SessEntry) : Bytes :=
  log.flatMap fun e => match e with | .data bs => bs | _ => []

/-- Everything written to the process. -/
def inputBytes (log : List SessEntry) : Bytes :=
  log.flatMap fun e => match e with | .input bs => bs | _ => []

/-- Everything written to the process or thrown away, in this order. -/
def inputOrLost (log : List SessEntry) : Bytes :=
  log.flatMap fun e => match e with | .input bs => bs | .inputLost bs => bs | _ => []

/-- Number of requests for a process. -/
def startRequests (log : List SessEntry) : Nat :=
  log.countP fun e => match e with
    | .asked n _ => n == ascii "exec" || n == ascii "shell" || n == ascii "subsystem"
    | _ => false

/-- The client asks for one process only, and for a terminal only before that. -/
def Orderly (log : List SessEntry) : Prop :=
  startRequests log ≤ 1 ∧ ∀ a b, log = a ++ .terminalAllocated :: b → startRequests a = 0

/-- The client sends neither data nor end-of-file after end-of-file (RFC 4254 section
5.3). -/
def Polite (log : List SessEntry) : Prop :=
  ∀ a b, log = a ++ .io (.rx .eof) :: b → .io (.rx .eof) ∉ b ∧ ∀ bs, .data bs ∉ b

/-- Why the standard input of a process is closed after `a`, when `c` follows: the client
sent end-of-file, and everything before it was passed on; or the process has ended; or
writing to it failed; or it was killed because it could not be started. -/
def CloseReason (a c : List SessEntry) : Prop :=
  (.io (.rx .eof) ∈ a ∧ inputOrLost a = clientData a) ∨ (∃ a', a = a' ++ [.exited]) ∨
  (∃ bs c', c = .inputLost bs :: c') ∨ ∃ text c', c = .message text :: c'

/-- Everything the process wrote to this stream. -/
def writtenTo (f : Stream) (log : List SessEntry) : Bytes :=
  log.flatMap fun e => match e with | .wrote g bs => if g = f then bs else [] | _ => []

/-- Everything sent to the client from this stream. -/
def sentFrom (f : Stream) (log : List SessEntry) : Bytes :=
  log.flatMap fun e => match e with | .sent g bs => if g = f then bs else [] | _ => []

/-- The end of the output is announced: end-of-file or close. -/
def SessEntry.endsOutput : SessEntry → Bool
  | .io (.tx .eof) => true
  | .io (.tx .close) => true
  | _ => false

/-- The part of a byte string which a C program sees: up to the first null byte. -/
def upToNul (s : Bytes) : Bytes := s.takeWhile (· != 0)

/-- Size of an environment: names, values, and 32 bytes for each variable. -/
def envTotal (env : List (Bytes × Bytes)) : Nat := (env.map fun v => v.1.length + v.2.length + 32).sum

/-- The client asked for this command line. -/
def AskedExec (log : List SessEntry) (line : Bytes) : Prop := .asked (ascii "exec") (str line) ∈ log

/-- The client asked for a shell. -/
def AskedShell (log : List SessEntry) : Prop := ∃ d, .asked (ascii "shell") d ∈ log

/-- A backslash in quotes: what git clients mean by it is not what the server
understands (see C44). -/
def quotedBackslash (q : Bytes) : Prop := 39 ∈ q ∧ 92 ∈ q

/-- The client asked for this program (`original`: the command line in
`SSH_ORIGINAL_COMMAND`), considering the command that is forced upon them. -/
def Requested (log : List SessEntry) (forced : Option Bytes) (original : Option Bytes) : Program → Prop
  | .loginShell => forced = none ∧ AskedShell log ∧ original = none
  | .command c =>
    match forced with
    | none => original = none ∧ ∃ line, AskedExec log line ∧ c = upToNul line
    | some f => c = upToNul f ∧
        (original = none ∧ AskedShell log ∨ ∃ line, AskedExec log line ∧ original = some (upToNul line))
  | .sftpServer => .asked (ascii "subsystem") (str (ascii "sftp")) ∈ log
  | .rsync args => ∃ line, AskedExec log line ∧ (ascii "rsync --server ").isPrefixOf (upToNul line) = true ∧
      (Joined args (upToNul line) ∨ dangling (upToNul line) = true)
  | .git service repository => ∃ line q, AskedExec log line ∧ upToNul line = service ++ [32] ++ q ∧
      (ShellWord false repository q ∨ quotedBackslash q)

/-- The client asked for this variable, or for a terminal of this kind. -/
def RequestedEnv (log : List SessEntry) (v : Bytes × Bytes) : Prop :=
  .asked (ascii "env") (str v.1 ++ str v.2) ∈ log ∨
  (v.1 = ascii "TERM" ∧ ∃ rest, .asked (ascii "pty-req") (str v.2 ++ rest) ∈ log)

end Lukko.Spec
