import Verif.Model.SocketChannel
import Verif.Model.Cmdline
import Verif.Model.Wire
import Verif.Spec.Session
/-
  /repo/src/SessionChannel.cxx: a channel on which a process can be started.

  Pipes and terminals are objects of the operating system.  Here, one which the channel
  reads from consists of the bytes in it (`content`) and of whether anybody can still
  write to it (`writers`).  `PipeEvent` (libcommon) is represented by a flag which says
  whether it is scheduled (`rd`, `wr`).  It calls `On…Ready` only if scheduled, except
  that a terminal's hang-up is always reported.

  The handlers of requests are coroutines (`STask`).  They are suspended at
  `CoEnqueueSpawner` and at `CoWaitSpawnCompletion`; being resumed at once is a special
  case of that.  Answers are sent by the base class, in order (Model/Requests); here,
  `answered` is recorded when a coroutine returns.
-/
namespace Lukko.Model
open Lukko.Spec (IoEntry ChMsg SessEntry Proc Program Restrictions MountPoint Stream)

/-- SessionChannel.hxx:45 -/
abbrev MAX_ENV_SIZE : Nat := 16384

inductive SessStop
  /-- an exception that closes the connection -/
  | connection
  /-- `Close()`: CHANNEL_CLOSE was sent and the object is gone -/
  | channel
  /-- a failed assertion -/
  | ub
  /-- an exception leaves a function which is `noexcept`: the server is terminated -/
  | crash
  deriving DecidableEq, Repr

/-- Permissions and settings of the connection, Connection.hxx:255-287 and
Connection.cxx:331-361, and of the listener, Listener.hxx:164-170.  None of them changes
after authentication. -/
structure SessCfg where
  /-- `IsExecAllowed()` -/
  exec : Bool
  /-- `IsSftpAllowed()`, `IsRsyncAllowed()` -/
  sftp : Bool
  sftpOnly : Bool := false
  /-- `GetRsyncExecuteOptions()`, and whether its `execute` is set -/
  rsync : Option Bool := none
  /-- `GetGitReceivePackExecuteOptions()` is not null -/
  gitReceive : Bool := false
  /-- `GetGitUploadPackExecuteOptions()` is not null -/
  gitUpload : Bool := false
  /-- mounts of the settings with which each program is started -/
  mounts : Program → List MountPoint := fun _ => []
  /-- `GetExecRejectStderr()` -/
  rejectStderr : Bool := false
  /-- `GetVerboseErrors()` -/
  verboseErrors : Bool := false
  /-- assertions are disabled -/
  ndebug : Bool := false

/-- Where a coroutine is suspended. -/
inductive STask
  /-- in `Exec`, SessionChannel.cxx:541-542 -/
  | exec (cmd : Option Bytes)
  /-- in `ExecRsync`, SessionChannel.cxx:396-397 -/
  | rsync (cmd : Bytes)
  /-- in `ExecGit`, SessionChannel.cxx:468-469 -/
  | git (service arg : Bytes)
  /-- in `StartSftpServer`, SessionChannel.cxx:678-679 -/
  | sftp
  /-- at `CoWaitSpawnCompletion{*child}`, for the given process -/
  | wait (pid : Nat)
  deriving DecidableEq, Repr

/-- Something to read from. -/
structure Source where
  content : Bytes := []
  writers : Bool := true
  rd : Bool := false
  deriving DecidableEq, Repr

/-- `SessionChannel` (without the buffer of its base class); `pids`, `tasks`, `nextTask`
and `log` are not fields of it. -/
structure Sess where
  /-- `GetAuthorizedKeyOptions()` -/
  restr : Restrictions := {}
  sendWin : Nat
  recvWin : Nat := RECEIVE_WINDOW
  child : Option Nat := none
  slaveTty : Bool := false
  /-- the value says whether it is scheduled for writing -/
  stdin : Option Bool := none
  stdout : Option Source := none
  stderr : Option Source := none
  tty : Option Source := none
  /-- the terminal is scheduled for writing -/
  ttyWr : Bool := false
  agent : Bool := false
  env : List (Bytes × Bytes) := []
  envSize : Nat := 0
  stdinEnabled : Bool := false
  stdinDeferred : Bool := false
  agentReq : Bool := false
  pids : Nat := 0
  tasks : List (Nat × STask) := []
  nextTask : Nat := 0
  log : List SessEntry := []
  deriving DecidableEq, Repr

def Sess.emit (s : Sess) (e : SessEntry) : Sess := { s with log := s.log ++ [e] }

/-- `ScheduleRead`, SessionChannel.hxx:242-249. -/
def Sess.scheduleRead (s : Sess) : Sess :=
  { s with
    stdout := s.stdout.map fun x => { x with rd := true }
    stderr := s.stderr.map fun x => { x with rd := true }
    tty := s.tty.map fun x => { x with rd := true } }

/-- `CancelRead`, SessionChannel.hxx:229-240. -/
def Sess.cancelRead (s : Sess) : Sess :=
  { s with
    stdout := s.stdout.map fun x => { x with rd := false }
    stderr := s.stderr.map fun x => { x with rd := false }
    tty := s.tty.map fun x => { x with rd := false } }

/-- `if (GetSendWindow() > 0) ScheduleRead();` -/
def Sess.maybeScheduleRead (s : Sess) : Sess := if 0 < s.sendWin then s.scheduleRead else s

/-- `ScheduleWrite()` on the pipe or else on the terminal, SessionChannel.cxx:154-157,
169-172; SessionChannel.hxx:128-131. -/
def Sess.scheduleWrite (s : Sess) : Sess :=
  match s.stdin with
  | some _ => { s with stdin := some true }
  | none => { s with ttyWr := s.ttyWr || s.tty.isSome }

/-- `stdin_pipe.Close()` -/
def Sess.closeStdin (s : Sess) : Sess :=
  match s.stdin with
  | some _ => { s with stdin := none, log := s.log ++ [.inputClosed] }
  | none => s

/-- `child = {}` -/
def Sess.dropChild (s : Sess) : Sess :=
  match s.child with
  | some _ => { s with child := none, log := s.log ++ [.killed] }
  | none => s

/-- `SetStderrString`, SessionChannel.cxx:87-100. -/
def Sess.setStderr (s : Sess) (text : Bytes) : Sess :=
  { s.dropChild.closeStdin with
    slaveTty := false
    stdout := none
    stderr := some { content := text, writers := false, rd := decide (0 < s.sendWin) }
    tty := none
    ttyWr := false
    log := s.dropChild.closeStdin.log ++ [.message text] }

/-- `ConsumeReceiveWindow` and `SendWindowAdjust` as used in SessionChannel.cxx:175-176;
`none`: the assertion in Channel.cxx:92 fails. -/
def Sess.consume (s : Sess) (n : Nat) : Option Sess :=
  if n ≤ s.recvWin then
    if s.recvWin - n < RECEIVE_WINDOW / 2 then
      some { s.emit (.io (.tx (.adjust (RECEIVE_WINDOW - (s.recvWin - n))))) with recvWin := RECEIVE_WINDOW }
    else some { s with recvWin := s.recvWin - n }
  else none

/-- `n` bytes were written, SessionChannel.cxx:166-172. -/
def Sess.wroteInput (s : Sess) (payload : Bytes) (n : Nat) : Sess :=
  if n < payload.length then (s.emit (.input (payload.take n))).scheduleWrite else s.emit (.input (payload.take n))

/-- A non-blocking `write()`, SessionChannel.cxx:142-178.  (If the assertion fails,
nothing is recorded.) -/
def Sess.writeInput (s : Sess) (payload : Bytes) : Wrote → Sess × Except BufStop Nat
  | .wouldBlock => (s.scheduleWrite, .ok 0)
  | .failed => (s.closeStdin.emit (.inputLost payload), .ok payload.length)
  | .wrote m =>
    match (s.wroteInput payload (min m payload.length)).consume (min m payload.length) with
    | none => (s, .error .ub)
    | some s => (s, .ok (min m payload.length))

/-- `OnBufferedData`, SessionChannel.cxx:132-179, and `OnBufferedEof`, 181-185. -/
def Sess.ops : BufOps Sess Wrote where
  data s payload k :=
    bif !s.stdinEnabled then ({ s with stdinDeferred := true }, .ok 0)
    else bif !s.stdin.isSome && !s.tty.isSome then (s.emit (.inputLost payload), .ok payload.length)
    else s.writeInput payload k
  eof s := s.closeStdin

/-- The channel with its buffer. -/
structure SessCh where
  s : Sess
  buf : Buf := {}
  stop : Option SessStop := none
  deriving DecidableEq, Repr

def SessCh.halt (y : SessCh) (st : SessStop) : SessCh := { y with stop := some st }

/-- A coroutine returns. -/
def SessCh.answer (y : SessCh) (ok : Bool) : SessCh := { y with s := y.s.emit (.answered ok) }

/-- A coroutine is suspended. -/
def SessCh.suspend (y : SessCh) (t : STask) : SessCh :=
  { y with s := { y.s with tasks := y.s.tasks ++ [(y.s.nextTask, t)], nextTask := y.s.nextTask + 1 } }

/-- `Close()`. -/
def SessCh.close (y : SessCh) : SessCh :=
  { y with s := y.s.dropChild.emit (.io (.tx .close)), stop := some .channel }

/-- `IsActive`, SessionChannel.hxx:89-93, and `CloseIfInactive`, SessionChannel.cxx:68-73. -/
def SessCh.closeIfInactive (y : SessCh) : SessCh :=
  bif !(y.s.stdout.isSome || y.s.stderr.isSome || y.s.tty.isSome || y.s.child.isSome) then y.close else y

/-- `MaybeSendEofAndClose`, SessionChannel.hxx:100-116. -/
def SessCh.maybeSendEof (y : SessCh) : SessCh :=
  bif y.s.stdout.isSome || y.s.stderr.isSome || y.s.tty.isSome then y
  else { y with s := y.s.emit (.io (.tx .eof)) }.closeIfInactive

/-- A message for the user or an error, SessionChannel.cxx:527-533, 692-700, 745-752,
755-765, 769-779. -/
def SessCh.refuse (y : SessCh) (verbose : Bool) (text : Bytes) : SessCh :=
  bif verbose then { y with s := y.s.setStderr text }.answer true
  else y.answer false

/-- `SetEnv`, SessionChannel.cxx:102-119; `none`: throws `Disconnect`.  (The variable is
stored as one C string, `name=value`.) -/
def Sess.setEnv (s : Sess) (name value : Bytes) : Option Sess :=
  if MAX_ENV_SIZE ≤ s.envSize + (name.length + value.length + 32) then none
  else some { s with
    envSize := s.envSize + (name.length + value.length + 32)
    env := (name, value) :: s.env }

/-- A C string made from a `std::string`. -/
def cString (s : Bytes) : Bytes := s.takeWhile (· != 0)

/-- `StringAfterPrefix` (libcommon) -/
def afterPrefix (pre s : Bytes) : Option Bytes :=
  bif pre.isPrefixOf s then some (s.drop pre.length) else none

def RSYNC_PREFIX : Bytes := ascii "rsync --server "
def GIT_RECEIVE_PACK : Bytes := ascii "git-receive-pack"
def GIT_UPLOAD_PACK : Bytes := ascii "git-upload-pack"
def SFTP_ONLY_MESSAGE : Bytes := ascii "Shell access denied (SFTP only).\r\n"
def TOO_LONG_MESSAGE : Bytes := ascii "Command too long\r\n"

/-- The beginning of `ExecGit`, SessionChannel.cxx:455-469. -/
def SessCh.execGit (y : SessCh) (service arg : Bytes) : SessCh :=
  match shellUnescape false arg with
  | none => y.answer false
  | some a => y.suspend (.git service a)

/-- SessionChannel.cxx:515-533 -/
def SessCh.execOther (cfg : SessCfg) (y : SessCh) (cmd : Bytes) : SessCh :=
  match bif cfg.gitReceive then afterPrefix (GIT_RECEIVE_PACK ++ [32]) cmd else none with
  | some arg => y.execGit GIT_RECEIVE_PACK arg
  | none =>
    match bif cfg.gitUpload then afterPrefix (GIT_UPLOAD_PACK ++ [32]) cmd else none with
    | some arg => y.execGit GIT_UPLOAD_PACK arg
    | none => y.refuse (cfg.sftpOnly && cfg.rejectStderr) SFTP_ONLY_MESSAGE

/-- `Exec` up to the first suspension, SessionChannel.cxx:498-542.  The exception "No
EXECUTE" (SessionChannel.cxx:393-394) is caught in `OnRequest`. -/
def SessCh.exec (cfg : SessCfg) (y : SessCh) : Option Bytes → SessCh
  | none =>
    bif cfg.exec then y.suspend (.exec none)
    else y.refuse (cfg.sftpOnly && cfg.rejectStderr) SFTP_ONLY_MESSAGE
  | some cmd =>
    bif cfg.exec then y.suspend (.exec (some cmd))
    else
      match bif cfg.sftp && RSYNC_PREFIX.isPrefixOf cmd then cfg.rsync else none with
      | some true => y.suspend (.rsync cmd)
      | some false => y.refuse cfg.verboseErrors (ascii "Failed to execute: No EXECUTE\r\n")
      | none => y.execOther cfg cmd

/-- SessionChannel.cxx:728-730, 783-785 -/
def parseOneString : Parser Bytes := do
  let v ← readString
  expectEnd
  pure v

/-- SessionChannel.cxx:820-823 -/
def parseTwoStrings : Parser (Bytes × Bytes) := do
  let a ← readString
  let b ← readString
  expectEnd
  pure (a, b)

/-- SessionChannel.cxx:707-714 -/
def readWindowSize : Parser Unit := do
  let _ ← readU32
  let _ ← readU32
  let _ ← readU32
  let _ ← readU32
  pure ()

/-- SessionChannel.cxx:801-805: the name of the terminal and the encoded modes. -/
def parsePtyReq : Parser (Bytes × Bytes) := do
  let term ← readString
  readWindowSize
  let modes ← readString
  expectEnd
  pure (term, modes)

/-- SessionChannel.cxx:847-849 -/
def parseWindowChange : Parser Unit := do
  readWindowSize
  expectEnd

/-- "pty-req", SessionChannel.cxx:790-818; `sysOk`: `openpty()` succeeds. -/
def SessCh.ptyReq (cfg : SessCfg) (y : SessCh) (data : Bytes) (sysOk : Bool) : SessCh :=
  bif !cfg.exec || y.s.restr.noTerminal then y.answer (cfg.sftpOnly && cfg.rejectStderr)
  else
    match parsePtyReq.parse data with
    | none => y.halt .connection
    | some (term, _) =>
      bif !sysOk then y.halt .connection
      else
        match { y.s with
            slaveTty := true
            tty := some {}
            ttyWr := false
            log := y.s.log ++ [SessEntry.terminalAllocated] }.setEnv (ascii "TERM") term with
        | none => y.halt .connection
        | some s => { y with s := s }.answer true

/-- `OnLateRequest`, SessionChannel.cxx:840-858; `sysOk`: `ioctl()` succeeds. -/
def SessCh.lateRequest (y : SessCh) (name data : Bytes) (sysOk : Bool) : SessCh :=
  if name = ascii "window-change" then
    bif !y.s.tty.isSome then y.answer false
    else
      match parseWindowChange.parse data with
      | none => y.halt .connection
      | some _ => bif sysOk then y.answer true else y.halt .connection
  else y.answer false

/-- "exec", SessionChannel.cxx:727-753. -/
def SessCh.execRequest (cfg : SessCfg) (y : SessCh) (data : Bytes) : SessCh :=
  match parseOneString.parse data with
  | none => y.halt .connection
  | some command =>
    if MAX_ENV_SIZE < command.length + y.s.envSize then y.refuse cfg.rejectStderr TOO_LONG_MESSAGE
    else y.exec cfg (some (cString command))

/-- "subsystem", SessionChannel.cxx:780-789; `StartSftpServer` up to the suspension,
666-679. -/
def SessCh.subsystem (cfg : SessCfg) (y : SessCh) (data : Bytes) : SessCh :=
  match parseOneString.parse data with
  | none => y.halt .connection
  | some name =>
    if name = ascii "sftp" then
      bif !cfg.sftp then y.answer false
      else bif y.s.tty.isSome then y.answer false
      else y.suspend .sftp
    else y.answer false

/-- "env", SessionChannel.cxx:819-828. -/
def SessCh.envRequest (cfg : SessCfg) (y : SessCh) (data : Bytes) : SessCh :=
  bif !cfg.exec then y.answer false
  else
    match parseTwoStrings.parse data with
    | none => y.halt .connection
    | some (name, value) =>
      match y.s.setEnv name value with
      | none => y.halt .connection
      | some s => { y with s := s }.answer true

/-- `OnRequest`, SessionChannel.cxx:716-838. -/
def SessCh.request (cfg : SessCfg) (y : SessCh) (name data : Bytes) (sysOk : Bool) : SessCh :=
  bif y.s.child.isSome then y.lateRequest name data sysOk
  else if name = ascii "exec" then y.execRequest cfg data
  else if name = ascii "shell" then y.exec cfg none
  else if name = ascii "subsystem" then y.subsystem cfg data
  else if name = ascii "pty-req" then y.ptyReq cfg data sysOk
  else if name = ascii "env" then y.envRequest cfg data
  else if name = ascii "agent-req" ∨ name = ascii "auth-agent-req@openssh.com" then
    { y with s := { y.s with agentReq := true } }.answer true
  else y.answer false

/-- How preparing and starting a process goes.  `prepareFails`: something throws before
`SpawnChildProcess`; `opened`: after the pipes were opened. -/
inductive SpawnResult
  | ok
  | prepareFails (opened : Bool) (text : Bytes)
  | spawnFails (text : Bytes)
  deriving DecidableEq, Repr

/-- `PreparePipes`, SessionChannel.cxx:216-238; `none`: an assertion fails because a pipe
is already open (in `PipeEvent::Open`, libcommon). -/
def Sess.preparePipes (ndebug : Bool) (s : Sess) : Option Sess :=
  bif (s.stdin.isSome || s.stdout.isSome || s.stderr.isSome) && !ndebug then none
  else some { s with stdin := some false, stdout := some {}, stderr := some {} }

/-- SessionChannel.cxx:329-338 -/
def makeReadOnly (m : MountPoint) : MountPoint := bif m.bind && m.coversHome then { m with writable := false } else m

/-- `SpawnChildProcess`, SessionChannel.cxx:317-344, without error: assigning `child`
destroys the old process handle, which kills that process. -/
def Sess.spawn (cfg : SessCfg) (s : Sess) (program : Program) (original : Option Bytes) (terminal : Bool) : Sess :=
  let s := s.maybeScheduleRead
  let p : Proc := {
    program := program
    original := original
    env := s.env
    terminal := terminal
    mounts := bif s.restr.readOnlyHome then (cfg.mounts program).map makeReadOnly else cfg.mounts program }
  let s := { s with log := s.log ++ [SessEntry.started p] }.dropChild
  { s with child := some s.pids, pids := s.pids + 1 }

/-- The end of a coroutine that was suspended. -/
def SessCh.finish (y : SessCh) (id : Nat) : SessCh :=
  { y with s := { y.s with tasks := y.s.tasks.filter fun t => t.1 != id } }

/-- `SpawnChildProcess`, and then the second suspension. -/
def SessCh.launch (cfg : SessCfg) (y : SessCh) (id : Nat) (program : Program) (original : Option Bytes)
    (terminal : Bool) : SpawnResult → SessCh
  | .spawnFails text => { y.finish id with s := (y.finish id).s.maybeScheduleRead }.refuse cfg.verboseErrors text
  | _ =>
    let s := (y.finish id).s.spawn cfg program original terminal
    { y with s := { s with tasks := s.tasks ++ [(id, .wait (s.pids - 1))] } }

/-- The program that `Exec` runs, SessionChannel.cxx:550-566, and the original command. -/
def execProgram (restr : Restrictions) (cmd : Option Bytes) : Program × Option Bytes :=
  match restr.command with
  | some c => (.command (cString c), cmd)
  | none =>
    match cmd with
    | some c => (.command c, none)
    | none => (.loginShell, none)

/-- `PrepareExec`, SessionChannel.cxx:282-315 (it is `noexcept`): the standard streams. -/
def Sess.prepareExec (cfg : SessCfg) (s : Sess) : Option Sess :=
  bif s.agent && !cfg.ndebug then none
  else
    let s := { s with agent := s.agent || s.agentReq }
    bif s.tty.isSome then some { s with slaveTty := false }
    else s.preparePipes cfg.ndebug

/-- `Exec` after the first suspension, SessionChannel.cxx:544-574. -/
def SessCh.resumeExec (cfg : SessCfg) (y : SessCh) (id : Nat) (cmd : Option Bytes) (r : SpawnResult) : SessCh :=
  match r with
  | .prepareFails _ _ => y.halt .crash
  | r =>
    match y.s.prepareExec cfg with
    | none => y.halt .ub
    | some s =>
      { y with s := s }.launch cfg id (execProgram s.restr cmd).1 (execProgram s.restr cmd).2 s.tty.isSome r

/-- `ExecRsync` and `ExecGit` after the first suspension, SessionChannel.cxx:399-421 and
471-493. -/
def SessCh.resumeService (cfg : SessCfg) (y : SessCh) (id : Nat) (program : Program) (r : SpawnResult) : SessCh :=
  match r with
  | .prepareFails false text => (y.finish id).refuse cfg.verboseErrors text
  | r =>
    match y.s.preparePipes cfg.ndebug with
    | none => y.halt .ub
    | some s =>
      match r with
      | .prepareFails _ text => { y with s := s }.finish id |>.refuse cfg.verboseErrors text
      | r => { y with s := s }.launch cfg id program none false r

/-- `StartSftpServer` after the first suspension, SessionChannel.cxx:681-703;
`PrepareSftpServer` is `noexcept`. -/
def SessCh.resumeSftp (cfg : SessCfg) (y : SessCh) (id : Nat) (r : SpawnResult) : SessCh :=
  match r with
  | .prepareFails _ _ => y.halt .crash
  | r =>
    bif y.s.tty.isSome && !cfg.ndebug then y.halt .ub
    else
      match y.s.preparePipes cfg.ndebug with
      | none => y.halt .ub
      | some s => { y with s := s }.launch cfg id .sftpServer none false r

/-- `CoEnqueueSpawner` returns. -/
def SessCh.enqueued (cfg : SessCfg) (y : SessCh) (id : Nat) (r : SpawnResult) : SessCh :=
  match y.s.tasks.lookup id with
  | some (.exec cmd) => y.resumeExec cfg id cmd r
  | some (.rsync cmd) => y.resumeService cfg id (.rsync (splitCmdline cmd)) r
  | some (.git service arg) => y.resumeService cfg id (.git service arg) r
  | some .sftp => y.resumeSftp cfg id r
  | _ => y

/-- `EnableStdin`, SessionChannel.hxx:121-133. -/
def Sess.enableStdin (s : Sess) : Sess :=
  let s := { s with stdinEnabled := true }
  bif s.stdinDeferred then s.scheduleWrite else s

/-- `CoWaitSpawnCompletion` returns, or throws.  If the process handle does not exist any
more, nobody resumes the coroutine. -/
def SessCh.completed (cfg : SessCfg) (y : SessCh) (id : Nat) (err : Option Bytes) : SessCh :=
  match y.s.tasks.lookup id with
  | some (.wait pid) =>
    if y.s.child = some pid then
      match err with
      | none => { y.finish id with s := (y.finish id).s.enableStdin }.answer true
      | some text => (y.finish id).refuse cfg.verboseErrors text
    else y
  | _ => y

/-- `OnChildProcessExit`, SessionChannel.cxx:971-990. -/
def SessCh.exited (y : SessCh) : SessCh :=
  match y.s.child with
  | none => y
  | some _ =>
    let s := { y.s with child := none, log := y.s.log ++ [SessEntry.exited] }
    { y with s := s.closeStdin.emit (.io (.tx (.request false))) }.closeIfInactive

def Sess.source (s : Sess) : Stream → Option Source
  | .stdout => s.stdout
  | .stderr => s.stderr
  | .terminal => s.tty

def Sess.setSource (s : Sess) (f : Stream) (x : Option Source) : Sess :=
  match f with
  | .stdout => { s with stdout := x }
  | .stderr => { s with stderr := x }
  | .terminal => { s with tty := x }

/-- The pipe or terminal is closed at end-of-file, SessionChannel.cxx:878-881, 909-912,
939-942, 963-966. -/
def SessCh.endOfSource (y : SessCh) (f : Stream) : SessCh := 
  { y with s := { y.s.setSource f none with ttyWr := y.s.ttyWr && f != Stream.terminal } }.maybeSendEof

/-- `CancelRead()` if the window is exhausted -/
def Sess.cancelIfExhausted (s : Sess) : Sess := if s.sendWin = 0 then s.cancelRead else s

/-- `SendData`, `SendStderr` and what follows; `x` is the pipe or terminal before. -/
def Sess.sendFrom (s : Sess) (f : Stream) (x : Source) (bs : Bytes) : Sess :=
  let s := s.setSource f (some { x with content := x.content.drop bs.length })
  { s with sendWin := s.sendWin - bs.length, log := s.log ++ [SessEntry.sent f bs] }.cancelIfExhausted

/-- `read()` from a pipe or terminal and what follows, SessionChannel.cxx:891-912 (with
4096 bytes of buffer), 922-942, 950-966.  `len`: at most one more byte than this is
read.  With a buffer of no bytes, `read()` returns zero. -/
def SessCh.readSource (cfg : SessCfg) (y : SessCh) (f : Stream) (x : Source) (len : Nat) : SessCh :=
  let size := min 4096 y.s.sendWin
  if size = 0 then
    bif cfg.ndebug then y.endOfSource f else y.halt .ub
  else if x.content = [] then y.endOfSource f
  else { y with s := y.s.sendFrom f x (x.content.take (min (len + 1) size)) }

/-- `OnStdoutReady`, `OnStderrReady`, SessionChannel.cxx:927-969: called if there is
something to read or end-of-file. -/
def SessCh.pipeReady (cfg : SessCfg) (y : SessCh) (f : Stream) (len : Nat) : SessCh :=
  match y.s.source f with
  | none => y
  | some x => bif x.rd && (!x.content.isEmpty || !x.writers) then y.readSource cfg f x len else y

def BufStop.toSess : BufStop → SessStop
  | .throws => .connection
  | .ub => .ub

def SessCh.ofBuf : Sess × Buf × Option BufStop → SessCh
  | (s, b, st) => ⟨s, b, st.map BufStop.toSess⟩

/-- There is enough information about what the environment does for `Buf.read`: each
turn of the loop removes at least one byte. -/
def Buf.enough (b : Buf) (ks : List (Nat × Wrote)) : Bool := decide (b.queue.length ≤ ks.length)

/-- `OnStdinReady`, SessionChannel.cxx:918-925.  (An event with too little information is
ignored.) -/
def SessCh.stdinReady (y : SessCh) (ks : List (Nat × Wrote)) : SessCh :=
  match y.s.stdin with
  | some true =>
    bif y.buf.enough ks then SessCh.ofBuf (y.buf.read Sess.ops { y.s with stdin := some false } ks) else y
  | _ => y

/-- The terminal is writable and WRITE is scheduled. -/
def SessCh.ttyWritable (y : SessCh) : Option (List (Nat × Wrote)) → Option (List (Nat × Wrote))
  | none => none
  | some ks => bif y.s.ttyWr && y.buf.enough ks then some ks else none

/-- The WRITE part of `OnTtyReady`, SessionChannel.cxx:884-887. -/
def SessCh.ttyWrite (y : SessCh) : Option (List (Nat × Wrote)) → SessCh
  | none => y
  | some ks => SessCh.ofBuf (y.buf.read Sess.ops { y.s with ttyWr := false } ks)

/-- The READ part. -/
def SessCh.ttyRead (cfg : SessCfg) (y : SessCh) (readable : Bool) (len : Nat) : SessCh :=
  match y.stop with
  | some _ => y
  | none =>
    match y.s.tty with
    | none => y
    | some x => bif readable then y.readSource cfg .terminal x len else y

/-- `OnTtyReady`, SessionChannel.cxx:874-916.  READ is reported if scheduled and there is
something to read, HANGUP if nobody has the terminal open, WRITE if scheduled and `w` is
given. -/
def SessCh.ttyReady (cfg : SessCfg) (y : SessCh) (w : Option (List (Nat × Wrote))) (len : Nat) : SessCh :=
  match y.s.tty with
  | none => y
  | some x =>
    let w := y.ttyWritable w
    let readable := x.rd && !x.content.isEmpty
    bif !readable && !w.isSome then bif x.writers then y else y.endOfSource .terminal
    else (y.ttyWrite w).ttyRead cfg readable len

/-- What happens. -/
inductive SessEvent
  | request (name data : Bytes) (sysOk : Bool)
  | enqueued (id : Nat) (r : SpawnResult)
  | completed (id : Nat) (err : Option Bytes)
  | exited
  /-- `AuthorizedKeyOptions::Restrict` (Model/KeyOptions) -/
  | restricted (r : Restrictions)
  | recvData (bs : Bytes) (k : Wrote)
  | recvExt (n : Nat)
  | recvEof
  | recvAdjust (n : Nat)
  | blocked | unblocked
  /-- a process writes -/
  | writes (f : Stream) (bs : Bytes)
  /-- the last process which has it open closes it -/
  | closes (f : Stream)
  | stdinReady (ks : List (Nat × Wrote))
  | pipeReady (f : Stream) (len : Nat)
  | ttyReady (w : Option (List (Nat × Wrote))) (len : Nat)
  /-- the connection or the channel is closed for another reason -/
  | gone
  deriving DecidableEq, Repr

/-- A process writes to a pipe or terminal which it has open. -/
def Sess.processWrites (s : Sess) (f : Stream) (bs : Bytes) : Sess :=
  match s.source f with
  | none => s
  | some x =>
    bif x.writers then (s.setSource f (some { x with content := x.content ++ bs })).emit (.wrote f bs) else s

/-- Nobody has it open any more; we have not either (`slave_tty`). -/
def Sess.processCloses (s : Sess) (f : Stream) : Sess :=
  match s.source f with
  | none => s
  | some x =>
    bif (f == .terminal) && s.slaveTty then s else s.setSource f (some { x with writers := false })

/-- Incoming data is first checked by `HandleChannelData`, CSupport.cxx:417-426; extended
data is dropped by `Channel::OnExtendedData`, Channel.cxx:253-258; window adjustments:
`OnWindowAdjust`, SessionChannel.cxx:121-130; `OnWriteBlocked` and `OnWriteUnblocked`,
860-872. -/
def SessCh.handle (cfg : SessCfg) (y : SessCh) : SessEvent → SessCh
  | .request name data sysOk => { y with s := y.s.emit (.asked name data) }.request cfg name data sysOk
  | .enqueued id r => y.enqueued cfg id r
  | .completed id err => y.completed cfg id err
  | .exited => y.exited
  | .restricted r => { y with s := { y.s with restr := r, log := y.s.log ++ [.restricted r] } }
  | .recvData bs k =>
    if bs.length > y.s.recvWin then y.halt .connection
    else SessCh.ofBuf (y.buf.onData Sess.ops (y.s.emit (.data bs)) bs k)
  | .recvExt n =>
    if n > y.s.recvWin then y.halt .connection
    else { y with s := { y.s.emit (.io (.rx (.ext n))) with recvWin := y.s.recvWin - n } }
  | .recvEof => SessCh.ofBuf (y.buf.onEof Sess.ops (y.s.emit (.io (.rx .eof))))
  | .recvAdjust n =>
    if n = 0 then y.halt .connection
    else
      let s := y.s.emit (.io (.rx (.adjust n)))
      let s := if s.sendWin = 0 then s.scheduleRead else s
      { y with s := { s with sendWin := s.sendWin + n } }
  | .blocked =>
    let s := y.s.emit (.io .kexinit)
    { y with s := if 0 < s.sendWin then s.cancelRead else s }
  | .unblocked => { y with s := (y.s.emit (.io .newkeys)).maybeScheduleRead }
  | .writes f bs => { y with s := y.s.processWrites f bs }
  | .closes f => { y with s := y.s.processCloses f }
  | .stdinReady ks => y.stdinReady ks
  | .pipeReady f len => if f = .terminal then y else y.pipeReady cfg f len
  | .ttyReady w len => y.ttyReady cfg w len
  | .gone => { y with s := y.s.dropChild }.halt .connection

def SessCh.step (cfg : SessCfg) (y : SessCh) (ev : SessEvent) : SessCh :=
  match y.stop with
  | some _ => y
  | none => y.handle cfg ev

/-- The constructor, SessionChannel.cxx:49-58. -/
def SessCh.init (r : Restrictions) (w : Nat) : SessCh := { s := { restr := r, sendWin := w } }

def SessCh.run (cfg : SessCfg) (y : SessCh) (evs : List SessEvent) : SessCh := evs.foldl (SessCh.step cfg) y

end Lukko.Model
