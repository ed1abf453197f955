import Verif.Spec.Exit
import Verif.Model.Messages
/-
  The report about the end of a process.
-/
namespace Lukko.Model
open Spec

/-- `WTERMSIG` (bits/waitstatus.h of the C library, as the following). -/
def wTermSig (status : Nat) : Nat := status % 128

/-- `WIFSIGNALED` -/
def wIfSignaled (status : Nat) : Bool := wTermSig status != 0 && wTermSig status != 127

/-- `WCOREDUMP` -/
def wCoreDump (status : Nat) : Bool := decide (status / 128 % 2 = 1)

/-- `WEXITSTATUS` -/
def wExitStatus (status : Nat) : Nat := status / 256 % 256

/-- `sigdescr_np` of glibc (sysdeps/generic/siglist.h), Linux on x86 and ARM. -/
def sigdescr (n : Nat) : Option Bytes :=
  (fun s : String => ascii s) <$> List.lookup n
    [(1, "Hangup"), (2, "Interrupt"), (3, "Quit"), (4, "Illegal instruction"), (5, "Trace/breakpoint trap"), (6, "Aborted"),
     (7, "Bus error"), (8, "Floating point exception"), (9, "Killed"), (10, "User defined signal 1"),
     (11, "Segmentation fault"), (12, "User defined signal 2"), (13, "Broken pipe"), (14, "Alarm clock"), (15, "Terminated"),
     (16, "Stack fault"), (17, "Child exited"), (18, "Continued"), (19, "Stopped (signal)"), (20, "Stopped"),
     (21, "Stopped (tty input)"), (22, "Stopped (tty output)"), (23, "Urgent I/O condition"), (24, "CPU time limit exceeded"),
     (25, "File size limit exceeded"), (26, "Virtual timer expired"), (27, "Profiling timer expired"), (28, "Window changed"),
     (29, "I/O possible"), (30, "Power failure"), (31, "Bad system call")]

/-- The name of a signal, SessionChannel.cxx:978-980. -/
def signalName (n : Nat) : Bytes := (sigdescr n).getD (ascii "UNKNOWN")

/-- The message sent by `OnChildProcessExit`, SessionChannel.cxx:977-985. -/
def exitReport (recipient status : Nat) : Except SerError Ser :=
  bif wIfSignaled status then makeExitSignal recipient (signalName (wTermSig status)) (wCoreDump status) []
  else makeExitStatus recipient (wExitStatus status)

end Lukko.Model
