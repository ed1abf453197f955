import Verif.Spec.Session
import Verif.Spec.Messages
/-
  C89, C90: sizes of data messages, and how the client learns about the end of a process.
-/
namespace Lukko.Spec

/-- No message carries more data than this. -/
def WithinMax (max : Nat) (log : List IoEntry) : Prop := ∀ e ∈ log, e.sentBytes ≤ max

/-- How a process ends. -/
inductive Ending
  /-- with this code -/
  | code (n : Nat)
  /-- by this signal, and whether there is a core dump -/
  | signal (n : Nat) (core : Bool)
  deriving DecidableEq, Repr

/-- What exists: codes 0 to 255, signals 1 to 64. -/
def Ending.Valid : Ending → Prop
  | .code n => n < 256
  | .signal n _ => 0 < n ∧ n ≤ 64

instance (x : Ending) : Decidable x.Valid := by cases x <;> unfold Ending.Valid <;> infer_instance

/-- The status reported by `wait()` (Linux). -/
def Ending.status : Ending → Nat
  | .code n => n * 256
  | .signal n core => n + (bif core then 128 else 0)

/-- The names of signals in RFC 4254 section 6.10, with their numbers (Linux, x86 and
ARM). -/
def rfcSignals : List (Nat × String) :=
  [(6, "ABRT"), (14, "ALRM"), (8, "FPE"), (1, "HUP"), (4, "ILL"), (2, "INT"), (9, "KILL"), (13, "PIPE"), (3, "QUIT"),
   (11, "SEGV"), (15, "TERM"), (10, "USR1"), (12, "USR2")]

/-- The end of each process is reported at once, after its standard input was closed, and
nothing else is reported. -/
structure EndsReported (log : List SessEntry) : Prop where
  /-- each end is reported -/
  told : ∀ a b, log = a ++ .exited :: b →
    ∃ c, b = .io (.tx (.request false)) :: c ∨ b = .inputClosed :: .io (.tx (.request false)) :: c
  /-- each report is about the end of a process -/
  only : ∀ a b want, log = a ++ .io (.tx (.request want)) :: b → want = false ∧
    ∃ c, a = c ++ [.exited] ∨ a = c ++ [.exited, .inputClosed]

end Lukko.Spec
