import Verif.Proof.SessionAfter
import Verif.Prop.SessionIo
/-
  C64: the output of processes.
-/
namespace Lukko
open Model Spec

variable {cfg : SessCfg} {r : Restrictions} {w : Nat} {evs : List SessEvent}

/-- **C64.** If the client asks for one process only and the server has no message for the
user: what was sent from standard output (or standard error) and what is still in the pipe
is what the process wrote. -/
theorem C64_exact_partial (ho : Orderly (SessCh.run cfg (SessCh.init r w) evs).s.log)
    (hm : ∀ t, .message t ∉ (SessCh.run cfg (SessCh.init r w) evs).s.log) {f : Stream} (hf : f = .stdout ∨ f = .stderr) :
    ∃ rest, sentFrom f (SessCh.run cfg (SessCh.init r w) evs).s.log ++ rest = writtenTo f (SessCh.run cfg (SessCh.init r w) evs).s.log ∧
      ((SessCh.run cfg (SessCh.init r w) evs).s.source f = none → rest = []) ∧
      (∀ x, (SessCh.run cfg (SessCh.init r w) evs).s.source f = some x → rest = x.content) := by
  have hf : f ≠ .terminal := by rcases hf with rfl | rfl <;> simp
  refine ⟨_, (sess_out cfg r w evs ho hf).exact hm, ?_, ?_⟩
  · intro h; simp [Sess.content, h]
  · intro x h; simp [Sess.content, h]

/-- **C64.** When end-of-file or close is sent, everything was sent. -/
theorem C64_before_end_partial (ho : Orderly (SessCh.run cfg (SessCh.init r w) evs).s.log)
    (hm : ∀ t, .message t ∉ (SessCh.run cfg (SessCh.init r w) evs).s.log) {f : Stream} (hf : f = .stdout ∨ f = .stderr)
    {a e b} (hl : (SessCh.run cfg (SessCh.init r w) evs).s.log = a ++ e :: b) (he : e = .io (.tx .eof) ∨ e = .io (.tx .close)) :
    sentFrom f a = writtenTo f a := by
  have hf : f ≠ .terminal := by rcases hf with rfl | rfl <;> simp
  exact (sess_out cfg r w evs ho hf).ends hm a e b hl (by rcases he with rfl | rfl <;> rfl)

/-- **C64.** Neither data nor another end-of-file follows end-of-file. -/
theorem C64_after_eof_partial (ho : Orderly (SessCh.run cfg (SessCh.init r w) evs).s.log)
    (hm : ∀ t, .message t ∉ (SessCh.run cfg (SessCh.init r w) evs).s.log)
    {a b} (hl : (SessCh.run cfg (SessCh.init r w) evs).s.log = a ++ .io (.tx .eof) :: b) :
    .io (.tx .eof) ∉ b ∧ ∀ f bs, .sent f bs ∉ b := by
  have h := (sess_after cfg r w evs ho hm).2 a b hl
  refine ⟨fun he => ?_, fun f bs he => ?_⟩ <;> (have := h _ he; simp [outEntry] at this)

example : Orderly (SessCh.run demoCfg (SessCh.init {} 100) demoCat).s.log ∧
    (∀ t, .message t ∉ (SessCh.run demoCfg (SessCh.init {} 100) demoCat).s.log) ∧
    .io (.tx .eof) ∈ (SessCh.run demoCfg (SessCh.init {} 100) demoCat).s.log := by
  refine ⟨demoCat_orderly, ?_, ?_⟩ <;> rw [demoCat_log] <;> simp

example : let y := SessCh.run demoCfg (SessCh.init {} 2) (demoCat.take 9)
    Orderly y.s.log ∧ sentFrom .stdout y.s.log = [1, 2] ∧ writtenTo .stdout y.s.log = [1, 2, 3] := by
  exact ⟨orderly_of (by decide +kernel) (by decide +kernel), by decide +kernel⟩

/-- **C64.** If only one terminal was allocated, what was sent from it is an initial part
of what was written to it; while it is open, the rest can still be read. -/
theorem C64_terminal_partial (hc : (SessCh.run cfg (SessCh.init r w) evs).s.log.count .terminalAllocated ≤ 1) :
    sentFrom .terminal (SessCh.run cfg (SessCh.init r w) evs).s.log <+: writtenTo .terminal (SessCh.run cfg (SessCh.init r w) evs).s.log ∧
    ∀ x, (SessCh.run cfg (SessCh.init r w) evs).s.tty = some x →
      sentFrom .terminal (SessCh.run cfg (SessCh.init r w) evs).s.log ++ x.content =
        writtenTo .terminal (SessCh.run cfg (SessCh.init r w) evs).s.log :=
  ⟨(sess_termOut cfg r w evs hc).le, (sess_termOut cfg r w evs hc).open_⟩

/-- A shell with a terminal. -/
def demoShell : List SessEvent :=
  [.request (ascii "pty-req") (str [] ++ (u32 80 ++ u32 24 ++ u32 0 ++ u32 0) ++ str [0]) true,
   .request (ascii "shell") [] true, .enqueued 0 .ok, .completed 0 none, .writes .terminal [1, 2, 3],
   .ttyReady none 9, .closes .terminal, .exited, .ttyReady none 9]

example : let y := SessCh.run demoCfg (SessCh.init {} 1) (demoShell.take 6)
    y.s.log.count .terminalAllocated ≤ 1 ∧ y.s.tty.isSome = true ∧ sentFrom .terminal y.s.log = [1] ∧
      writtenTo .terminal y.s.log = [1, 2, 3] := by decide +kernel

/-- **C64** is false if the process can not be executed: the error message follows
end-of-file, and then there is another end-of-file. -/
theorem C64_message_after_eof_violated :
    let y := SessCh.run { demoCfg with verboseErrors := true } (SessCh.init {} 100)
      [.request (ascii "exec") (str (ascii "cat")) true, .enqueued 0 .ok, .closes .stdout, .closes .stderr,
       .pipeReady .stdout 9, .pipeReady .stderr 9, .completed 0 (some (ascii "Failed")), .pipeReady .stderr 99, .pipeReady .stderr 99]
    y.s.log =
      [.asked (ascii "exec") (str (ascii "cat")), .started { program := .command (ascii "cat") }, .io (.tx .eof),
       .killed, .inputClosed, .message (ascii "Failed"), .answered true, .sent .stderr (ascii "Failed"),
       .io (.tx .eof), .io (.tx .close)] := by
  decide +kernel

theorem orderly_terminal {log a b : List SessEntry} (e : log = a ++ .terminalAllocated :: b) (ha : .terminalAllocated ∉ a) (hb : .terminalAllocated ∉ b)
    (h : startRequests log ≤ 1) (h0 : startRequests a = 0) : Orderly log := by
  refine ⟨h, fun a' b' e' => ?_⟩
  rw [e] at e'
  rcases split_append e' with ⟨c, e2⟩ | ⟨c, e1, e2⟩
  · exact absurd (by rw [e2]; simp) ha
  · cases c with
    | nil => rw [e1, List.append_nil]; exact h0
    | cons x c =>
      simp only [List.cons_append, List.cons.injEq] at e2
      exact absurd (by rw [e2.2]; simp) hb

/-- **C64** is false for terminals: if the window is exhausted when the process ends, the
rest of its output is lost. -/
theorem C64_terminal_violated :
    let y := SessCh.run demoCfg (SessCh.init {} 1) demoShell
    Orderly y.s.log ∧ writtenTo .terminal y.s.log = [1, 2, 3] ∧ sentFrom .terminal y.s.log = [1] ∧
      .io (.tx .close) ∈ y.s.log := by
  refine ⟨?_, by decide +kernel⟩
  exact orderly_terminal (a := [.asked (ascii "pty-req") (str [] ++ (u32 80 ++ u32 24 ++ u32 0 ++ u32 0) ++ str [0])])
    (b := [.answered true, .asked (ascii "shell") [], .started { program := .loginShell, env := [(ascii "TERM", [])], terminal := true }, .answered true,
      .wrote .terminal [1, 2, 3], .sent .terminal [1], .exited, .io (.tx (.request false)), .io (.tx .eof), .io (.tx .close)])
    (by decide +kernel) (by decide +kernel) (by decide +kernel) (by decide +kernel) (by decide +kernel)

end Lukko
