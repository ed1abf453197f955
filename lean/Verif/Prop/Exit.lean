import Verif.Proof.Exit
import Verif.Prop.Messages
import Verif.Prop.SessionOut
/-
  C89: sizes of data messages.  C90: the client learns how the process ended.
-/
namespace Lukko
open Model Spec

variable {cfg : SessCfg} {r : Restrictions} {w : Nat}

/-! ## C89 -/

/-- **C89.** On session channels, no message carries more data than the peer's maximum
packet size, if this is at least 4096. -/
theorem C89_session_partial {evs : List SessEvent} {max : Nat} (h : 4096 ≤ max) :
    WithinMax max (sessIo (SessCh.run cfg (SessCh.init r w) evs).s.log) :=
  fun e he => Nat.le_trans ((sess_tidy cfg r w evs).within e he) h

/-- **C89.** The same for forwarded connections. -/
theorem C89_socket_partial {nd : Bool} {evs : List SockEvent} {max : Nat} (h : 4096 ≤ max) :
    WithinMax max (SockCh.run nd (SockCh.init w) evs).sock.log :=
  fun e he => Nat.le_trans (sock_small nd w evs e he) h

example : .tx (.data 3) ∈ sessIo (SessCh.run demoCfg (SessCh.init {} 100) demoCat).s.log := by
  rw [demoCat_log]; decide +kernel

/-- A client opens a session with a window of 10000 bytes and a maximum packet size of
1000. -/
def smallOpen : Bytes := channelOpenBody (ascii "session") 0 10000 1000 []

/-- A process which writes 1001 bytes. -/
def bigWrite : List SessEvent :=
  [.request (ascii "exec") (str (ascii "cat")) true, .enqueued 0 .ok, .completed 0 none,
   .writes .stdout (List.replicate 1001 7), .pipeReady .stdout 9999]

/-- **C89** does not hold for smaller maximum packet sizes, neither for sessions nor for
forwarded connections. -/
theorem C89_violated : ∃ p, parseChannelOpen.parse smallOpen = some p ∧ p.maxPacket = 1000 ∧
    ¬ WithinMax p.maxPacket (sessIo (SessCh.run demoCfg (SessCh.init {} p.window) bigWrite).s.log) ∧
    ¬ WithinMax p.maxPacket (SockCh.run false (SockCh.init p.window) [.unblocked, .ready none (some (some 1000)) false]).sock.log := by
  refine ⟨⟨ascii "session", 0, 10000, 1000, []⟩, by decide +kernel, rfl, fun h => ?_, fun h => ?_⟩
  · exact absurd (h (.tx (.data 1001)) (by decide +kernel)) (by decide +kernel)
  · exact absurd (h (.tx (.data 1001)) (by decide +kernel)) (by decide +kernel)

/-! ## C90 -/

/-- **C90.** In every session: the end of each process is reported, at once and only
once, and nothing else is reported. -/
theorem C90_reported {evs : List SessEvent} : EndsReported (SessCh.run cfg (SessCh.init r w) evs).s.log :=
  ⟨(sess_tidy cfg r w evs).rep.told, (sess_tidy cfg r w evs).rep.only⟩

example : .exited ∈ (SessCh.run demoCfg (SessCh.init {} 100) demoCat).s.log := by rw [demoCat_log]; simp

theorem signaled_code {n : Nat} : wIfSignaled (Ending.code n).status = false := by
  have : n * 256 % 128 = 0 := by omega
  simp [wIfSignaled, wTermSig, Ending.status, this]

/-- **C90.** If the process ends with a code, this code is reported. -/
theorem C90_code {recipient n : Nat} (hr : recipient < 2 ^ 32) (hv : (Ending.code n).Valid) :
    exitReport recipient (Ending.code n).status
      = .ok ⟨[0, 0, 0, 0, 0, MSG_CHANNEL_REQUEST] ++ exitStatusBody recipient n⟩ := by
  have hn : n < 256 := hv
  have e : wExitStatus (Ending.code n).status = n := by simp only [wExitStatus, Ending.status]; omega
  simp only [exitReport, signaled_code, cond_false, e]
  exact (C05_exit_status recipient n hr).1

example : (Ending.code 255).Valid := by decide

theorem signalName_length (n : Nat) : (signalName n).length ≤ 30 := by
  by_cases h : n < 32
  · revert n; decide +kernel
  · have : sigdescr n = none := by
      unfold sigdescr
      simp only [List.lookup]
      repeat (rw [show (n == _) = false from by simp; omega])
      rfl
    rw [signalName, this]; decide

/-- **C90.** If the process is killed by a signal, a message about a signal is sent, with
the correct information about a core dump. -/
theorem C90_signal_partial {recipient n : Nat} {core : Bool} (hr : recipient < 2 ^ 32) (hv : (Ending.signal n core).Valid) :
    exitReport recipient (Ending.signal n core).status
      = .ok ⟨[0, 0, 0, 0, 0, MSG_CHANNEL_REQUEST] ++ exitSignalBody recipient (signalName n) core [] (ascii "en")⟩ := by
  have hn : 0 < n ∧ n ≤ 64 := hv
  have e1 : wTermSig (Ending.signal n core).status = n := by
    cases core <;> simp only [wTermSig, Ending.status, cond_true, cond_false] <;> omega
  have e2 : wCoreDump (Ending.signal n core).status = core := by
    cases core
    · exact decide_eq_false (by simp only [Ending.status, cond_false]; omega)
    · exact decide_eq_true (by simp only [Ending.status, cond_true]; omega)
  have e3 : wIfSignaled (Ending.signal n core).status = true := by
    simp only [wIfSignaled, e1, Bool.and_eq_true, bne_iff_ne]; omega
  simp only [exitReport, e1, e2, e3, cond_true]
  exact (C05_exit_signal recipient _ [] core hr (by have := signalName_length n; simp only [List.length_nil]; omega)).1

example : (Ending.signal 9 true).Valid := by decide

/-- **C90** does not hold: no signal is reported with the name specified in RFC 4254
section 6.10. -/
theorem C90_signal_violated : ∀ s ∈ rfcSignals, signalName s.1 ≠ ascii s.2 := by decide +kernel

example : signalName 9 = ascii "Killed" ∧ (9, "KILL") ∈ rfcSignals := by decide +kernel

end Lukko
