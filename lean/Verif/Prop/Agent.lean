import Verif.Proof.AgentInv
/-
  C80: the agent of the client can be used only in sessions for which the client has asked
  for that, and every use is agreed to by the client.
-/
namespace Lukko
open Model Spec

variable (cfg : SessCfg) (r : Restrictions) (w : Nat) (evs : List AgEv)

/-- A session with agent forwarding.  Two processes connect; the client accepts one, then
the channel is closed. -/
def demoAgentEvents : List AgEv :=
  [.session (.request (ascii "auth-agent-req@openssh.com") [] true), .session (.request (ascii "shell") [] true),
   .session (.enqueued 0 .ok), .accept true, .accept true, .confirmed 1, .session .gone]

def demoAgentCfg : SessCfg := { exec := true, sftp := false }

theorem demoAgent_log : ((AgSess.init {} 100).run demoAgentCfg demoAgentEvents).log =
    [.session (.asked (ascii "auth-agent-req@openssh.com") []), .session (.answered true), .session (.asked (ascii "shell") []),
     .session (.started { program := .loginShell }), .connected 0, .offered 0, .connected 1, .offered 1, .joined 1,
     .session .killed, .dropped 0, .ended] := by decide +kernel

/-- Whenever a process connects to the socket, the client has asked for agent forwarding
on this channel and for a shell or a command, and the account may execute programs. -/
theorem C80_asked {a b c} (h : ((AgSess.init r w).run cfg evs).log = a ++ .connected c :: b) :
    AskedAgent (sessionLog a) ∧ cfg.exec = true ∧ AskedProgram (sessionLog a) := (ag_hist cfg r w evs h).1.2

example : ((AgSess.init {} 100).run demoAgentCfg demoAgentEvents).log =
    [.session (.asked (ascii "auth-agent-req@openssh.com") []), .session (.answered true), .session (.asked (ascii "shell") []),
     .session (.started { program := .loginShell }), .connected 0, .offered 0] ++ .connected 1 ::
     [.offered 1, .joined 1, .session .killed, .dropped 0, .ended] := demoAgent_log

/-- Without that there is no socket. -/
example : ((AgSess.init {} 100).run demoAgentCfg
    [.session (.request (ascii "shell") [] true), .session (.enqueued 0 .ok), .accept true]).log =
    [.session (.asked (ascii "shell") []), .session (.started { program := .loginShell })] := by decide +kernel

/-- The client is asked once for each connection, immediately after it was made. -/
theorem C80_offered {a b c} (h : ((AgSess.init r w).run cfg evs).log = a ++ .offered c :: b) :
    (∃ a', a = a' ++ [.connected c]) ∧ .offered c ∉ a ∧ .connected c ∉ b := by
  obtain ⟨⟨⟨a', h1⟩, h2, _⟩, _⟩ := ag_hist cfg r w evs h
  refine ⟨⟨a', h1⟩, h2, fun hb => ?_⟩
  obtain ⟨x, y, hb⟩ := List.append_of_mem hb
  have h3 := (ag_hist cfg r w evs (a := a ++ .offered c :: x) (e := .connected c) (b := y) (by rw [h, hb]; simp)).1.1
  exact h3 (by rw [h1]; simp)

/-- A connection is joined with the agent only if the client was asked and has not
answered yet, the process was not disconnected, and the session has not ended. -/
theorem C80_joined {a b c} (h : ((AgSess.init r w).run cfg evs).log = a ++ .joined c :: b) :
    Pending a c ∧ .ended ∉ a := ag_hist cfg r w evs h

example : ((AgSess.init {} 100).run demoAgentCfg demoAgentEvents).log =
    [.session (.asked (ascii "auth-agent-req@openssh.com") []), .session (.answered true), .session (.asked (ascii "shell") []),
     .session (.started { program := .loginShell }), .connected 0, .offered 0, .connected 1, .offered 1] ++ .joined 1 ::
     [.session .killed, .dropped 0, .ended] := demoAgent_log

/-- A process is disconnected at most once, and not by the session once it is joined. -/
theorem C80_dropped {a b c} (h : ((AgSess.init r w).run cfg evs).log = a ++ .dropped c :: b) :
    .connected c ∈ a ∧ .joined c ∉ a ∧ .dropped c ∉ a := (ag_hist cfg r w evs h).1

/-- With the end of the session, nothing is left over: each connection has been joined or
disconnected, and nothing happens any more. -/
theorem C80_ended {a b} (h : ((AgSess.init r w).run cfg evs).log = a ++ .ended :: b) :
    b = [] ∧ ∀ c, .connected c ∈ a → .joined c ∈ a ∨ .dropped c ∈ a := by
  refine ⟨?_, (ag_hist cfg r w evs h).1⟩
  cases b with
  | nil => rfl
  | cons e b =>
    have := (ag_hist cfg r w evs (a := a ++ [.ended]) (e := e) (b := b) (by rw [h]; simp)).2
    simp at this

/-- A session which has ended says so, and it does not change any more. -/
theorem C80_over (h : ((AgSess.init r w).run cfg evs).ch.stop ≠ none) (ev) :
    .ended ∈ ((AgSess.init r w).run cfg evs).log ∧
    ((AgSess.init r w).run cfg evs).step cfg ev = (AgSess.init r w).run cfg evs := by
  rcases ag_inv cfg r w evs with ⟨_, hs⟩ | ⟨⟨⟨s', _, hl, _⟩, _⟩, hs⟩
  · exact absurd hs h
  · refine ⟨by rw [hl]; simp, ?_⟩
    unfold AgSess.step
    rw [hs]; rfl

example : ((AgSess.init {} 100).run demoAgentCfg demoAgentEvents).ch.stop ≠ none := by decide +kernel

/-- The answer of the client (or the process closing its connection) takes effect. -/
theorem C80_answered {c} (h : Pending ((AgSess.init r w).run cfg evs).log c) :
    (((AgSess.init r w).run cfg evs).step cfg (.confirmed c)).log = ((AgSess.init r w).run cfg evs).log ++ [.joined c] ∧
    (((AgSess.init r w).run cfg evs).step cfg (.refused c)).log = ((AgSess.init r w).run cfg evs).log ++ [.dropped c] := by
  have hco : AgentEntry.connected c ∈ ((AgSess.init r w).run cfg evs).log := by
    obtain ⟨a, b, hl⟩ := List.append_of_mem h.1
    obtain ⟨⟨⟨a', h1⟩, _⟩, _⟩ := ag_hist cfg r w evs hl
    rw [hl, h1]; simp
  rcases ag_inv cfg r w evs with ⟨hi, hs⟩ | ⟨⟨⟨s', hi, hl, hw⟩, _⟩, hs⟩
  · have hm : c ∈ ((AgSess.init r w).run cfg evs).waiting := by
      rcases hi.book.done c hco with h1 | h1 | h1
      · exact h1
      · exact absurd h1 h.2.1
      · exact absurd h1 h.2.2
    have hc : ((AgSess.init r w).run cfg evs).waiting.contains c = true := by simpa using hm
    unfold AgSess.step
    simp only [hs, Option.isSome_none, cond_false, AgSess.handle, AgSess.resolve, hc, cond_true]
    exact ⟨rfl, rfl⟩
  · rw [hl] at hco
    have hd := hi.book.done c (by simpa using hco)
    rw [hw] at hd
    unfold Pending at h
    rw [hl] at h
    rcases hd with h1 | h1 | h1
    · simp at h1
    · exact absurd (List.mem_append_left _ h1) h.2.1
    · exact absurd (List.mem_append_left _ h1) h.2.2

example : Pending ((AgSess.init {} 100).run demoAgentCfg (demoAgentEvents.take 5)).log 0 := by
  unfold Pending; decide +kernel

/-- If the client asks for agent forwarding before any process is started, and then a shell
or a command is started, then that can use the agent as long as the session goes on and
the socket has no errors: connecting to it makes the server ask the client. -/
theorem C80_available (he : AgEv.acceptError ∉ evs) (hs : ((AgSess.init r w).run cfg evs).ch.stop = none)
    (hf : AskedAgentFirst (sessionLog ((AgSess.init r w).run cfg evs).log)) {p}
    (hp : .session (.started p) ∈ ((AgSess.init r w).run cfg evs).log) (hsh : p.program.isShell = true) :
    ∃ c, (((AgSess.init r w).run cfg evs).step cfg (.accept true)).log =
      ((AgSess.init r w).run cfg evs).log ++ [.connected c, .offered c] := by
  rcases ag_inv cfg r w evs with ⟨hi, _⟩ | ⟨_, hs'⟩
  · have hr := ag_ready cfg r w evs he
    have hpm : SessEntry.started p ∈ ((AgSess.init r w).run cfg evs).ch.s.log := by
      rw [← hi.log]; exact List.mem_filterMap.2 ⟨_, hp, rfl⟩
    have ha := hr (hi.log ▸ hf) p hpm hsh
    refine ⟨((AgSess.init r w).run cfg evs).conn, ?_⟩
    unfold AgSess.step
    simp only [hs, Option.isSome_none, cond_false, AgSess.handle, AgSess.accept, ha, cond_true, AgSess.say, List.append_assoc]
    rfl
  · rw [hs] at hs'; simp at hs'

example : AgEv.acceptError ∉ demoAgentEvents.take 3 ∧ ((AgSess.init {} 100).run demoAgentCfg (demoAgentEvents.take 3)).ch.stop = none ∧
    AskedAgentFirst (sessionLog ((AgSess.init {} 100).run demoAgentCfg (demoAgentEvents.take 3)).log) ∧
    .session (.started { program := .loginShell }) ∈ ((AgSess.init {} 100).run demoAgentCfg (demoAgentEvents.take 3)).log ∧
    Program.loginShell.isShell = true := by
  refine ⟨by decide, by decide +kernel, ⟨[], ascii "auth-agent-req@openssh.com", [], [.answered true, .asked (ascii "shell") [],
    .started { program := .loginShell }], by decide +kernel, by decide +kernel, rfl⟩, by decide +kernel, rfl⟩

end Lukko
