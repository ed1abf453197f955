import Verif.Proof.SessionEnv
import Verif.Prop.Cmdline
/-
  Property theorems about session channels: which processes are started (C40-C43, C63,
  C67).

  `SessCh.run cfg (SessCh.init r w) evs`: a channel with an initial window of `w` bytes,
  of a user whose key has the restrictions `r` and whose account has the settings `cfg`,
  after any sequence of events.  `log` is what happened.
-/
namespace Lukko
open Model Spec

variable {cfg : SessCfg} {r : Restrictions} {w : Nat} {evs : List SessEvent}

theorem AskedRun.spec {log} : ∀ {cmd}, AskedRun log cmd →
    (cmd = none ∧ AskedShell log ∨ ∃ line, AskedExec log line ∧ cmd = some (upToNul line))
  | none, h => .inl ⟨rfl, h⟩
  | some _, ⟨line, h, e⟩ => .inr ⟨line, h, congrArg some e⟩

/-- An example: someone who may only run one command. -/
def demoForced : Restrictions := { command := some (ascii "backup") }
def demoExecCfg : SessCfg := { exec := true, sftp := false, rejectStderr := true }
def demoRun : List SessEvent :=
  [.request (ascii "env") (str (ascii "LANG") ++ str (ascii "C")) true,
   .request (ascii "exec") (str (ascii "rm -rf /")) true, .enqueued 0 .ok, .completed 0 none]

theorem demoRun_log : (SessCh.run demoExecCfg (SessCh.init demoForced 100) demoRun).s.log =
    [.asked (ascii "env") (str (ascii "LANG") ++ str (ascii "C")), .answered true,
     .asked (ascii "exec") (str (ascii "rm -rf /")),
     .started { program := .command (ascii "backup"), original := some (ascii "rm -rf /"), env := [(ascii "LANG", ascii "C")] },
     .answered true] := by decide +kernel

/-! ## C40 -/

/-- If the account may execute programs but not use SFTP: whenever a process is started
while a command is forced, it is that command. -/
theorem C40_partial (hx : cfg.exec = true) (hf : cfg.sftp = false) {a b : List SessEntry} {p : Proc} {c : Bytes}
    (hl : (SessCh.run cfg (SessCh.init r w) evs).s.log = a ++ .started p :: b)
    (hc : (restrictionsNow r a).command = some c) : p.program = .command (upToNul c) := by
  have h := ((sess_inv cfg r w evs).started a p b hl).prog
  generalize p.program = q at h
  cases q with
  | loginShell => have := h.2.1; rw [hc] at this; simp at this
  | command c' =>
    rcases h.2 with h | ⟨f, h1, h2, h3⟩
    · rw [hc] at h; simp at h
    · rw [hc] at h1
      simp only [Option.some.injEq] at h1
      rw [h2, h1]; rfl
  | sftpServer => rw [h.1] at hf; simp at hf
  | rsync args => obtain ⟨_, _, h, _⟩ := h; rw [hx] at h; simp at h
  | git s g => have := h.1; rw [hx] at this; simp at this

/-- For any account: it is that command, or one of the services sftp, rsync and git. -/
theorem C40_services_partial {a b : List SessEntry} {p : Proc} {c : Bytes}
    (hl : (SessCh.run cfg (SessCh.init r w) evs).s.log = a ++ .started p :: b)
    (hc : (restrictionsNow r a).command = some c) :
    p.program = .command (upToNul c) ∨ (p.program = .sftpServer ∧ cfg.sftp = true) ∨
    (cfg.exec = false ∧ ((∃ args, p.program = .rsync args) ∨ ∃ s g, p.program = .git s g)) := by
  have h := ((sess_inv cfg r w evs).started a p b hl).prog
  generalize p.program = q at h
  cases q with
  | loginShell => have := h.2.1; rw [hc] at this; simp at this
  | command c' =>
    rcases h.2 with h | ⟨f, h1, h2, h3⟩
    · rw [hc] at h; simp at h
    · rw [hc] at h1
      simp only [Option.some.injEq] at h1
      exact .inl (by rw [h2, h1]; rfl)
  | sftpServer => exact .inr (.inl ⟨rfl, h.1⟩)
  | rsync args => obtain ⟨_, _, h, _⟩ := h; exact .inr (.inr ⟨h, .inl ⟨args, rfl⟩⟩)
  | git s g => exact .inr (.inr ⟨h.1, .inr ⟨s, g, rfl⟩⟩)

example : (SessCh.run demoExecCfg (SessCh.init demoForced 100) demoRun).s.log =
    [.asked (ascii "env") (str (ascii "LANG") ++ str (ascii "C")), .answered true,
     .asked (ascii "exec") (str (ascii "rm -rf /"))] ++
    .started { program := .command (ascii "backup"), original := some (ascii "rm -rf /"), env := [(ascii "LANG", ascii "C")] } ::
    [.answered true] := demoRun_log

/-- FALSE in general: with a forced command, one can still use SFTP if the account has
it. -/
theorem C40_sftp_violated :
    (SessCh.run { exec := true, sftp := true } (SessCh.init demoForced 100)
      [.request (ascii "subsystem") (str (ascii "sftp")) true, .enqueued 0 .ok]).s.log =
    [.asked (ascii "subsystem") (str (ascii "sftp")), .started { program := .sftpServer }] := by decide +kernel

/-- FALSE as well for accounts which can use rsync but no other programs. -/
theorem C40_rsync_violated :
    processes (SessCh.run demoRsyncCfg (SessCh.init demoForced 100)
      [.request (ascii "exec") (str (ascii "rsync --server .")) true, .enqueued 0 .ok]).s.log =
    [{ program := .rsync [ascii "rsync", ascii "--server", ascii "."] }] := by decide +kernel

/-- A way around the forced command: the client chooses any environment variables for it.
The command is executed by a shell, and `bash` executes the file whose name is in
`BASH_ENV` first. -/
theorem C40_environment_violated :
    processes (SessCh.run demoExecCfg (SessCh.init demoForced 100)
      [.request (ascii "env") (str (ascii "BASH_ENV") ++ str (ascii "$(evil)")) true,
       .request (ascii "shell") [] true, .enqueued 0 .ok]).s.log =
    [{ program := .command (ascii "backup"), env := [(ascii "BASH_ENV", ascii "$(evil)")] }] := by decide +kernel

/-! ## C41 -/

theorem splitCmdline_rsync (rest : Bytes) :
    splitCmdline (ascii "rsync --server " ++ rest) = ascii "rsync" :: ascii "--server" :: splitCmdline rest := by
  have e : ∀ l : Bytes, (∀ c ∈ l, c ≠ 32 ∧ c ≠ 92) → Escaped l l := by
    intro l
    induction l with
    | nil => exact fun _ => .nil
    | cons c l ih => exact fun h => .plain c (h c (by simp)).1 (h c (by simp)).2 (ih fun x hx => h x (by simp [hx]))
  have h1 : splitCmdline (ascii "rsync" ++ 32 :: (ascii "--server" ++ 32 :: rest)) =
      ascii "rsync" :: splitCmdline (ascii "--server" ++ 32 :: rest) := by
    have := cmdWord_sep (e (ascii "rsync") (by decide)) (ascii "--server" ++ 32 :: rest)
    have h := splitCmdline_word (c := 114) (r := ascii "sync" ++ 32 :: (ascii "--server" ++ 32 :: rest)) (by decide)
    have hq : (114 : UInt8) :: (ascii "sync" ++ 32 :: (ascii "--server" ++ 32 :: rest)) =
      ascii "rsync" ++ 32 :: (ascii "--server" ++ 32 :: rest) := rfl
    rw [hq, this] at h
    exact h
  have h2 : splitCmdline (ascii "--server" ++ 32 :: rest) = ascii "--server" :: splitCmdline rest := by
    have := cmdWord_sep (e (ascii "--server") (by decide)) rest
    have h := splitCmdline_word (c := 45) (r := ascii "-server" ++ 32 :: rest) (by decide)
    have hq : (45 : UInt8) :: (ascii "-server" ++ 32 :: rest) = ascii "--server" ++ 32 :: rest := rfl
    rw [hq, this] at h
    exact h
  rw [← h2, ← h1]
  rfl

/-- If the account may not execute programs: every process is the SFTP server, or the
configured rsync program with the arguments `rsync --server …`, or one of the configured
git programs, each only if the account may use it; it has no terminal, and no variables
chosen by the client. -/
theorem C41_services (hx : cfg.exec = false) {p : Proc}
    (hp : p ∈ processes (SessCh.run cfg (SessCh.init r w) evs).s.log) :
    (p.program = .sftpServer ∧ cfg.sftp = true ∨
     (∃ args, p.program = .rsync (ascii "rsync" :: ascii "--server" :: args)) ∧ cfg.sftp = true ∧ cfg.rsync = some true ∨
     (∃ g, p.program = .git (ascii "git-receive-pack") g) ∧ cfg.gitReceive = true ∨
     (∃ g, p.program = .git (ascii "git-upload-pack") g) ∧ cfg.gitUpload = true) ∧
    p.env = [] ∧ p.terminal = false := by
  have hm : SessEntry.started p ∈ (SessCh.run cfg (SessCh.init r w) evs).s.log := by
    simp only [processes, List.mem_filterMap] at hp
    obtain ⟨e, he, h1⟩ := hp
    cases e <;> simp [SessEntry.process] at h1
    subst h1
    exact he
  obtain ⟨a, b, hl⟩ := List.append_of_mem hm
  have h := (sess_inv cfg r w evs).started a p b hl
  have hpr := h.prog
  have hterm : p.terminal = false := by
    cases ht : p.terminal
    · rfl
    · obtain ⟨h1, _⟩ := h.term ht
      obtain ⟨a1, a2, h2⟩ := List.append_of_mem h1
      have := ((sess_inv cfg r w evs).term a1 (a2 ++ .started p :: b) (by rw [hl, h2]; simp)).1
      rw [hx] at this; simp at this
  refine ⟨?_, h.envNo hx, hterm⟩
  generalize p.program = q at hpr
  cases q with
  | loginShell => have := hpr.1; rw [hx] at this; simp at this
  | command c' => have := hpr.1; rw [hx] at this; simp at this
  | sftpServer => exact .inl ⟨rfl, hpr.1⟩
  | rsync args =>
    obtain ⟨cmd, e, _, h2, h3, _, h4⟩ := hpr
    rw [List.isPrefixOf_iff_prefix] at h4
    obtain ⟨rest, rfl⟩ := h4
    exact .inr (.inl ⟨⟨_, by rw [e]; exact congrArg _ (splitCmdline_rsync rest)⟩, h2, h3⟩)
  | git s g =>
    rcases hpr.2.1 with ⟨rfl, h⟩ | ⟨rfl, h⟩
    · exact .inr (.inr (.inl ⟨⟨g, rfl⟩, h⟩))
    · exact .inr (.inr (.inr ⟨⟨g, rfl⟩, h⟩))

/-- Terminals are allocated only for accounts which may execute programs, and never
while the key forbids it. -/
theorem C41_terminal {a b : List SessEntry}
    (hl : (SessCh.run cfg (SessCh.init r w) evs).s.log = a ++ .terminalAllocated :: b) :
    cfg.exec = true ∧ (restrictionsNow r a).noTerminal = false := (sess_inv cfg r w evs).term a b hl

/-- A process has a terminal only if one was allocated. -/
theorem C41_terminal_process {a b : List SessEntry} {p : Proc}
    (hl : (SessCh.run cfg (SessCh.init r w) evs).s.log = a ++ .started p :: b) (ht : p.terminal = true) :
    .terminalAllocated ∈ a := ((sess_inv cfg r w evs).started a p b hl).term ht |>.1

example : processes (SessCh.run demoRsyncCfg (SessCh.init {} 100)
      [.request (ascii "exec") (str (ascii "rm -rf /")) true,
       .request (ascii "env") (str (ascii "LANG") ++ str (ascii "C")) true,
       .request (ascii "exec") (str (ascii "rsync --server .")) true, .enqueued 0 .ok]).s.log =
    [{ program := .rsync [ascii "rsync", ascii "--server", ascii "."] }] := by decide +kernel
/-- "xterm", 80x24 characters, no modes -/
def demoPty : Bytes := str (ascii "xterm") ++ u32 80 ++ u32 24 ++ u32 0 ++ u32 0 ++ str []
example : SessEntry.terminalAllocated ∈ (SessCh.run demoExecCfg (SessCh.init {} 100) [.request (ascii "pty-req") demoPty true]).s.log ∧
    SessEntry.terminalAllocated ∉ (SessCh.run demoExecCfg (SessCh.init { noTerminal := true } 100)
      [.request (ascii "pty-req") demoPty true]).s.log := by decide +kernel

/-! ## C42 -/

/-- FALSE: two requests which arrive before the first process is started lead to two
processes. (With a terminal; the first process is killed when the second one is
started.) -/
theorem C42_violated :
    processes (SessCh.run demoExecCfg (SessCh.init {} 100)
      [.request (ascii "pty-req") demoPty true, .request (ascii "exec") (str (ascii "first")) true,
       .request (ascii "exec") (str (ascii "second")) true, .enqueued 0 .ok, .enqueued 1 .ok]).s.log =
    [{ program := .command (ascii "first"), env := [(ascii "TERM", ascii "xterm")], terminal := true },
     { program := .command (ascii "second"), env := [(ascii "TERM", ascii "xterm")], terminal := true }] := by decide +kernel

/-- Without a terminal, the server aborts, in a build with assertions. -/
theorem C42_assertion_violated :
    (SessCh.run demoExecCfg (SessCh.init {} 100)
      [.request (ascii "exec") (str (ascii "first")) true, .request (ascii "exec") (str (ascii "second")) true,
       .enqueued 0 .ok, .enqueued 1 .ok]).stop = some .ub := by decide +kernel

/-- No more processes are started than were asked for. -/
theorem C42_count_partial :
    (processes (SessCh.run cfg (SessCh.init r w) evs).s.log).length ≤
    startRequests (SessCh.run cfg (SessCh.init r w) evs).s.log := by
  have := (sess_inv cfg r w evs).count
  omega

/-- After each event, at most one process is running. -/
theorem C42_running_partial : running (SessCh.run cfg (SessCh.init r w) evs).s.log ≤ 1 := by
  rw [(sess_inv cfg r w evs).run, childCount]
  split <;> omega

/-- While a process is running, no further one is asked for: whatever the client
requests then, the server's record of what is to be started does not grow. -/
theorem C42_late_partial (hs : (SessCh.run cfg (SessCh.init r w) evs).stop = none)
    (hc : (SessCh.run cfg (SessCh.init r w) evs).s.child.isSome = true) (name data : Bytes) (ok : Bool) :
    (SessCh.run cfg (SessCh.init r w) (evs ++ [.request name data ok])).s.tasks =
      (SessCh.run cfg (SessCh.init r w) evs).s.tasks ∧
    processes (SessCh.run cfg (SessCh.init r w) (evs ++ [.request name data ok])).s.log =
      processes (SessCh.run cfg (SessCh.init r w) evs).s.log := by
  rw [SessCh.run_snoc]
  generalize SessCh.run cfg (SessCh.init r w) evs = y at *
  have e : y.step cfg (.request name data ok) =
      SessCh.lateRequest { y with s := y.s.emit (.asked name data) } name data ok := by
    simp only [SessCh.step, hs, SessCh.handle, SessCh.request, Sess.emit, hc, cond_true]
  rw [e]
  have hp : processes (y.s.log ++ [SessEntry.asked name data]) = processes y.s.log := by
    simp [processes, SessEntry.process]
  have ha : ∀ b, processes (y.s.log ++ [SessEntry.asked name data] ++ [SessEntry.answered b]) = processes y.s.log := by
    simp [processes, SessEntry.process]
  unfold SessCh.lateRequest
  split
  · simp only [Sess.emit]
    cases !y.s.tty.isSome
    · simp only [cond_false]
      split
      · exact ⟨rfl, hp⟩
      · cases ok
        · exact ⟨rfl, hp⟩
        · exact ⟨rfl, ha _⟩
    · exact ⟨rfl, ha _⟩
  · exact ⟨rfl, ha _⟩

example : (SessCh.run demoExecCfg (SessCh.init demoForced 100) demoRun).stop = none ∧
    (SessCh.run demoExecCfg (SessCh.init demoForced 100) demoRun).s.child.isSome = true ∧
    running (SessCh.run demoExecCfg (SessCh.init demoForced 100) demoRun).s.log = 1 := by decide +kernel

/-! ## C43 -/

/-- The variables kept for the next process, and those of every process that was
started, take less than 16 kB. -/
theorem C43_bound :
    envTotal (SessCh.run cfg (SessCh.init r w) evs).s.env < 16384 ∧
    ∀ p ∈ processes (SessCh.run cfg (SessCh.init r w) evs).s.log, envTotal p.env < 16384 := by
  have h := sess_inv cfg r w evs
  refine ⟨by rw [← h.envSum]; exact h.envLt, ?_⟩
  intro p hp
  simp only [processes, List.mem_filterMap] at hp
  obtain ⟨e, he, h1⟩ := hp
  cases e <;> simp [SessEntry.process] at h1
  subst h1
  obtain ⟨a, b, hl⟩ := List.append_of_mem he
  exact (h.started a _ b hl).envLt

theorem parseTwoStrings_of {a b : Bytes} (ha : a.length < 2 ^ 32) (hb : b.length < 2 ^ 32) :
    parseTwoStrings.parse (str a ++ str b) = some (a, b) := by
  have h1 := readString_reads ha (str b)
  have h2 := readString_reads hb []
  rw [List.append_nil] at h2
  simp only [Parser.parse, parseTwoStrings, bind_apply]
  rw [h1]
  simp only
  rw [h2]
  rfl

/-- What happens to a request for a variable, before a process is started. -/
theorem envRequest_result (hx : cfg.exec = true) {y : SessCh} (hs : y.stop = none) (hc : y.s.child = none) {name value : Bytes} (ok : Bool)
    (hn : name.length < 2 ^ 32) (hv : value.length < 2 ^ 32) :
    y.step cfg (.request (ascii "env") (str name ++ str value) ok) =
      match (y.s.emit (.asked (ascii "env") (str name ++ str value))).setEnv name value with
      | none => SessCh.halt { y with s := y.s.emit (.asked (ascii "env") (str name ++ str value)) } .connection
      | some s => SessCh.answer { y with s := s } true := by
  have n1 : ¬ (ascii "env" = ascii "exec") := by decide
  have n2 : ¬ (ascii "env" = ascii "shell") := by decide
  have n3 : ¬ (ascii "env" = ascii "subsystem") := by decide
  have n4 : ¬ (ascii "env" = ascii "pty-req") := by decide
  simp only [SessCh.step, hs, SessCh.handle, SessCh.request, Sess.emit, hc, Option.isSome_none, cond_false,
    if_neg n1, if_neg n2, if_neg n3, if_neg n4, if_true, SessCh.envRequest, hx, Bool.not_true,
    parseTwoStrings_of hn hv]
  rfl

/-- A variable for which there is no room disconnects the client. -/
theorem C43_disconnect (hx : cfg.exec = true) (hs : (SessCh.run cfg (SessCh.init r w) evs).stop = none)
    (hc : (SessCh.run cfg (SessCh.init r w) evs).s.child = none) {name value : Bytes} (ok : Bool)
    (hn : name.length < 2 ^ 32) (hv : value.length < 2 ^ 32)
    (hfull : 16384 ≤ envTotal (SessCh.run cfg (SessCh.init r w) evs).s.env + (name.length + value.length + 32)) :
    (SessCh.run cfg (SessCh.init r w) (evs ++ [.request (ascii "env") (str name ++ str value) ok])).stop = some .connection := by
  have h := (sess_inv cfg r w evs).envSum
  rw [SessCh.run_snoc, envRequest_result hx hs hc ok hn hv]
  rw [← h] at hfull
  have e : ∀ e, ((SessCh.run cfg (SessCh.init r w) evs).s.emit e).setEnv name value = none := fun e => if_pos hfull
  rw [e]
  rfl

example : (SessCh.run demoExecCfg (SessCh.init demoForced 100) (demoRun.take 1)).stop = none ∧
    (SessCh.run demoExecCfg (SessCh.init demoForced 100) (demoRun.take 1)).s.child = none ∧
    envTotal (SessCh.run demoExecCfg (SessCh.init demoForced 100) (demoRun.take 1)).s.env = 37 := by decide +kernel

/-! ## C63 -/

/-- While the home directory is to be read-only, processes that are started cannot write
to any part of the server's file system which contains it, among those that are mounted
for them. -/
theorem C63_partial {a b : List SessEntry} {p : Proc}
    (hl : (SessCh.run cfg (SessCh.init r w) evs).s.log = a ++ .started p :: b)
    (hr : (restrictionsNow r a).readOnlyHome = true) :
    ∀ m ∈ p.mounts, m.bind = true → m.coversHome = true → m.writable = false := by
  have h := ((sess_inv cfg r w evs).started a p b hl).mounts
  rw [hr, cond_true] at h
  intro m hm hb hh
  rw [h, List.mem_map] at hm
  obtain ⟨m', _, rfl⟩ := hm
  unfold makeReadOnly at hb hh ⊢
  cases hq : m'.bind && m'.coversHome
  · rw [hq] at hb hh
    simp only [cond_false] at hb hh
    simp [hb, hh] at hq
  · simp [hq]

/-- Nothing else about the mounts is changed; without the restriction, nothing at all. -/
theorem C63_unchanged {a b : List SessEntry} {p : Proc}
    (hl : (SessCh.run cfg (SessCh.init r w) evs).s.log = a ++ .started p :: b) :
    p.mounts.length = (cfg.mounts p.program).length ∧
    (∀ m ∈ p.mounts, m ∈ cfg.mounts p.program ∨ ∃ m' ∈ cfg.mounts p.program, m'.bind = true ∧ m'.coversHome = true ∧
      m = { m' with writable := false }) ∧
    ((restrictionsNow r a).readOnlyHome = false → p.mounts = cfg.mounts p.program) := by
  have h := ((sess_inv cfg r w evs).started a p b hl).mounts
  cases hr : (restrictionsNow r a).readOnlyHome
  · rw [hr, cond_false] at h
    rw [h]
    exact ⟨rfl, fun m hm => .inl hm, fun _ => rfl⟩
  · rw [hr, cond_true] at h
    rw [h]
    refine ⟨by simp, ?_, by simp⟩
    intro m hm
    rw [List.mem_map] at hm
    obtain ⟨m', h1, rfl⟩ := hm
    unfold makeReadOnly
    cases hq : m'.bind && m'.coversHome
    · exact .inl h1
    · simp only [Bool.and_eq_true] at hq
      exact .inr ⟨m', h1, hq.1, hq.2, rfl⟩

example : processes (SessCh.run { demoExecCfg with mounts := fun _ => [⟨true, true, true⟩, ⟨true, false, true⟩] }
    (SessCh.init { readOnlyHome := true } 100) [.request (ascii "shell") [] true, .enqueued 0 .ok]).s.log =
    [{ program := .loginShell, mounts := [⟨true, true, false⟩, ⟨true, false, true⟩] }] := by decide +kernel

/-- FALSE if the account has no mounts: its processes see the server's whole file
system, and the restriction has no effect. -/
theorem C63_no_mounts_violated :
    processes (SessCh.run demoExecCfg (SessCh.init { readOnlyHome := true } 100)
      [.request (ascii "shell") [] true, .enqueued 0 .ok]).s.log =
    processes (SessCh.run demoExecCfg (SessCh.init {} 100)
      [.request (ascii "shell") [] true, .enqueued 0 .ok]).s.log ∧
    processes (SessCh.run demoExecCfg (SessCh.init {} 100)
      [.request (ascii "shell") [] true, .enqueued 0 .ok]).s.log = [{ program := .loginShell }] := by decide +kernel

/-! ## C67 -/

/-- Every process that is started was asked for before, and runs the program which was
asked for (or the forced command). -/
theorem C67_program {a b : List SessEntry} {p : Proc}
    (hl : (SessCh.run cfg (SessCh.init r w) evs).s.log = a ++ .started p :: b) :
    Requested a (restrictionsNow r a).command p.original p.program := by
  have h := ((sess_inv cfg r w evs).started a p b hl).prog
  generalize p.program = q at h
  generalize p.original = o at h
  cases q with
  | loginShell => exact ⟨h.2.1, h.2.2.1, h.2.2.2⟩
  | command c =>
    rcases h.2 with ⟨h1, h2, line, h3, h4⟩ | ⟨f, h1, h2, h3⟩
    · simp only [Requested, h1]
      exact ⟨h2, line, h3, h4⟩
    · simp only [Requested, h1]
      exact ⟨h2, h3.spec⟩
  | sftpServer => exact h.2
  | rsync args =>
    obtain ⟨cmd, e, _, _, _, ⟨line, ha, e2⟩, hp⟩ := h
    refine ⟨line, ha, by rw [← show cmd = upToNul line from e2]; exact hp, ?_⟩
    rw [← show cmd = upToNul line from e2, e]
    cases hd : dangling cmd
    · exact .inl (splitCmdline_inv cmd hd)
    · exact .inr rfl
  | git s g =>
    obtain ⟨_, _, q, ⟨line, ha, e⟩, hu⟩ := h
    refine ⟨line, q, ha, e.symm, ?_⟩
    rcases shellUnescape_inv hu with h | ⟨h1, h2⟩
    · exact .inl h
    · refine .inr ⟨?_, h2⟩
      rcases h1 with h1 | h1
      · simp at h1
      · exact h1

/-- Its variables were asked for. -/
theorem C67_env {a b : List SessEntry} {p : Proc}
    (hl : (SessCh.run cfg (SessCh.init r w) evs).s.log = a ++ .started p :: b) :
    ∀ v ∈ p.env, RequestedEnv a v := ((sess_inv cfg r w evs).started a p b hl).envAsked

/-- A variable which is asked for before a process is started, of an account that may
execute programs, and which fits, is granted, and all processes started later have it. -/
theorem C67_env_granted (hx : cfg.exec = true) (hs : (SessCh.run cfg (SessCh.init r w) evs).stop = none)
    (hc : (SessCh.run cfg (SessCh.init r w) evs).s.child = none) {name value : Bytes} (ok : Bool)
    (hfits : envTotal (SessCh.run cfg (SessCh.init r w) evs).s.env + (name.length + value.length + 32) < 16384)
    (more : List SessEvent) :
    ∃ l, (SessCh.run cfg (SessCh.init r w) (evs ++ .request (ascii "env") (str name ++ str value) ok :: more)).s.log =
        (SessCh.run cfg (SessCh.init r w) evs).s.log ++
        [.asked (ascii "env") (str name ++ str value), .answered true] ++ l ∧
      ∀ p ∈ processes l, (name, value) ∈ p.env := by
  have h := (sess_inv cfg r w evs).envSum
  have hrun : SessCh.run cfg (SessCh.init r w) (evs ++ .request (ascii "env") (str name ++ str value) ok :: more) =
      SessCh.run cfg ((SessCh.run cfg (SessCh.init r w) evs).step cfg (.request (ascii "env") (str name ++ str value) ok)) more := by
    simp [SessCh.run]
  rw [hrun, envRequest_result hx hs hc ok (by omega) (by omega)]
  rw [← h] at hfits
  generalize SessCh.run cfg (SessCh.init r w) evs = y at *
  have hno : ¬ (MAX_ENV_SIZE ≤ y.s.envSize + (name.length + value.length + 32)) := by simp only [MAX_ENV_SIZE]; omega
  have e : ∀ e, (y.s.emit e).setEnv name value = some { y.s.emit e with
    envSize := (y.s.emit e).envSize + (name.length + value.length + 32)
    env := (name, value) :: (y.s.emit e).env } := fun e => if_neg hno
  rw [e]
  simp only
  generalize hy : SessCh.answer _ true = y1
  have henv : (name, value) ∈ y1.s.env := by rw [← hy]; simp [SessCh.answer, Sess.emit]
  have hlog : y1.s.log = y.s.log ++ [.asked (ascii "env") (str name ++ str value), .answered true] := by
    rw [← hy]; simp [SessCh.answer, Sess.emit]
  obtain ⟨l, hl, hp⟩ := (EnvGrow.run (v := (name, value)) cfg y1 more).log
  refine ⟨l, by rw [hl, hlog], ?_⟩
  intro p hpl
  simp only [processes, List.mem_filterMap] at hpl
  obtain ⟨e, he, h1⟩ := hpl
  cases e <;> simp [SessEntry.process] at h1
  subst h1
  exact hp _ he henv

/-- A command line that was asked for is executed as soon as the server gets around to
it, and then the request is granted. -/
theorem C67_exec_runs (cfg : SessCfg) (r : Restrictions) (w : Nat) {line : Bytes} (hx : cfg.exec = true)
    (hz : 0 ∉ line) (hs : line.length ≤ 16384) :
    (SessCh.run cfg (SessCh.init r w)
      [.request (ascii "exec") (str line) true, .enqueued 0 .ok, .completed 0 none]).s.log =
    [.asked (ascii "exec") (str line),
     .started {
       program := match r.command with | some c => .command (upToNul c) | none => .command line
       original := r.command.map fun _ => line
       mounts := bif r.readOnlyHome then (cfg.mounts (match r.command with | some c => .command (upToNul c) | none => .command line)).map makeReadOnly
         else cfg.mounts (match r.command with | some c => .command (upToNul c) | none => .command line) },
     .answered true] := by
  have hlen : ¬ (MAX_ENV_SIZE < line.length + 0) := by simp only [MAX_ENV_SIZE]; omega
  have e1 : SessCh.step cfg (SessCh.init r w) (.request (ascii "exec") (str line) true) =
      ({ SessCh.init r w with s := (SessCh.init r w).s.emit (.asked (ascii "exec") (str line)) } : SessCh).suspend (.exec (some line)) := by
    simp only [SessCh.step, SessCh.handle, SessCh.request, SessCh.init, Sess.emit, Option.isSome_none, cond_false, if_true,
      SessCh.execRequest, parseOneString_of (show line.length < 2 ^ 32 by omega), if_neg hlen, SessCh.exec, hx,
      cString_same hz, cond_true]
  simp only [SessCh.run, List.foldl_cons, List.foldl_nil, e1]
  have e2 : SessCh.step cfg (({ SessCh.init r w with s := (SessCh.init r w).s.emit (.asked (ascii "exec") (str line)) } : SessCh).suspend (.exec (some line))) (.enqueued 0 .ok) =
      ({ SessCh.init r w with s := { ({ (({ SessCh.init r w with s := (SessCh.init r w).s.emit (.asked (ascii "exec") (str line)) } : SessCh).suspend (.exec (some line))).s with
          stdin := some false, stdout := some {}, stderr := some {}, tasks := [] } : Sess).spawn cfg (execProgram r (some line)).1 (execProgram r (some line)).2 false with
          tasks := [(0, .wait 0)] } } : SessCh) := by
    simp only [SessCh.step, SessCh.handle, SessCh.enqueued, SessCh.suspend, SessCh.init, Sess.emit, List.nil_append, List.lookup, BEq.rfl,
      SessCh.resumeExec, Sess.prepareExec, Bool.false_and, cond_false, Option.isSome_none, Sess.preparePipes, Bool.or_self, SessCh.launch, SessCh.finish]
    by_cases hw : 0 < w
    · simp [Sess.spawn, Sess.maybeScheduleRead, hw, Sess.scheduleRead, Sess.dropChild]
    · simp [Sess.spawn, Sess.maybeScheduleRead, hw, Sess.dropChild]
  rw [e2]
  by_cases hw : 0 < w <;> cases hcm : r.command <;>
    simp [SessCh.step, SessCh.handle, SessCh.completed, SessCh.init, SessCh.suspend, Sess.emit, Sess.spawn, Sess.maybeScheduleRead, hw,
      Sess.scheduleRead, Sess.dropChild, List.lookup, SessCh.finish, Sess.enableStdin, SessCh.answer, execProgram, hcm, upToNul, cString]

example : (processes (SessCh.run demoExecCfg (SessCh.init demoForced 100) demoRun).s.log).map Proc.env =
    [[(ascii "LANG", ascii "C")]] := by decide +kernel
example : Requested [.asked (ascii "exec") (str (ascii "rm -rf /"))] (some (ascii "backup")) (some (ascii "rm -rf /"))
    (.command (ascii "backup")) := ⟨rfl, .inr ⟨ascii "rm -rf /", by simp [AskedExec], by decide⟩⟩
example : 0 ∉ ascii "rm -rf /" ∧ (ascii "rm -rf /").length ≤ 16384 := by decide

end Lukko
