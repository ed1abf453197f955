import Verif.Proof.Session
/-
  Which processes a session channel starts: an invariant.
-/
namespace Lukko
open Model Spec

/-- The client asked for a shell, or for a command line. -/
def AskedRun (log : List SessEntry) : Option Bytes → Prop
  | none => ∃ d, .asked (ascii "shell") d ∈ log
  | some cmd => ∃ l, .asked (ascii "exec") (str l) ∈ log ∧ cmd = cString l

/-- Why a coroutine is going to start a process. -/
def STaskOk (cfg : SessCfg) (log : List SessEntry) : STask → Prop
  | .exec cmd => cfg.exec = true ∧ AskedRun log cmd
  | .rsync cmd => cfg.exec = false ∧ cfg.sftp = true ∧ cfg.rsync = some true ∧ AskedRun log (some cmd) ∧
      RSYNC_PREFIX.isPrefixOf cmd = true
  | .git service arg => cfg.exec = false ∧
      (service = GIT_RECEIVE_PACK ∧ cfg.gitReceive = true ∨ service = GIT_UPLOAD_PACK ∧ cfg.gitUpload = true) ∧
      ∃ q, AskedRun log (some (service ++ [32] ++ q)) ∧ shellUnescape false q = some arg
  | .sftp => cfg.sftp = true ∧ .asked (ascii "subsystem") (str (ascii "sftp")) ∈ log
  | .wait _ => True

/-- Why this program was started. -/
def ProgOk (cfg : SessCfg) (r : Restrictions) (log : List SessEntry) (original : Option Bytes) : Program → Prop
  | .loginShell => cfg.exec = true ∧ r.command = none ∧ AskedRun log none ∧ original = none
  | .command c => cfg.exec = true ∧
      ((r.command = none ∧ original = none ∧ AskedRun log (some c)) ∨
       ∃ f, r.command = some f ∧ c = cString f ∧ AskedRun log original)
  | .sftpServer => STaskOk cfg log .sftp
  | .rsync args => ∃ cmd, args = splitCmdline cmd ∧ STaskOk cfg log (.rsync cmd)
  | .git service arg => STaskOk cfg log (.git service arg)

/-- The client asked for this variable. -/
def EnvAsked (log : List SessEntry) (v : Bytes × Bytes) : Prop :=
  .asked (ascii "env") (str v.1 ++ str v.2) ∈ log ∨ (v.1 = ascii "TERM" ∧ ∃ rest, .asked (ascii "pty-req") (str v.2 ++ rest) ∈ log)

structure ProcOk (cfg : SessCfg) (r : Restrictions) (log : List SessEntry) (p : Proc) : Prop where
  prog : ProgOk cfg r log p.original p.program
  envLt : envTotal p.env < MAX_ENV_SIZE
  envNo : cfg.exec = false → p.env = []
  envAsked : ∀ v ∈ p.env, EnvAsked log v
  term : p.terminal = true → .terminalAllocated ∈ log ∧ (p.program = .loginShell ∨ ∃ c, p.program = .command c)
  mounts : p.mounts = bif r.readOnlyHome then (cfg.mounts p.program).map makeReadOnly else cfg.mounts p.program

/-- What holds between events. -/
structure SessInv (cfg : SessCfg) (r0 : Restrictions) (s : Sess) : Prop where
  restr : s.restr = restrictionsNow r0 s.log
  envSum : s.envSize = envTotal s.env
  envLt : s.envSize < MAX_ENV_SIZE
  envNo : cfg.exec = false → s.env = []
  envAsked : ∀ v ∈ s.env, EnvAsked s.log v
  tasks : ∀ t ∈ s.tasks.filter willStart, STaskOk cfg s.log t.2
  tty : s.tty.isSome = true → .terminalAllocated ∈ s.log
  started : ∀ a p b, s.log = a ++ .started p :: b → ProcOk cfg (restrictionsNow r0 a) a p
  term : ∀ a b, s.log = a ++ .terminalAllocated :: b → cfg.exec = true ∧ (restrictionsNow r0 a).noTerminal = false
  count : (processes s.log).length + (s.tasks.filter willStart).length ≤ startRequests s.log
  run : running s.log = childCount s

theorem AskedRun.mono {log l cmd} (h : AskedRun log cmd) : AskedRun (log ++ l) cmd := by
  cases cmd with
  | none => obtain ⟨d, h⟩ := h; exact ⟨d, List.mem_append_left _ h⟩
  | some cmd => obtain ⟨c, h, e⟩ := h; exact ⟨c, List.mem_append_left _ h, e⟩

theorem STaskOk.mono {cfg log l t} (h : STaskOk cfg log t) : STaskOk cfg (log ++ l) t := by
  cases t with
  | exec cmd => exact ⟨h.1, h.2.mono⟩
  | rsync cmd => obtain ⟨a, b, c, d, e⟩ := h; exact ⟨a, b, c, d.mono, e⟩
  | git s a => obtain ⟨x, y, q, u, v⟩ := h; exact ⟨x, y, q, u.mono, v⟩
  | sftp => exact ⟨h.1, List.mem_append_left _ h.2⟩
  | wait pid => trivial

theorem EnvAsked.mono {log l v} (h : EnvAsked log v) : EnvAsked (log ++ l) v :=
  h.imp (List.mem_append_left _) fun ⟨h, rest, hr⟩ => ⟨h, rest, List.mem_append_left _ hr⟩

/-- Splitting a log which was extended. -/
theorem split_append {α} {l m a b : List α} {e : α} (h : l ++ m = a ++ e :: b) :
    (∃ b', l = a ++ e :: b') ∨ (∃ a', a = l ++ a' ∧ m = a' ++ e :: b) := by
  rcases List.append_eq_append_iff.mp h with ⟨a', h1, h2⟩ | ⟨c, h1, h2⟩
  · exact .inr ⟨a', h1, h2⟩
  · cases c with
    | nil => exact .inr ⟨[], by simpa using h1.symm, by simpa using h2.symm⟩
    | cons x c =>
      simp only [List.cons_append, List.cons.injEq] at h2
      obtain ⟨rfl, rfl⟩ := h2
      exact .inl ⟨c, h1⟩

theorem processes_plain {l : List SessEntry} (h : ∀ e ∈ l, sessPlain e = true) : processes l = [] := by
  unfold processes
  rw [List.filterMap_eq_nil_iff]
  intro e he
  have := h e he
  cases e <;> simp_all [sessPlain, SessEntry.process]

theorem startRequests_plain {l : List SessEntry} (h : ∀ e ∈ l, sessPlain e = true) : startRequests l = 0 := by
  unfold startRequests
  rw [List.countP_eq_zero]
  intro e he
  have := h e he
  cases e <;> simp_all [sessPlain]

theorem processes_append (a b) : processes (a ++ b) = processes a ++ processes b := by simp [processes]
theorem startRequests_append (a b) : startRequests (a ++ b) = startRequests a + startRequests b := by simp [startRequests]

theorem SessInv.still {cfg r0 s s'} (h : SessInv cfg r0 s) (g : Still s s') : SessInv cfg r0 s' := by
  obtain ⟨l, hl, hp⟩ := g.log
  constructor
  · rw [g.restr, h.restr, hl, restrictionsNow_plain _ hp]
  · rw [g.envSize, g.env]; exact h.envSum
  · rw [g.envSize]; exact h.envLt
  · rw [g.env]; exact h.envNo
  · rw [g.env, hl]; exact fun v hv => (h.envAsked v hv).mono
  · rw [hl]; exact fun t ht => (h.tasks t (g.tasks.subset ht)).mono
  · rw [hl]; exact fun ht => List.mem_append_left _ (h.tty (g.tty ht))
  · intro a p b hs
    rw [hl] at hs
    rcases split_append hs with ⟨b', h1⟩ | ⟨a', h1, h2⟩
    · exact h.started a p b' h1
    · have := hp (.started p) (by rw [h2]; simp)
      simp [sessPlain] at this
  · intro a b hs
    rw [hl] at hs
    rcases split_append hs with ⟨b', h1⟩ | ⟨a', h1, h2⟩
    · exact h.term a b' h1
    · have := hp .terminalAllocated (by rw [h2]; simp)
      simp [sessPlain] at this
  · have h1 := h.count
    have h2 := g.tasks.length_le
    rw [hl, processes_append, startRequests_append, processes_plain hp, startRequests_plain hp]
    simp only [List.append_nil]
    omega
  · have h1 := h.run
    have h2 := g.run
    omega

theorem SessInv.init (cfg r w) : SessInv cfg r (SessCh.init r w).s := by
  refine ⟨rfl, rfl, Nat.zero_lt_succ _, fun _ => rfl, by simp [SessCh.init], by simp [SessCh.init], by simp [SessCh.init], ?_, ?_,
    by simp [SessCh.init, processes], by rfl⟩
  · intro a p b h; simp [SessCh.init] at h
  · intro a b h; simp [SessCh.init] at h

/-- One more entry, which is neither of the interesting ones. -/
theorem SessInv.asked {cfg r0 s} (h : SessInv cfg r0 s) (name data) : SessInv cfg r0 (s.emit (.asked name data)) := by
  have hsr : startRequests (s.log ++ [.asked name data]) ≥ startRequests s.log := by rw [startRequests_append]; omega
  constructor
  · show s.restr = restrictionsNow r0 (s.log ++ [.asked name data])
    rw [restrictionsNow, List.foldl_append]
    exact h.restr
  · exact h.envSum
  · exact h.envLt
  · exact h.envNo
  · exact fun v hv => (h.envAsked v hv).mono
  · exact fun t ht => (h.tasks t ht).mono
  · exact fun ht => List.mem_append_left _ (h.tty ht)
  · intro a p b hs
    rcases split_append hs with ⟨b', h1⟩ | ⟨a', h1, h2⟩
    · exact h.started a p b' h1
    · rcases a' with _ | ⟨_, _ | _⟩ <;> simp at h2
  · intro a b hs
    rcases split_append hs with ⟨b', h1⟩ | ⟨a', h1, h2⟩
    · exact h.term a b' h1
    · rcases a' with _ | ⟨_, _ | _⟩ <;> simp at h2
  · have := h.count
    simp only [Sess.emit, processes_append]
    simp only [show processes [SessEntry.asked name data] = [] from rfl, List.append_nil]
    omega
  · have h0 : running [SessEntry.asked name data] = 0 := rfl
    simp only [Sess.emit, running_append, h0, Int.add_zero]
    exact h.run

/-- A coroutine is suspended before it starts a process. -/
theorem SessInv.suspend {cfg r0} {y : SessCh} {t : STask} (h : SessInv cfg r0 y.s) (ht : STaskOk cfg y.s.log t)
    (hc : (processes y.s.log).length + (y.s.tasks.filter willStart).length < startRequests y.s.log) :
    SessInv cfg r0 (y.suspend t).s := by
  refine ⟨h.restr, h.envSum, h.envLt, h.envNo, h.envAsked, ?_, h.tty, h.started, h.term, ?_, h.run⟩
  · intro x hx
    simp only [SessCh.suspend, List.filter_append, List.mem_append, List.mem_filter, List.mem_singleton] at hx
    rcases hx with hx | hx
    · exact h.tasks x (by simpa [List.mem_filter] using hx)
    · rw [hx.1]; exact ht
  · simp only [SessCh.suspend, List.filter_append, List.length_append]
    have : ([(y.s.nextTask, t)].filter willStart).length ≤ 1 := List.length_filter_le _ _
    omega

theorem SessInv.setEnv {cfg r0} {s s' : Sess} {name value} (h : SessInv cfg r0 s) (hx : cfg.exec = true)
    (ha : EnvAsked s.log (name, value)) (hs : s.setEnv name value = some s') : SessInv cfg r0 s' := by
  unfold Sess.setEnv at hs
  split at hs
  · simp at hs
  · simp only [Option.some.injEq] at hs
    subst hs
    refine ⟨h.restr, ?_, by simp only; omega, by simp [hx], ?_, h.tasks, h.tty, h.started, h.term, h.count, h.run⟩
    · have := h.envSum
      simp only [envTotal, List.map_cons, List.sum_cons] at this ⊢
      omega
    · intro v hv
      rcases List.mem_cons.mp hv with rfl | hv
      · exact ha
      · exact h.envAsked v hv

theorem SessInv.terminal {cfg r0} {s : Sess} (h : SessInv cfg r0 s) (hx : cfg.exec = true) (hn : s.restr.noTerminal = false) :
    SessInv cfg r0 { s with slaveTty := true, tty := some {}, ttyWr := false, log := s.log ++ [SessEntry.terminalAllocated] } := by
  constructor
  · show s.restr = restrictionsNow r0 (s.log ++ [.terminalAllocated])
    rw [restrictionsNow, List.foldl_append]
    exact h.restr
  · exact h.envSum
  · exact h.envLt
  · exact h.envNo
  · exact fun v hv => (h.envAsked v hv).mono
  · exact fun t ht => (h.tasks t ht).mono
  · exact fun _ => by simp
  · intro a p b hs
    rcases split_append hs with ⟨b', h1⟩ | ⟨a', h1, h2⟩
    · exact h.started a p b' h1
    · rcases a' with _ | ⟨_, _ | _⟩ <;> simp at h2
  · intro a b hs
    rcases Aux.snoc_split hs with ⟨_, rfl, _⟩ | ⟨b', _, h2⟩
    · rw [← h.restr]; exact ⟨hx, hn⟩
    · exact h.term a b' h2
  · have := h.count
    simp only [processes_append, startRequests_append]
    simp only [show processes [SessEntry.terminalAllocated] = [] from rfl, List.append_nil]
    omega
  · have h0 : running [SessEntry.terminalAllocated] = 0 := rfl
    simp only [running_append, h0, Int.add_zero]
    exact h.run

theorem SessInv.restricted {cfg r0} {s : Sess} (h : SessInv cfg r0 s) (r) :
    SessInv cfg r0 { s with restr := r, log := s.log ++ [.restricted r] } := by
  constructor
  · show r = restrictionsNow r0 (s.log ++ [.restricted r])
    rw [restrictionsNow, List.foldl_append]
    rfl
  · exact h.envSum
  · exact h.envLt
  · exact h.envNo
  · exact fun v hv => (h.envAsked v hv).mono
  · exact fun t ht => (h.tasks t ht).mono
  · exact fun ht => List.mem_append_left _ (h.tty ht)
  · intro a p b hs
    rcases split_append hs with ⟨b', h1⟩ | ⟨a', h1, h2⟩
    · exact h.started a p b' h1
    · rcases a' with _ | ⟨_, _ | _⟩ <;> simp at h2
  · intro a b hs
    rcases split_append hs with ⟨b', h1⟩ | ⟨a', h1, h2⟩
    · exact h.term a b' h1
    · rcases a' with _ | ⟨_, _ | _⟩ <;> simp at h2
  · have := h.count
    simp only [processes_append, startRequests_append]
    simp only [show processes [SessEntry.restricted r] = [] from rfl, List.append_nil]
    omega
  · have h0 : running [SessEntry.restricted r] = 0 := rfl
    simp only [running_append, h0, Int.add_zero]
    exact h.run

/-- A process is started. -/
theorem SessInv.spawn {cfg r0} {s : Sess} {program original terminal} (h : SessInv cfg r0 s)
    (hp : ProgOk cfg s.restr s.log original program)
    (ht : terminal = true → s.tty.isSome = true ∧ (program = .loginShell ∨ ∃ c, program = .command c))
    (hc : (processes s.log).length + (s.tasks.filter willStart).length < startRequests s.log) :
    SessInv cfg r0 (s.spawn cfg program original terminal) := by
  unfold Sess.spawn
  simp only
  have h1 := h.still (.maybeScheduleRead s)
  have hlog : s.maybeScheduleRead.log = s.log := by unfold Sess.maybeScheduleRead; split <;> rfl
  have hre : s.maybeScheduleRead.restr = s.restr := by unfold Sess.maybeScheduleRead; split <;> rfl
  have htk : s.maybeScheduleRead.tasks = s.tasks := by unfold Sess.maybeScheduleRead; split <;> rfl
  have htt : s.maybeScheduleRead.tty.isSome = s.tty.isSome := by
    unfold Sess.maybeScheduleRead; split <;> simp [Sess.scheduleRead]
  generalize s.maybeScheduleRead = s1 at *
  rw [← hlog, ← hre] at hp
  rw [← hlog, ← htk] at hc
  rw [← htt] at ht
  generalize hq : (bif s1.restr.readOnlyHome then (cfg.mounts program).map makeReadOnly else cfg.mounts program) = m
  generalize hpr : ({ program := program, original := original, env := s1.env, terminal := terminal, mounts := m } : Proc) = p
  have hok : ProcOk cfg (restrictionsNow r0 s1.log) s1.log p := by
    subst hpr
    rw [← h1.restr]
    refine ⟨hp, ?_, h1.envNo, h1.envAsked, fun hx => ⟨h1.tty (ht hx).1, (ht hx).2⟩, hq.symm⟩
    rw [← h1.envSum]; exact h1.envLt
  -- entries after the process
  have key : ∀ c0 l c, (∀ e ∈ l, sessPlain e = true) → 
      (running s1.log + 1 + running l = if c.isSome then 1 else 0) →
      SessInv cfg r0 { s1 with child := c, pids := c0, log := s1.log ++ [.started p] ++ l } := by
    intro c0 l c hl hr
    constructor
    · show s1.restr = restrictionsNow r0 (s1.log ++ [.started p] ++ l)
      rw [restrictionsNow_plain _ hl, restrictionsNow, List.foldl_append]
      exact h1.restr
    · exact h1.envSum
    · exact h1.envLt
    · exact h1.envNo
    · exact fun v hv => (h1.envAsked v hv).mono.mono
    · exact fun t ht => (h1.tasks t ht).mono.mono
    · exact fun ht => List.mem_append_left _ (List.mem_append_left _ (h1.tty ht))
    · intro a p' b hs
      simp only [List.append_assoc] at hs
      rcases split_append hs with ⟨b', h1'⟩ | ⟨a', h2, h3⟩
      · exact h1.started a p' b' h1'
      · rcases split_append h3 with ⟨b', h4⟩ | ⟨a'', h4, h5⟩
        · rcases a' with _ | ⟨_, _ | _⟩ <;> simp at h4
          obtain ⟨rfl, _⟩ := h4
          rw [h2, List.append_nil]; exact hok
        · have := hl (.started p') (by rw [h5]; simp)
          simp [sessPlain] at this
    · intro a b hs
      simp only [List.append_assoc] at hs
      rcases split_append hs with ⟨b', h1'⟩ | ⟨a', h2, h3⟩
      · exact h1.term a b' h1'
      · rcases split_append h3 with ⟨b', h4⟩ | ⟨a'', h4, h5⟩
        · rcases a' with _ | ⟨_, _ | _⟩ <;> simp at h4
        · have := hl .terminalAllocated (by rw [h5]; simp)
          simp [sessPlain] at this
    · simp only [processes_append, startRequests_append, processes_plain hl, startRequests_plain hl, List.length_append]
      simp only [show (processes [SessEntry.started p]).length = 1 from rfl, List.length_nil]
      omega
    · simp only [running_append, childCount]
      exact hr
  have hrun := h1.run
  unfold childCount at hrun
  unfold Sess.dropChild
  split
  · rename_i c hcc
    simp only at hcc
    have := key (s1.pids + 1) [.killed] (some s1.pids) (by simp [sessPlain]) (by
      rw [hrun, hcc]; rfl)
    exact this
  · rename_i hcc
    simp only at hcc
    have := key (s1.pids + 1) [] (some s1.pids) (by simp) (by
      rw [hrun, hcc]; rfl)
    rw [List.append_nil] at this
    exact this

/-! ## Requests -/

theorem parseOneString_inv {s v} (h : parseOneString.parse s = some v) : s = str v := by
  obtain ⟨r, h⟩ := parse_inv h
  obtain ⟨v', r1, h1, h⟩ := bind_inv h
  obtain ⟨_, r2, h2, h⟩ := bind_inv h
  rw [pure_apply] at h
  simp only [Option.some.injEq, Prod.mk.injEq] at h
  obtain ⟨rfl, rfl⟩ := h
  obtain ⟨rfl, _⟩ := readString_inv h1
  obtain ⟨rfl, rfl⟩ := expectEnd_inv h2
  simp

theorem parseTwoStrings_inv {s a b} (h : parseTwoStrings.parse s = some (a, b)) : s = str a ++ str b := by
  obtain ⟨r, h⟩ := parse_inv h
  obtain ⟨v1, r1, h1, h⟩ := bind_inv h
  obtain ⟨v2, r2, h2, h⟩ := bind_inv h
  obtain ⟨_, r3, h3, h⟩ := bind_inv h
  rw [pure_apply] at h
  simp only [Option.some.injEq, Prod.mk.injEq] at h
  obtain ⟨⟨rfl, rfl⟩, rfl⟩ := h
  obtain ⟨rfl, _⟩ := readString_inv h1
  obtain ⟨rfl, _⟩ := readString_inv h2
  obtain ⟨rfl, rfl⟩ := expectEnd_inv h3
  simp

/-- There is a request for which no process was started yet. -/
def OpenRequest (s : Sess) : Prop :=
  (processes s.log).length + (s.tasks.filter willStart).length < startRequests s.log

theorem SessInv.execGit {cfg r0} {y : SessCh} (h : SessInv cfg r0 y.s) (ho : OpenRequest y.s) {service arg : Bytes}
    (hx : cfg.exec = false)
    (hs : service = GIT_RECEIVE_PACK ∧ cfg.gitReceive = true ∨ service = GIT_UPLOAD_PACK ∧ cfg.gitUpload = true)
    (ha : AskedRun y.s.log (some (service ++ [32] ++ arg))) : SessInv cfg r0 (y.execGit service arg).s := by
  unfold SessCh.execGit
  split
  · exact h.still (.answer y _)
  · rename_i a hu
    exact h.suspend ⟨hx, hs, arg, ha, hu⟩ ho

theorem afterPrefix_some {p s a : Bytes} (h : afterPrefix p s = some a) : s = p ++ a := by
  unfold afterPrefix at h
  cases hp : p.isPrefixOf s
  · simp [hp] at h
  · simp only [hp, cond_true, Option.some.injEq] at h
    obtain ⟨t, rfl⟩ := List.isPrefixOf_iff_prefix.mp hp
    simp at h; rw [h]

theorem SessInv.execOther {cfg r0} {y : SessCh} (h : SessInv cfg r0 y.s) (ho : OpenRequest y.s) {cmd : Bytes}
    (hx : cfg.exec = false) (ha : AskedRun y.s.log (some cmd)) : SessInv cfg r0 (y.execOther cfg cmd).s := by
  unfold SessCh.execOther
  split
  · rename_i arg hm
    cases hg : cfg.gitReceive
    · simp [hg] at hm
    · simp only [hg, cond_true] at hm
      rw [afterPrefix_some hm] at ha
      exact h.execGit ho hx (.inl ⟨rfl, hg⟩) ha
  · split
    · rename_i arg hm
      cases hg : cfg.gitUpload
      · simp [hg] at hm
      · simp only [hg, cond_true] at hm
        rw [afterPrefix_some hm] at ha
        exact h.execGit ho hx (.inr ⟨rfl, hg⟩) ha
    · exact h.still (.refuse _ _ _)

theorem SessInv.exec {cfg r0} {y : SessCh} (h : SessInv cfg r0 y.s) (ho : OpenRequest y.s) {cmd : Option Bytes}
    (ha : AskedRun y.s.log cmd) : SessInv cfg r0 (y.exec cfg cmd).s := by
  unfold SessCh.exec
  cases hx : cfg.exec with
  | true =>
    cases cmd with
    | none => exact h.suspend ⟨hx, ha⟩ ho
    | some cmd => exact h.suspend ⟨hx, ha⟩ ho
  | false =>
    cases cmd with
    | none => exact h.still (.refuse _ _ _)
    | some cmd =>
      simp only [cond_false]
      split
      · rename_i hm
        cases hp : cfg.sftp && RSYNC_PREFIX.isPrefixOf cmd
        · simp [hp] at hm
        · simp only [hp, cond_true] at hm
          simp only [Bool.and_eq_true] at hp
          exact h.suspend ⟨hx, hp.1, hm, ha, hp.2⟩ ho
      · exact h.still (.refuse _ _ _)
      · exact h.execOther ho hx ha

theorem parsePtyReq_inv {s a b} (h : parsePtyReq.parse s = some (a, b)) : ∃ rest, s = str a ++ rest := by
  obtain ⟨r, h⟩ := parse_inv h
  obtain ⟨v1, r1, h1, h⟩ := bind_inv h
  obtain ⟨v2, r2, h2, h⟩ := bind_inv h
  obtain ⟨v3, r3, h3, h⟩ := bind_inv h
  obtain ⟨_, r4, h4, h⟩ := bind_inv h
  rw [pure_apply] at h
  simp only [Option.some.injEq, Prod.mk.injEq] at h
  obtain ⟨⟨rfl, rfl⟩, rfl⟩ := h
  obtain ⟨rfl, _⟩ := readString_inv h1
  exact ⟨_, rfl⟩

theorem SessInv.ptyReq {cfg r0} {y : SessCh} (h : SessInv cfg r0 y.s) {data} (ok) 
    (ha : .asked (ascii "pty-req") data ∈ y.s.log) : SessInv cfg r0 (y.ptyReq cfg data ok).s := by
  unfold SessCh.ptyReq
  cases hx : !cfg.exec || y.s.restr.noTerminal
  · simp only [Bool.or_eq_false_iff, Bool.not_eq_false'] at hx
    simp only [cond_false]
    split
    · exact h
    · rename_i term modes hp
      obtain ⟨rest, rfl⟩ := parsePtyReq_inv hp
      cases ok
      · exact h
      · simp only [Bool.not_true, cond_false]
        have ht := h.terminal hx.1 hx.2
        split
        · exact h
        · rename_i s' hs
          refine SessInv.still (s := s') ?_ (.answer ⟨s', y.buf, y.stop⟩ _)
          exact ht.setEnv hx.1 (.inr ⟨rfl, rest, List.mem_append_left _ ha⟩) hs
  · exact h.still (.answer y _)

theorem SessInv.lateRequest {cfg r0} {y : SessCh} (h : SessInv cfg r0 y.s) (name data ok) :
    SessInv cfg r0 (y.lateRequest name data ok).s := by
  unfold SessCh.lateRequest
  split
  · cases !y.s.tty.isSome
    · simp only [cond_false]
      split
      · exact h
      · cases ok
        · exact h
        · exact h.still (.answer y _)
    · exact h.still (.answer y _)
  · exact h.still (.answer y _)

theorem SessInv.execRequest {cfg r0} {y : SessCh} (h : SessInv cfg r0 y.s) (ho : OpenRequest y.s) {data}
    (ha : .asked (ascii "exec") data ∈ y.s.log) : SessInv cfg r0 (y.execRequest cfg data).s := by
  unfold SessCh.execRequest
  split
  · exact h
  · rename_i command hc
    split
    · exact h.still (.refuse _ _ _)
    · rw [parseOneString_inv hc] at ha
      exact h.exec ho ⟨command, ha, rfl⟩

theorem SessInv.subsystem {cfg r0} {y : SessCh} (h : SessInv cfg r0 y.s) (ho : OpenRequest y.s) {data}
    (ha : .asked (ascii "subsystem") data ∈ y.s.log) : SessInv cfg r0 (y.subsystem cfg data).s := by
  unfold SessCh.subsystem
  split
  · exact h
  · rename_i name hc
    rw [parseOneString_inv hc] at ha
    split
    · rename_i hn
      rw [hn] at ha
      cases hs : cfg.sftp
      · exact h.still (.answer y _)
      · simp only [Bool.not_true, cond_false]
        cases y.s.tty.isSome
        · exact h.suspend ⟨hs, ha⟩ ho
        · exact h.still (.answer y _)
    · exact h.still (.answer y _)

theorem SessInv.envRequest {cfg r0} {y : SessCh} (h : SessInv cfg r0 y.s) {data}
    (ha : .asked (ascii "env") data ∈ y.s.log) : SessInv cfg r0 (y.envRequest cfg data).s := by
  unfold SessCh.envRequest
  cases hx : cfg.exec
  · exact h.still (.answer y _)
  · simp only [Bool.not_true, cond_false]
    split
    · exact h
    · rename_i name value hp
      rw [parseTwoStrings_inv hp] at ha
      split
      · exact h
      · rename_i s' hs
        exact SessInv.still (s := s') (h.setEnv hx (.inl ha) hs) (.answer ⟨s', y.buf, y.stop⟩ _)

theorem SessInv.request {cfg r0} {y : SessCh} (h : SessInv cfg r0 y.s) (name data ok) :
    SessInv cfg r0 (y.handle cfg (.request name data ok)).s := by
  have h1 := h.asked name data
  have ho : (name == ascii "exec" || name == ascii "shell" || name == ascii "subsystem") = true →
      OpenRequest (y.s.emit (.asked name data)) := by
    intro hn
    have h2 := h.count
    unfold OpenRequest
    simp only [Sess.emit, processes_append, startRequests_append]
    simp only [show processes [SessEntry.asked name data] = [] from rfl, List.append_nil]
    have : startRequests [SessEntry.asked name data] = 1 := by
      simp only [startRequests, List.countP_cons, List.countP_nil]
      rw [if_pos hn]
    omega
  have ha : SessEntry.asked name data ∈ (y.s.emit (.asked name data)).log := by simp [Sess.emit]
  simp only [SessCh.handle]
  generalize hy : ({ y with s := y.s.emit (.asked name data) } : SessCh) = y1
  have hs : y.s.emit (.asked name data) = y1.s := by rw [← hy]
  rw [hs] at h1 ho ha
  unfold SessCh.request
  cases y1.s.child.isSome
  · simp only [cond_false]
    split
    · rename_i hn; subst hn; exact h1.execRequest (ho (by simp)) ha
    · split
      · rename_i hn; subst hn; exact h1.exec (ho (by simp)) ⟨data, ha⟩
      · split
        · rename_i hn; subst hn; exact h1.subsystem (ho (by simp)) ha
        · split
          · rename_i hn; subst hn; exact h1.ptyReq _ ha
          · split
            · rename_i hn; subst hn; exact h1.envRequest ha
            · split
              · refine h1.still (Still.trans ?_ (Still.answer _ _))
                exact Still.quiet rfl rfl rfl rfl id rfl rfl
              · exact h1.still (.answer _ _)
  · exact h1.lateRequest _ _ _

/-! ## Starting a process -/

theorem finish_open {y : SessCh} {cfg r0} (h : SessInv cfg r0 y.s) {id t} (hm : y.s.tasks.lookup id = some t)
    (ht : willStart (id, t) = true) : OpenRequest (y.finish id).s := by
  have hc := h.count
  have hmem : (id, t) ∈ y.s.tasks := by
    have := List.lookup_eq_some_iff.mp hm
    obtain ⟨a, b, h1, _⟩ := this
    rw [h1]; simp
  unfold OpenRequest
  have hlog : (y.finish id).s.log = y.s.log := rfl
  have htk : (y.finish id).s.tasks = y.s.tasks.filter fun t => t.1 != id := rfl
  rw [hlog, htk]
  have : ((y.s.tasks.filter fun t => t.1 != id).filter willStart).length < (y.s.tasks.filter willStart).length := by
    rw [List.filter_filter]
    obtain ⟨a, b, hab⟩ := List.append_of_mem hmem
    rw [hab]
    simp only [List.filter_append, List.length_append, List.filter_cons]
    have h1 : ∀ l : List (Nat × STask), (l.filter fun a => willStart a && a.1 != id).length ≤ (l.filter willStart).length := by
      intro l
      rw [← List.filter_filter (p := willStart), List.filter_filter, ← List.countP_eq_length_filter, ← List.countP_eq_length_filter]
      exact List.countP_mono_left fun x _ hx => by simp only [Bool.and_eq_true] at hx; exact hx.1
    have h2 := h1 a
    have h3 := h1 b
    simp [ht] 
    omega
  omega

theorem SessInv.launch {cfg r0} {y : SessCh} (h : SessInv cfg r0 y.s) {id t} (hm : y.s.tasks.lookup id = some t)
    (ht : willStart (id, t) = true) {program original terminal}
    (hp : ProgOk cfg y.s.restr y.s.log original program)
    (htt : terminal = true → y.s.tty.isSome = true ∧ (program = .loginShell ∨ ∃ c, program = .command c)) (r) :
    SessInv cfg r0 (y.launch cfg id program original terminal r).s := by
  have ho := finish_open h hm ht
  have h1 := h.still (.finish y id)
  have hs : ∀ z : SessCh, z.s = (y.finish id).s.spawn cfg program original terminal →
      SessInv cfg r0 { z.s with tasks := z.s.tasks ++ [(id, .wait (z.s.pids - 1))] } := by
    intro z hz
    have h2 : SessInv cfg r0 z.s := by rw [hz]; exact h1.spawn hp htt ho
    have hf : (z.s.tasks ++ [(id, STask.wait (z.s.pids - 1))]).filter willStart = z.s.tasks.filter willStart := by
      simp [willStart]
    exact ⟨h2.restr, h2.envSum, h2.envLt, h2.envNo, h2.envAsked, by simp only [hf]; exact h2.tasks, h2.tty, h2.started, h2.term,
      by simp only [hf]; exact h2.count, h2.run⟩
  unfold SessCh.launch
  split
  · exact SessInv.still (s := (y.finish id).s.maybeScheduleRead) (h1.still (.maybeScheduleRead _))
      (.refuse ⟨(y.finish id).s.maybeScheduleRead, y.buf, y.stop⟩ _ _)
  · exact hs ⟨_, y.buf, y.stop⟩ rfl

theorem STaskOk.of_lookup {cfg r0} {y : SessCh} (h : SessInv cfg r0 y.s) {id t} (hm : y.s.tasks.lookup id = some t)
    (ht : willStart (id, t) = true) : STaskOk cfg y.s.log t := by
  have hmem : (id, t) ∈ y.s.tasks := by
    obtain ⟨a, b, h1, _⟩ := List.lookup_eq_some_iff.mp hm
    rw [h1]; simp
  exact h.tasks (id, t) (List.mem_filter.mpr ⟨hmem, ht⟩)

theorem preparePipes_same {nd} {s s' : Sess} (h : s.preparePipes nd = some s') :
    s'.tasks = s.tasks ∧ s'.log = s.log ∧ s'.restr = s.restr ∧ s'.tty = s.tty := by
  unfold Sess.preparePipes at h
  cases hc : (s.stdin.isSome || s.stdout.isSome || s.stderr.isSome) && !nd
  · rw [hc] at h
    simp only [cond_false, Option.some.injEq] at h
    subst h
    exact ⟨rfl, rfl, rfl, rfl⟩
  · rw [hc] at h; simp at h

theorem prepareExec_same {cfg} {s s' : Sess} (h : s.prepareExec cfg = some s') :
    s'.tasks = s.tasks ∧ s'.log = s.log ∧ s'.restr = s.restr ∧ s'.tty = s.tty := by
  unfold Sess.prepareExec at h
  cases hc : s.agent && !cfg.ndebug
  · rw [hc] at h
    simp only [cond_false] at h
    cases ht : s.tty.isSome
    · rw [ht] at h
      have := preparePipes_same h
      exact this
    · rw [ht] at h
      simp only [cond_true, Option.some.injEq] at h
      subst h
      exact ⟨rfl, rfl, rfl, rfl⟩
  · rw [hc] at h; simp at h

theorem execProgram_ok {cfg : SessCfg} {restr : Restrictions} {log cmd} (hx : cfg.exec = true) (ha : AskedRun log cmd) :
    ProgOk cfg restr log (execProgram restr cmd).2 (execProgram restr cmd).1 ∧
    ((execProgram restr cmd).1 = .loginShell ∨ ∃ c, (execProgram restr cmd).1 = .command c) := by
  unfold execProgram
  split
  · rename_i c hc
    exact ⟨⟨hx, .inr ⟨c, hc, rfl, ha⟩⟩, .inr ⟨_, rfl⟩⟩
  · rename_i hc
    split
    · exact ⟨⟨hx, .inl ⟨hc, rfl, ha⟩⟩, .inr ⟨_, rfl⟩⟩
    · exact ⟨⟨hx, hc, ha, rfl⟩, .inl rfl⟩

theorem SessInv.resumeExec {cfg r0} {y : SessCh} (h : SessInv cfg r0 y.s) {id cmd} (hm : y.s.tasks.lookup id = some (.exec cmd)) (r) :
    SessInv cfg r0 (y.resumeExec cfg id cmd r).s := by
  have hok := STaskOk.of_lookup h hm rfl
  unfold SessCh.resumeExec
  split
  · exact h
  · split
    · exact h
    · rename_i s hs
      obtain ⟨e1, e2, e3, e4⟩ := prepareExec_same hs
      have hp := execProgram_ok (restr := s.restr) hok.1 hok.2
      refine SessInv.launch (y := { y with s := s }) (h.still (.prepareExec hs)) (t := .exec cmd) (by rw [e1]; exact hm) rfl ?_ ?_ _
      · show ProgOk cfg s.restr s.log _ _
        rw [e2]; exact hp.1
      · exact fun ht => ⟨ht, hp.2⟩

theorem SessInv.resumeService {cfg r0} {y : SessCh} (h : SessInv cfg r0 y.s) {id t program}
    (hm : y.s.tasks.lookup id = some t) (ht : willStart (id, t) = true)
    (hp : ∀ r, ProgOk cfg r y.s.log none program) (r) : SessInv cfg r0 (y.resumeService cfg id program r).s := by
  unfold SessCh.resumeService
  split
  · exact (h.still (.finish y id)).still (.refuse _ _ _)
  · split
    · exact h
    · rename_i s hs
      obtain ⟨e1, e2, e3, e4⟩ := preparePipes_same hs
      have h1 := h.still (.preparePipes hs)
      split
      · exact (SessInv.still (s := s) h1 (.finish ⟨s, y.buf, y.stop⟩ id)).still (.refuse _ _ _)
      · refine SessInv.launch (y := { y with s := s }) h1 (t := t) (by rw [e1]; exact hm) ht ?_ (by simp) _
        show ProgOk cfg s.restr s.log _ _
        rw [e2]; exact hp _

theorem SessInv.resumeSftp {cfg r0} {y : SessCh} (h : SessInv cfg r0 y.s) {id}
    (hm : y.s.tasks.lookup id = some .sftp) (r) : SessInv cfg r0 (y.resumeSftp cfg id r).s := by
  have hok := STaskOk.of_lookup h hm rfl
  unfold SessCh.resumeSftp
  split
  · exact h
  · cases y.s.tty.isSome && !cfg.ndebug
    · simp only [cond_false]
      split
      · exact h
      · rename_i s hs
        obtain ⟨e1, e2, e3, e4⟩ := preparePipes_same hs
        refine SessInv.launch (y := { y with s := s }) (h.still (.preparePipes hs)) (t := .sftp) (by rw [e1]; exact hm) rfl ?_ (by simp) _
        show STaskOk cfg s.log .sftp
        rw [e2]; exact hok
    · exact h

theorem SessInv.enqueued {cfg r0} {y : SessCh} (h : SessInv cfg r0 y.s) (id r) : SessInv cfg r0 (y.enqueued cfg id r).s := by
  unfold SessCh.enqueued
  split
  · rename_i cmd hm; exact h.resumeExec hm r
  · rename_i cmd hm
    exact h.resumeService (program := .rsync (splitCmdline cmd)) hm rfl (fun _ => ⟨cmd, rfl, STaskOk.of_lookup h hm rfl⟩) r
  · rename_i service arg hm
    exact h.resumeService (program := .git service arg) hm rfl (fun _ => STaskOk.of_lookup h hm rfl) r
  · rename_i hm; exact h.resumeSftp hm r
  · exact h

theorem SessInv.handle {cfg r0} {y : SessCh} (h : SessInv cfg r0 y.s) (ev) : SessInv cfg r0 (y.handle cfg ev).s := by
  cases hev : otherEvent ev with
  | true => exact h.still (.handle cfg y ev hev)
  | false =>
    cases ev with
    | request name data ok => exact h.request name data ok
    | enqueued id r => exact h.enqueued id r
    | restricted r => exact h.restricted r
    | _ => simp [otherEvent] at hev

theorem SessCh.run_snoc (cfg : SessCfg) (y : SessCh) (evs ev) : y.run cfg (evs ++ [ev]) = (y.run cfg evs).step cfg ev := by
  simp [SessCh.run]

theorem sess_inv (cfg r w evs) : SessInv cfg r (SessCh.run cfg (SessCh.init r w) evs).s := by
  induction evs using Aux.snoc_ind with
  | h0 => exact .init cfg r w
  | h1 evs ev ih =>
    rw [SessCh.run_snoc]
    unfold SessCh.step
    split
    · exact ih
    · exact ih.handle ev

end Lukko
