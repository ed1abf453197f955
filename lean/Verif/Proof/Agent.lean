import Verif.Proof.SessionInv
import Verif.Model.Agent
/-
  Agent forwarding: an invariant (for C80).
-/
namespace Lukko
open Model Spec

/-- What matters here. -/
def ag (s : Sess) : Bool × Bool := (s.agent, s.agentReq)

section
variable (s : Sess) (y : SessCh)

theorem ag_scheduleRead : ag s.scheduleRead = ag s := rfl
theorem ag_cancelRead : ag s.cancelRead = ag s := rfl
theorem ag_emit (e) : ag (s.emit e) = ag s := rfl

theorem ag_maybeScheduleRead : ag s.maybeScheduleRead = ag s := by
  unfold Sess.maybeScheduleRead; split <;> rfl

theorem ag_scheduleWrite : ag s.scheduleWrite = ag s := by
  unfold Sess.scheduleWrite; split <;> rfl

theorem ag_closeStdin : ag s.closeStdin = ag s := by
  unfold Sess.closeStdin; split <;> rfl

theorem ag_dropChild : ag s.dropChild = ag s := by
  unfold Sess.dropChild; split <;> rfl

theorem ag_setStderr (text) : ag (s.setStderr text) = ag s := by
  unfold Sess.setStderr
  exact (ag_closeStdin _).trans (ag_dropChild _)

theorem ag_consume {s s' : Sess} {n : Nat} (h : s.consume n = some s') : ag s' = ag s := by
  unfold Sess.consume at h
  split at h
  · split at h
    · simp only [Option.some.injEq] at h; subst h; rfl
    · simp only [Option.some.injEq] at h; subst h; rfl
  · simp at h

theorem ag_wroteInput (payload n) : ag (s.wroteInput payload n) = ag s := by
  unfold Sess.wroteInput
  split
  · exact ag_scheduleWrite _
  · rfl

theorem ag_writeInput (payload : Bytes) (k : Wrote) : ag (s.writeInput payload k).1 = ag s := by
  cases k with
  | wouldBlock => exact ag_scheduleWrite s
  | failed => exact ag_closeStdin s
  | wrote m =>
    simp only [Sess.writeInput]
    split
    · rfl
    · rename_i hc; exact (ag_consume hc).trans (ag_wroteInput ..)

theorem ag_data (payload : Bytes) (k : Wrote) : ag (Sess.ops.data s payload k).1 = ag s := by
  simp only [Sess.ops]
  cases s.stdinEnabled
  · rfl
  · simp only [Bool.not_true, cond_false]
    cases (!s.stdin.isSome && !s.tty.isSome)
    · exact ag_writeInput s payload k
    · rfl

theorem ag_keeps (x) : Keeps Sess.ops (fun s _ => ag s = x) where
  eof := fun h => (ag_closeStdin _).trans h
  stop := by
    intro g b c k e g' h hd
    have := ag_data g c k
    rw [hd] at this
    exact this.trans h
  data := by
    intro g b c k n g' q h hd
    have := ag_data g c k
    rw [hd] at this
    exact this.trans h

theorem ag_enableStdin : ag s.enableStdin = ag s := by
  unfold Sess.enableStdin
  simp only
  cases s.stdinDeferred
  · rfl
  · exact ag_scheduleWrite _

theorem ag_preparePipes {nd} {s s' : Sess} (h : s.preparePipes nd = some s') : ag s' = ag s := by
  unfold Sess.preparePipes at h
  cases hc : (s.stdin.isSome || s.stdout.isSome || s.stderr.isSome) && !nd <;> rw [hc] at h
  · simp only [cond_false, Option.some.injEq] at h; subst h; rfl
  · simp at h

theorem ag_prepareExec {cfg} {s s' : Sess} (h : s.prepareExec cfg = some s') : ag s' = (s.agent || s.agentReq, s.agentReq) := by
  unfold Sess.prepareExec at h
  cases hc : s.agent && !cfg.ndebug
  · rw [hc] at h
    simp only [cond_false] at h
    cases ht : s.tty.isSome
    · rw [ht] at h; exact ag_preparePipes h
    · rw [ht] at h
      simp only [cond_true, Option.some.injEq] at h
      subst h
      rfl
  · rw [hc] at h; simp at h

theorem ag_setSource (f x) : ag (s.setSource f x) = ag s := by cases f <;> rfl

theorem ag_sendFrom (f x bs) : ag (s.sendFrom f x bs) = ag s := by
  unfold Sess.sendFrom Sess.cancelIfExhausted
  simp only
  split
  · exact ag_setSource ..
  · exact ag_setSource ..

theorem ag_processWrites (f bs) : ag (s.processWrites f bs) = ag s := by
  unfold Sess.processWrites
  split
  · rfl
  · rename_i x _
    cases x.writers
    · rfl
    · exact ag_setSource ..

theorem ag_processCloses (f) : ag (s.processCloses f) = ag s := by
  unfold Sess.processCloses
  split
  · rfl
  · cases f == Stream.terminal && s.slaveTty
    · exact ag_setSource ..
    · rfl

theorem ag_setEnv {s s' : Sess} {a b} (h : s.setEnv a b = some s') : ag s' = ag s := by
  unfold Sess.setEnv at h
  split at h
  · simp at h
  · simp only [Option.some.injEq] at h; subst h; rfl

theorem ag_closeIfInactive : ag y.closeIfInactive.s = ag y.s := by
  unfold SessCh.closeIfInactive
  cases !(y.s.stdout.isSome || y.s.stderr.isSome || y.s.tty.isSome || y.s.child.isSome)
  · rfl
  · exact ag_dropChild _

theorem ag_maybeSendEof : ag y.maybeSendEof.s = ag y.s := by
  unfold SessCh.maybeSendEof
  cases y.s.stdout.isSome || y.s.stderr.isSome || y.s.tty.isSome
  · exact ag_closeIfInactive _
  · rfl

theorem ag_refuse (v text) : ag (y.refuse v text).s = ag y.s := by
  unfold SessCh.refuse
  cases v
  · rfl
  · exact ag_setStderr y.s text

theorem ag_completed (cfg id err) : ag (y.completed cfg id err).s = ag y.s := by
  unfold SessCh.completed
  split
  · split
    · split
      · exact ag_enableStdin _
      · exact ag_refuse ..
    · rfl
  · rfl

theorem ag_exited : ag y.exited.s = ag y.s := by
  unfold SessCh.exited
  split
  · rfl
  · exact (ag_closeIfInactive _).trans ((ag_emit _ _).trans (ag_closeStdin _))

theorem ag_endOfSource (f) : ag (y.endOfSource f).s = ag y.s := by
  unfold SessCh.endOfSource
  exact (ag_maybeSendEof _).trans (ag_setSource ..)

theorem ag_readSource (cfg f x len) : ag (y.readSource cfg f x len).s = ag y.s := by
  unfold SessCh.readSource
  simp only
  split
  · cases cfg.ndebug
    · rfl
    · exact ag_endOfSource ..
  · split
    · exact ag_endOfSource ..
    · exact ag_sendFrom ..

theorem ag_pipeReady (cfg f len) : ag (y.pipeReady cfg f len).s = ag y.s := by
  unfold SessCh.pipeReady
  split
  · rfl
  · rename_i x hx
    cases x.rd && (!x.content.isEmpty || !x.writers)
    · rfl
    · exact ag_readSource ..

theorem ag_stdinReady (ks) : ag (y.stdinReady ks).s = ag y.s := by
  unfold SessCh.stdinReady
  split
  · cases y.buf.enough ks
    · rfl
    · exact (ag_keeps (ag y.s)).read (g := { y.s with stdin := some false }) rfl
  · rfl

theorem ag_ttyWrite (w) : ag (y.ttyWrite w).s = ag y.s := by
  unfold SessCh.ttyWrite
  split
  · rfl
  · exact (ag_keeps (ag y.s)).read (g := { y.s with ttyWr := false }) rfl

theorem ag_ttyRead (cfg r len) : ag (y.ttyRead cfg r len).s = ag y.s := by
  unfold SessCh.ttyRead
  split
  · rfl
  · split
    · rfl
    · cases r
      · rfl
      · exact ag_readSource ..

theorem ag_ttyReady (cfg w len) : ag (y.ttyReady cfg w len).s = ag y.s := by
  unfold SessCh.ttyReady
  split
  · rfl
  · rename_i x hx
    simp only
    cases (!(x.rd && !x.content.isEmpty) && !(y.ttyWritable w).isSome)
    · exact (ag_ttyRead ..).trans (ag_ttyWrite ..)
    · simp only [cond_true]
      cases x.writers
      · exact ag_endOfSource ..
      · rfl

theorem ag_other (cfg) (ev) (hev : otherEvent ev = true) : ag (y.handle cfg ev).s = ag y.s := by
  cases ev with
  | request name data sysOk => simp [otherEvent] at hev
  | enqueued id r => simp [otherEvent] at hev
  | restricted r => simp [otherEvent] at hev
  | completed id err => exact ag_completed ..
  | exited => exact ag_exited _
  | recvData bs k =>
    simp only [SessCh.handle]
    split
    · rfl
    · exact (ag_keeps (ag y.s)).onData rfl fun h => h
  | recvExt n =>
    simp only [SessCh.handle]
    split <;> rfl
  | recvEof => exact (ag_keeps (ag y.s)).onEof rfl fun h => h
  | recvAdjust n =>
    simp only [SessCh.handle]
    split
    · rfl
    · split <;> rfl
  | blocked =>
    simp only [SessCh.handle]
    split <;> rfl
  | unblocked => exact ag_maybeScheduleRead _
  | writes f bs => exact ag_processWrites ..
  | closes f => exact ag_processCloses ..
  | stdinReady ks => exact ag_stdinReady ..
  | pipeReady f len =>
    simp only [SessCh.handle]
    split
    · rfl
    · exact ag_pipeReady ..
  | ttyReady w len => exact ag_ttyReady ..
  | gone => exact ag_dropChild _

end

/-! ## Requests -/

/-- Nothing is asked or started. -/
def agQuiet : SessEntry → Bool
  | .asked _ _ => false
  | .started _ => false
  | _ => true

/-- From `s` to `s'`, something happens that does not matter here. -/
structure AgKeep (s s' : Sess) : Prop where
  ag : ag s' = ag s
  log : ∃ l, s'.log = s.log ++ l ∧ ∀ e ∈ l, agQuiet e = true

theorem agQuiet_of_plain {e} (h : sessPlain e = true) : agQuiet e = true := by cases e <;> simp_all [sessPlain, agQuiet]

theorem AgKeep.still {s s' : Sess} (h : Still s s') (h' : Lukko.ag s' = Lukko.ag s) : AgKeep s s' := by
  obtain ⟨l, e, p⟩ := h.log
  exact ⟨h', l, e, fun x hx => agQuiet_of_plain (p x hx)⟩

theorem AgKeep.same {s s' : Sess} (h1 : Lukko.ag s' = Lukko.ag s) (h2 : s'.log = s.log) : AgKeep s s' := ⟨h1, [], by simp [h2], by simp⟩

theorem AgKeep.trans {a b c : Sess} (h : AgKeep a b) (g : AgKeep b c) : AgKeep a c := by
  obtain ⟨l1, e1, p1⟩ := h.log
  obtain ⟨l2, e2, p2⟩ := g.log
  refine ⟨g.ag.trans h.ag, l1 ++ l2, by rw [e2, e1, List.append_assoc], fun e he => ?_⟩
  rcases List.mem_append.1 he with he | he
  · exact p1 e he
  · exact p2 e he

section
variable (cfg : SessCfg) (y : SessCh)

theorem agKeep_answer (ok) : AgKeep y.s (y.answer ok).s := .still (.answer ..) rfl
theorem agKeep_refuse (v text) : AgKeep y.s (y.refuse v text).s := .still (.refuse ..) (ag_refuse ..)

theorem agKeep_execGit (service arg) : AgKeep y.s (y.execGit service arg).s := by
  unfold SessCh.execGit
  split
  · exact agKeep_answer ..
  · exact .same rfl rfl

theorem agKeep_exec (cmd) : AgKeep y.s (y.exec cfg cmd).s := by
  unfold SessCh.exec
  cases cfg.exec with
  | true => cases cmd <;> exact .same rfl rfl
  | false =>
    cases cmd with
    | none => exact agKeep_refuse ..
    | some cmd =>
      simp only [cond_false]
      split
      · exact .same rfl rfl
      · exact agKeep_refuse ..
      · unfold SessCh.execOther
        split
        · exact agKeep_execGit ..
        · split
          · exact agKeep_execGit ..
          · exact agKeep_refuse ..

theorem agKeep_lateRequest (name data ok) : AgKeep y.s (y.lateRequest name data ok).s := by
  unfold SessCh.lateRequest
  split
  · cases !y.s.tty.isSome
    · simp only [cond_false]
      split
      · exact .same rfl rfl
      · cases ok
        · exact .same rfl rfl
        · exact agKeep_answer ..
    · exact agKeep_answer ..
  · exact agKeep_answer ..

/-- Requests for agent forwarding. -/
theorem request_agent {name : Bytes} (hn : name ∈ agentRequests) (data ok) (hc : y.s.child = none) :
    (y.request cfg name data ok).s = { y.s with agentReq := true, log := y.s.log ++ [.answered true] } := by
  unfold SessCh.request
  rw [hc]
  simp only [agentRequests, List.mem_cons, List.not_mem_nil, or_false] at hn
  rcases hn with rfl | rfl <;> simp (decide := true) [SessCh.answer, Sess.emit]

/-- Other requests. -/
theorem request_other {name : Bytes} (data ok) (h : name ∉ agentRequests ∨ y.s.child ≠ none) :
    AgKeep y.s (y.request cfg name data ok).s := by
  unfold SessCh.request
  cases hc : y.s.child.isSome
  · have hn : ¬ (name = ascii "agent-req" ∨ name = ascii "auth-agent-req@openssh.com") := by
      rcases h with h | h
      · simpa [agentRequests] using h
      · exact absurd (by simpa using hc) h
    simp only [cond_false]
    split
    · unfold SessCh.execRequest
      split
      · exact .same rfl rfl
      · split
        · exact agKeep_refuse ..
        · exact agKeep_exec ..
    · split
      · exact agKeep_exec ..
      · split
        · unfold SessCh.subsystem
          split
          · exact .same rfl rfl
          · split
            · cases cfg.sftp
              · exact agKeep_answer ..
              · simp only [Bool.not_true, cond_false]
                cases y.s.tty.isSome
                · exact .same rfl rfl
                · exact agKeep_answer ..
            · exact agKeep_answer ..
        · split
          · unfold SessCh.ptyReq
            cases !cfg.exec || y.s.restr.noTerminal
            · simp only [cond_false]
              split
              · exact .same rfl rfl
              · cases ok
                · exact .same rfl rfl
                · simp only [Bool.not_true, cond_false]
                  split
                  · exact .same rfl rfl
                  · rename_i s' hs
                    have h1 : ag s' = ag y.s := (ag_setEnv hs).trans rfl
                    have h2 : s'.log = y.s.log ++ [.terminalAllocated] := by
                      unfold Sess.setEnv at hs
                      split at hs
                      · simp at hs
                      · simp only [Option.some.injEq] at hs; subst hs; rfl
                    exact ⟨h1, [.terminalAllocated, .answered true], by simp [SessCh.answer, Sess.emit, h2], by simp [agQuiet]⟩
            · exact agKeep_answer ..
          · split
            · unfold SessCh.envRequest
              cases cfg.exec
              · exact agKeep_answer ..
              · simp only [Bool.not_true, cond_false]
                split
                · exact .same rfl rfl
                · split
                  · exact .same rfl rfl
                  · rename_i s' hs
                    have h2 : s'.log = y.s.log := by
                      unfold Sess.setEnv at hs
                      split at hs
                      · simp at hs
                      · simp only [Option.some.injEq] at hs; subst hs; rfl
                    exact (AgKeep.same (ag_setEnv hs) h2).trans (agKeep_answer ⟨s', y.buf, y.stop⟩ _)
            · first
                | exact agKeep_answer ..
                | (split
                   · rename_i hm; exact absurd hm hn
                   · exact agKeep_answer ..)
  · exact agKeep_lateRequest ..

/-! ## Starting processes -/

/-- From `s` to `s'`, at most this program is started. -/
structure AgStart (program : Program) (s s' : Sess) : Prop where
  ag : ag s' = ag s
  log : ∃ l, s'.log = s.log ++ l ∧ (∀ n d, SessEntry.asked n d ∉ l) ∧ ∀ p, SessEntry.started p ∈ l → p.program = program

theorem AgKeep.start {s s' : Sess} (h : AgKeep s s') (program) : AgStart program s s' := by
  obtain ⟨l, e, p⟩ := h.log
  refine ⟨h.ag, l, e, fun n d hm => ?_, fun q hm => ?_⟩
  · have := p _ hm; simp [agQuiet] at this
  · have := p _ hm; simp [agQuiet] at this

theorem AgStart.trans {program} {a b c : Sess} (h : AgStart program a b) (g : AgStart program b c) : AgStart program a c := by
  obtain ⟨l1, e1, p1, q1⟩ := h.log
  obtain ⟨l2, e2, p2, q2⟩ := g.log
  refine ⟨g.ag.trans h.ag, l1 ++ l2, by rw [e2, e1, List.append_assoc], fun n d he => ?_, fun p he => ?_⟩
  · rcases List.mem_append.1 he with he | he
    · exact p1 n d he
    · exact p2 n d he
  · rcases List.mem_append.1 he with he | he
    · exact q1 p he
    · exact q2 p he

theorem agStart_launch (id program original terminal r) : AgStart program y.s (y.launch cfg id program original terminal r).s := by
  have hf : AgKeep y.s (y.finish id).s := .still (.finish ..) rfl
  unfold SessCh.launch
  split
  · exact ((hf.trans (.still (.maybeScheduleRead _) (ag_maybeScheduleRead _))).trans (agKeep_refuse ⟨_, _, _⟩ _ _)).start _
  · refine (hf.start _).trans ?_
    generalize (y.finish id).s = s
    unfold Sess.spawn
    simp only
    refine (AgKeep.start (.still (.maybeScheduleRead s) (ag_maybeScheduleRead s)) _).trans ?_
    generalize s.maybeScheduleRead = s1
    generalize hm : (bif s1.restr.readOnlyHome then (cfg.mounts program).map makeReadOnly else cfg.mounts program) = m
    generalize hp : (⟨program, original, s1.env, terminal, m⟩ : Proc) = p
    have hq : p.program = program := by rw [← hp]
    refine AgStart.trans (b := { s1 with log := s1.log ++ [SessEntry.started p] }) ⟨rfl, [.started p], rfl, by simp, ?_⟩ ?_
    · intro q h
      simp only [List.mem_singleton, SessEntry.started.injEq] at h
      rw [h]; exact hq
    · refine AgStart.trans (b := { s1 with log := s1.log ++ [SessEntry.started p] }.dropChild) ?_ ?_
      · exact (AgKeep.still (.dropChild _) (ag_dropChild _)).start _
      · exact ⟨rfl, [], (List.append_nil _).symm, by simp, by simp⟩

/-- What starting a process does to the agent. -/
structure AgEnq (s s' : Sess) (exec : Bool) : Prop where
  req : s'.agentReq = s.agentReq
  keep : s.agent = true → s'.agent = true
  agent : s'.agent = true → s.agent = true ∨ (exec = true ∧ s.agentReq = true)
  log : ∃ l, s'.log = s.log ++ l ∧ (∀ n d, SessEntry.asked n d ∉ l) ∧
    ∀ p, SessEntry.started p ∈ l → p.program.isShell = true → s.agentReq = true → s'.agent = true

theorem AgEnq.refl (s : Sess) (b) : AgEnq s s b := ⟨rfl, id, .inl, [], by simp, by simp, by simp⟩

theorem AgStart.enq {program} {s s' : Sess} (h : AgStart program s s') (hp : program.isShell = false) (b) : AgEnq s s' b := by
  obtain ⟨l, e, p, q⟩ := h.log
  have ha : s'.agent = s.agent := congrArg Prod.fst h.ag
  refine ⟨congrArg Prod.snd h.ag, by rw [ha]; exact id, by rw [ha]; exact .inl, l, e, p, fun x hx hs => ?_⟩
  rw [q x hx, hp] at hs
  simp at hs

theorem agEnq (id r) : AgEnq y.s (y.enqueued cfg id r).s (match y.s.tasks.lookup id with | some (.exec _) => true | _ => false) := by
  have hserv : ∀ (program : Program) b, program.isShell = false → AgEnq y.s (y.resumeService cfg id program r).s b := by
    intro program b hp
    unfold SessCh.resumeService
    split
    · exact ((AgKeep.still (.finish y id) rfl).trans (agKeep_refuse ..)).start program |>.enq hp b
    · split
      · exact .refl _ _
      · rename_i s hs
        have h1 : AgKeep y.s s := .still (.preparePipes hs) (ag_preparePipes hs)
        split
        · exact (h1.trans ((AgKeep.still (.finish ⟨s, y.buf, y.stop⟩ id) rfl).trans (agKeep_refuse ..))).start program |>.enq hp b
        · exact ((h1.start program).trans (agStart_launch cfg ⟨s, y.buf, y.stop⟩ ..)).enq hp b
  unfold SessCh.enqueued
  split
  · rename_i cmd hl
    unfold SessCh.resumeExec
    split
    · exact .refl _ _
    · split
      · exact .refl _ _
      · rename_i s hs
        have h1 := ag_prepareExec hs
        obtain ⟨l0, e0, p0⟩ := (Still.prepareExec hs).log
        obtain ⟨h2, l, e, p, q⟩ := agStart_launch cfg ⟨s, y.buf, y.stop⟩ id (execProgram s.restr cmd).1 (execProgram s.restr cmd).2
          s.tty.isSome r
        have h3 := h2.trans h1
        have ha := congrArg Prod.fst h3
        have hr := congrArg Prod.snd h3
        simp only [ag] at ha hr
        refine ⟨hr, fun h => by rw [ha, h]; rfl, fun h => ?_, l0 ++ l, by rw [e, ← List.append_assoc, ← e0], ?_, ?_⟩
        · rw [ha] at h
          cases h4 : y.s.agent with
          | true => exact .inl rfl
          | false => rw [h4] at h; exact .inr ⟨by simp [hl], h⟩
        · intro n d hm
          rcases List.mem_append.1 hm with hm | hm
          · have := p0 _ hm; simp [sessPlain] at this
          · exact p n d hm
        · intro x _ _ h
          rw [ha, h, Bool.or_true]
  · exact hserv _ _ rfl
  · exact hserv _ _ rfl
  · unfold SessCh.resumeSftp
    split
    · exact .refl _ _
    · cases y.s.tty.isSome && !cfg.ndebug
      · simp only [cond_false]
        split
        · exact .refl _ _
        · rename_i s hs
          exact (((AgKeep.still (.preparePipes hs) (ag_preparePipes hs)).start .sftpServer).trans
            (agStart_launch cfg ⟨s, y.buf, y.stop⟩ ..)).enq rfl _
      · exact .refl _ _
  · exact .refl _ _
end

end Lukko
