import Verif.Proof.SessionInv
/-
  Variables that were set are passed to all processes that are started later.
-/
namespace Lukko
open Model Spec

/-- From `s` to `s'`, the variable is kept, and new processes get it. -/
structure EnvGrow (v : Bytes × Bytes) (s s' : Sess) : Prop where
  env : v ∈ s.env → v ∈ s'.env
  log : ∃ l, s'.log = s.log ++ l ∧ ∀ p, SessEntry.started p ∈ l → v ∈ s.env → v ∈ p.env

theorem EnvGrow.refl (v) (s : Sess) : EnvGrow v s s := ⟨id, [], by simp, by simp⟩

theorem EnvGrow.trans {v} {s t u : Sess} (h : EnvGrow v s t) (g : EnvGrow v t u) : EnvGrow v s u := by
  obtain ⟨l1, e1, p1⟩ := h.log
  obtain ⟨l2, e2, p2⟩ := g.log
  refine ⟨fun x => g.env (h.env x), l1 ++ l2, by rw [e2, e1, List.append_assoc], ?_⟩
  intro p hp hv
  rcases List.mem_append.mp hp with hp | hp
  · exact p1 p hp hv
  · exact p2 p hp (h.env hv)

theorem EnvGrow.still {v} {s s' : Sess} (h : Still s s') : EnvGrow v s s' := by
  obtain ⟨l, e, p⟩ := h.log
  refine ⟨by rw [h.env]; exact id, l, e, ?_⟩
  intro q hq
  have := p _ hq
  simp [sessPlain] at this

theorem EnvGrow.same {v} {s s' : Sess} (h1 : s'.env = s.env) (h2 : s'.log = s.log) : EnvGrow v s s' :=
  ⟨by rw [h1]; exact id, [], by simp [h2], by simp⟩

theorem EnvGrow.entry {v e} {s s' : Sess} (h1 : s'.env = s.env) (h2 : s'.log = s.log ++ [e]) (h3 : e.process = none) : EnvGrow v s s' := by
  refine ⟨by rw [h1]; exact id, [e], h2, ?_⟩
  intro p hp
  simp only [List.mem_singleton] at hp
  rw [← hp] at h3
  simp [SessEntry.process] at h3

theorem EnvGrow.setEnv {v} {s s' : Sess} {a b} (h : s.setEnv a b = some s') : EnvGrow v s s' := by
  unfold Sess.setEnv at h
  split at h
  · simp at h
  · simp only [Option.some.injEq] at h
    subst h
    exact ⟨List.mem_cons_of_mem _, [], by simp, by simp⟩

theorem EnvGrow.spawn {v cfg} (s : Sess) (program original terminal) : EnvGrow v s (s.spawn cfg program original terminal) := by
  unfold Sess.spawn
  simp only
  refine (EnvGrow.still (.maybeScheduleRead s)).trans ?_
  generalize s.maybeScheduleRead = s1
  generalize (bif s1.restr.readOnlyHome then (cfg.mounts program).map makeReadOnly else cfg.mounts program) = m
  generalize hp : (⟨program, original, s1.env, terminal, m⟩ : Proc) = p
  have he : p.env = s1.env := by rw [← hp]
  have h1 : EnvGrow v s1 { s1 with log := s1.log ++ [SessEntry.started p] } := by
    refine ⟨id, [.started p], rfl, ?_⟩
    intro q hq hv
    simp only [List.mem_singleton, SessEntry.started.injEq] at hq
    rw [hq, he]; exact hv
  exact (h1.trans (.still (.dropChild _))).trans (.same rfl rfl)

theorem EnvGrow.execGit {v} (y : SessCh) (service arg) : EnvGrow v y.s (y.execGit service arg).s := by
  unfold SessCh.execGit
  split
  · exact .still (.answer _ _)
  · exact .same rfl rfl

theorem EnvGrow.execOther {v} (cfg) (y : SessCh) (cmd) : EnvGrow v y.s (y.execOther cfg cmd).s := by
  unfold SessCh.execOther
  split
  · exact .execGit _ _ _
  · split
    · exact .execGit _ _ _
    · exact .still (.refuse _ _ _)

theorem EnvGrow.exec {v} (cfg) (y : SessCh) (cmd) : EnvGrow v y.s (y.exec cfg cmd).s := by
  unfold SessCh.exec
  cases cfg.exec with
  | true => cases cmd <;> exact .same rfl rfl
  | false =>
    cases cmd with
    | none => exact .still (.refuse _ _ _)
    | some cmd =>
      simp only [cond_false]
      split
      · exact .same rfl rfl
      · exact .still (.refuse _ _ _)
      · exact .execOther _ _ _

theorem EnvGrow.ptyReq {v} (cfg) (y : SessCh) (data ok) : EnvGrow v y.s (y.ptyReq cfg data ok).s := by
  unfold SessCh.ptyReq
  cases !cfg.exec || y.s.restr.noTerminal
  · simp only [cond_false]
    split
    · exact .refl _ _
    · cases ok
      · exact .refl _ _
      · simp only [Bool.not_true, cond_false]
        split
        · exact .refl _ _
        · rename_i s' hs
          refine EnvGrow.trans (EnvGrow.trans ?_ (.setEnv hs)) (.still (.answer ⟨s', y.buf, y.stop⟩ _))
          exact EnvGrow.entry (e := .terminalAllocated) rfl rfl rfl
  · exact .still (.answer _ _)

theorem EnvGrow.lateRequest {v} (y : SessCh) (name data ok) : EnvGrow v y.s (y.lateRequest name data ok).s := by
  unfold SessCh.lateRequest
  split
  · cases !y.s.tty.isSome
    · simp only [cond_false]
      split
      · exact .refl _ _
      · cases ok
        · exact .refl _ _
        · exact .still (.answer _ _)
    · exact .still (.answer _ _)
  · exact .still (.answer _ _)

theorem EnvGrow.request {v} (cfg) (y : SessCh) (name data ok) : EnvGrow v y.s (y.request cfg name data ok).s := by
  unfold SessCh.request
  cases y.s.child.isSome
  · simp only [cond_false]
    split
    · unfold SessCh.execRequest
      split
      · exact .refl _ _
      · split
        · exact .still (.refuse _ _ _)
        · exact .exec _ _ _
    · split
      · exact .exec _ _ _
      · split
        · unfold SessCh.subsystem
          split
          · exact .refl _ _
          · split
            · cases cfg.sftp
              · exact .still (.answer _ _)
              · simp only [Bool.not_true, cond_false]
                cases y.s.tty.isSome
                · exact .same rfl rfl
                · exact .still (.answer _ _)
            · exact .still (.answer _ _)
        · split
          · exact .ptyReq _ _ _ _
          · split
            · unfold SessCh.envRequest
              cases cfg.exec
              · exact .still (.answer _ _)
              · simp only [Bool.not_true, cond_false]
                split
                · exact .refl _ _
                · split
                  · exact .refl _ _
                  · rename_i s' hs
                    exact (EnvGrow.setEnv hs).trans (.still (.answer ⟨s', y.buf, y.stop⟩ _))
            · split
              · exact EnvGrow.trans (t := { y.s with agentReq := true }) (.same rfl rfl)
                  (.still (.answer ⟨{ y.s with agentReq := true }, y.buf, y.stop⟩ _))
              · exact .still (.answer _ _)
  · exact .lateRequest _ _ _ _

theorem EnvGrow.launch {v cfg} (y : SessCh) (id program original terminal r) :
    EnvGrow v y.s (y.launch cfg id program original terminal r).s := by
  have hf := EnvGrow.still (v := v) (.finish y id)
  unfold SessCh.launch
  split
  · refine (hf.trans (.still (.maybeScheduleRead _))).trans (.still (.refuse ⟨_, _, _⟩ _ _))
  · exact (hf.trans (.spawn _ _ _ _)).trans (.same rfl rfl)

theorem EnvGrow.enqueued {v} (cfg) (y : SessCh) (id r) : EnvGrow v y.s (y.enqueued cfg id r).s := by
  have hserv : ∀ program, EnvGrow v y.s (y.resumeService cfg id program r).s := by
    intro program
    unfold SessCh.resumeService
    split
    · exact (EnvGrow.still (.finish y id)).trans (.still (.refuse _ _ _))
    · split
      · exact .refl _ _
      · rename_i s hs
        have h1 := EnvGrow.still (v := v) (.preparePipes hs)
        split
        · exact h1.trans ((EnvGrow.still (.finish ⟨s, y.buf, y.stop⟩ id)).trans (.still (.refuse _ _ _)))
        · exact h1.trans (.launch ⟨s, y.buf, y.stop⟩ _ _ _ _ _)
  unfold SessCh.enqueued
  split
  · unfold SessCh.resumeExec
    split
    · exact .refl _ _
    · split
      · exact .refl _ _
      · rename_i s hs
        exact (EnvGrow.still (.prepareExec hs)).trans (.launch ⟨s, y.buf, y.stop⟩ _ _ _ _ _)
  · exact hserv _
  · exact hserv _
  · unfold SessCh.resumeSftp
    split
    · exact .refl _ _
    · cases y.s.tty.isSome && !cfg.ndebug
      · simp only [cond_false]
        split
        · exact .refl _ _
        · rename_i s hs
          exact (EnvGrow.still (.preparePipes hs)).trans (.launch ⟨s, y.buf, y.stop⟩ _ _ _ _ _)
      · exact .refl _ _
  · exact .refl _ _

theorem EnvGrow.handle {v} (cfg) (y : SessCh) (ev) : EnvGrow v y.s (y.handle cfg ev).s := by
  cases hev : otherEvent ev with
  | true => exact .still (.handle cfg y ev hev)
  | false =>
    cases ev with
    | request name data ok =>
      exact EnvGrow.trans (t := y.s.emit (.asked name data)) (.entry (e := .asked name data) rfl rfl rfl) (.request cfg ⟨y.s.emit (.asked name data), y.buf, y.stop⟩ _ _ _)
    | enqueued id r => exact .enqueued cfg y id r
    | restricted r => exact .entry (e := .restricted r) rfl rfl rfl
    | _ => simp [otherEvent] at hev

theorem EnvGrow.run {v} (cfg) (y : SessCh) (evs) : EnvGrow v y.s (y.run cfg evs).s := by
  induction evs using Aux.snoc_ind with
  | h0 => exact .refl _ _
  | h1 evs ev ih =>
    rw [SessCh.run_snoc]
    unfold SessCh.step
    split
    · exact ih
    · exact ih.trans (.handle cfg _ ev)

end Lukko
