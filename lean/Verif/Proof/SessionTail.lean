import Verif.Proof.SessionEnv
/-
  The variables of a session: a new one is in front of the older ones.
-/
namespace Lukko
open Model Spec

/-- What `e'` has in front of `e` was asked for in `q`. -/
def Newer (q : List SessEntry) (e e' : List (Bytes × Bytes)) : Prop := ∃ m, e' = m ++ e ∧ ∀ v ∈ m, EnvAsked q v

theorem Newer.refl (q e) : Newer q e e := ⟨[], rfl, by simp⟩

theorem Newer.trans {q q' q'' e f g} (h : Newer q e f) (h' : Newer q' f g) (h1 : ∀ x ∈ q, x ∈ q'') (h2 : ∀ x ∈ q', x ∈ q'') :
    Newer q'' e g := by
  obtain ⟨m, rfl, hm⟩ := h
  obtain ⟨n, rfl, hn⟩ := h'
  refine ⟨n ++ m, by rw [List.append_assoc], ?_⟩
  intro v hv
  rcases List.mem_append.mp hv with hv | hv
  · rcases hn v hv with h | ⟨h, r, h'⟩
    · exact .inl (h2 _ h)
    · exact .inr ⟨h, r, h2 _ h'⟩
  · rcases hm v hv with h | ⟨h, r, h'⟩
    · exact .inl (h1 _ h)
    · exact .inr ⟨h, r, h1 _ h'⟩

theorem Newer.mono {q q' e f} (h : Newer q e f) (hq : ∀ x ∈ q, x ∈ q') : Newer q' e f :=
  Newer.trans (Newer.refl q e) h hq hq

/-- From `s` to `s'`, all that is done with the variables is to put some in front. -/
structure EnvTail (q : List SessEntry) (s s' : Sess) : Prop where
  env : Newer q s.env s'.env
  log : ∃ l, s'.log = s.log ++ l ∧ ∀ p, SessEntry.started p ∈ l → Newer q s.env p.env

theorem EnvTail.refl (q) (s : Sess) : EnvTail q s s := ⟨.refl _ _, [], by simp, by simp⟩

theorem EnvTail.trans {q} {s t u : Sess} (h : EnvTail q s t) (g : EnvTail q t u) : EnvTail q s u := by
  obtain ⟨l1, e1, p1⟩ := h.log
  obtain ⟨l2, e2, p2⟩ := g.log
  refine ⟨h.env.trans g.env (fun _ => id) (fun _ => id), l1 ++ l2, by rw [e2, e1, List.append_assoc], ?_⟩
  intro p hp
  rcases List.mem_append.mp hp with hp | hp
  · exact p1 p hp
  · exact h.env.trans (p2 p hp) (fun _ => id) (fun _ => id)

theorem EnvTail.still {q} {s s' : Sess} (h : Still s s') : EnvTail q s s' := by
  obtain ⟨l, e, p⟩ := h.log
  refine ⟨by rw [h.env]; exact .refl _ _, l, e, ?_⟩
  intro q hq
  have := p _ hq
  simp [sessPlain] at this

theorem EnvTail.same {q} {s s' : Sess} (h1 : s'.env = s.env) (h2 : s'.log = s.log) : EnvTail q s s' :=
  ⟨by rw [h1]; exact .refl _ _, [], by simp [h2], by simp⟩

theorem EnvTail.entry {q e} {s s' : Sess} (h1 : s'.env = s.env) (h2 : s'.log = s.log ++ [e]) (h3 : e.process = none) : EnvTail q s s' := by
  refine ⟨by rw [h1]; exact .refl _ _, [e], h2, ?_⟩
  intro p hp
  simp only [List.mem_singleton] at hp
  rw [← hp] at h3
  simp [SessEntry.process] at h3

theorem EnvTail.setEnv {q} {s s' : Sess} {a b} (hq : EnvAsked q (a, b)) (h : s.setEnv a b = some s') : EnvTail q s s' := by
  unfold Sess.setEnv at h
  split at h
  · simp at h
  · simp only [Option.some.injEq] at h
    subst h
    exact ⟨⟨[(a, b)], rfl, by simpa using hq⟩, [], by simp, by simp⟩

theorem EnvTail.spawn {q cfg} (s : Sess) (program original terminal) : EnvTail q s (s.spawn cfg program original terminal) := by
  unfold Sess.spawn
  simp only
  refine (EnvTail.still (.maybeScheduleRead s)).trans ?_
  generalize s.maybeScheduleRead = s1
  generalize (bif s1.restr.readOnlyHome then (cfg.mounts program).map makeReadOnly else cfg.mounts program) = m
  generalize hp : (⟨program, original, s1.env, terminal, m⟩ : Proc) = p
  have he : p.env = s1.env := by rw [← hp]
  have h1 : EnvTail q s1 { s1 with log := s1.log ++ [SessEntry.started p] } := by
    refine ⟨.refl _ _, [.started p], rfl, ?_⟩
    intro q hq
    simp only [List.mem_singleton, SessEntry.started.injEq] at hq
    rw [hq, he]; exact .refl _ _
  exact (h1.trans (.still (.dropChild _))).trans (.same rfl rfl)

theorem EnvTail.execGit {q} (y : SessCh) (service arg) : EnvTail q y.s (y.execGit service arg).s := by
  unfold SessCh.execGit
  split
  · exact .still (.answer _ _)
  · exact .same rfl rfl

theorem EnvTail.execOther {q} (cfg) (y : SessCh) (cmd) : EnvTail q y.s (y.execOther cfg cmd).s := by
  unfold SessCh.execOther
  split
  · exact .execGit _ _ _
  · split
    · exact .execGit _ _ _
    · exact .still (.refuse _ _ _)

theorem EnvTail.exec {q} (cfg) (y : SessCh) (cmd) : EnvTail q y.s (y.exec cfg cmd).s := by
  unfold SessCh.exec
  cases cfg.exec with
  | true => cases cmd <;> exact .same rfl rfl
  | false =>
    cases cmd with
    | none => exact .still (.refuse _ _ _)
    | some cmd =>
      simp only [cond_false]
      split
      · exact .same rfl rfl
      · exact .still (.refuse _ _ _)
      · exact .execOther _ _ _

theorem EnvTail.ptyReq {q} (cfg) (y : SessCh) (data ok) (ha : .asked (ascii "pty-req") data ∈ q) :
    EnvTail q y.s (y.ptyReq cfg data ok).s := by
  unfold SessCh.ptyReq
  cases !cfg.exec || y.s.restr.noTerminal
  · simp only [cond_false]
    split
    · exact .refl _ _
    · rename_i hp
      obtain ⟨rest, rfl⟩ := parsePtyReq_inv hp
      cases ok
      · exact .refl _ _
      · simp only [Bool.not_true, cond_false]
        split
        · exact .refl _ _
        · rename_i s' hs
          refine EnvTail.trans (EnvTail.trans ?_ (.setEnv (.inr ⟨rfl, rest, ha⟩) hs)) (.still (.answer ⟨s', y.buf, y.stop⟩ _))
          exact EnvTail.entry (e := .terminalAllocated) rfl rfl rfl
  · exact .still (.answer _ _)

theorem EnvTail.lateRequest {q} (y : SessCh) (name data ok) : EnvTail q y.s (y.lateRequest name data ok).s := by
  unfold SessCh.lateRequest
  split
  · cases !y.s.tty.isSome
    · simp only [cond_false]
      split
      · exact .refl _ _
      · cases ok
        · exact .refl _ _
        · exact .still (.answer _ _)
    · exact .still (.answer _ _)
  · exact .still (.answer _ _)

theorem EnvTail.request {q} (cfg) (y : SessCh) (name data ok) (ha : .asked name data ∈ q) : EnvTail q y.s (y.request cfg name data ok).s := by
  unfold SessCh.request
  cases y.s.child.isSome
  · simp only [cond_false]
    split
    · unfold SessCh.execRequest
      split
      · exact .refl _ _
      · split
        · exact .still (.refuse _ _ _)
        · exact .exec _ _ _
    · split
      · exact .exec _ _ _
      · split
        · unfold SessCh.subsystem
          split
          · exact .refl _ _
          · split
            · cases cfg.sftp
              · exact .still (.answer _ _)
              · simp only [Bool.not_true, cond_false]
                cases y.s.tty.isSome
                · exact .same rfl rfl
                · exact .still (.answer _ _)
            · exact .still (.answer _ _)
        · split
          · rename_i hn
            exact .ptyReq _ _ _ _ (hn ▸ ha)
          · split
            · rename_i hn
              rw [hn] at ha
              unfold SessCh.envRequest
              cases cfg.exec
              · exact .still (.answer _ _)
              · simp only [Bool.not_true, cond_false]
                split
                · exact .refl _ _
                · rename_i hp
                  rw [parseTwoStrings_inv hp] at ha
                  split
                  · exact .refl _ _
                  · rename_i s' hs
                    exact (EnvTail.setEnv (.inl ha) hs).trans (.still (.answer ⟨s', y.buf, y.stop⟩ _))
            · split
              · exact EnvTail.trans (t := { y.s with agentReq := true }) (.same rfl rfl)
                  (.still (.answer ⟨{ y.s with agentReq := true }, y.buf, y.stop⟩ _))
              · exact .still (.answer _ _)
  · exact .lateRequest _ _ _ _

theorem EnvTail.launch {q cfg} (y : SessCh) (id program original terminal r) :
    EnvTail q y.s (y.launch cfg id program original terminal r).s := by
  have hf := EnvTail.still (q := q) (.finish y id)
  unfold SessCh.launch
  split
  · refine (hf.trans (.still (.maybeScheduleRead _))).trans (.still (.refuse ⟨_, _, _⟩ _ _))
  · exact (hf.trans (.spawn _ _ _ _)).trans (.same rfl rfl)

theorem EnvTail.enqueued {q} (cfg) (y : SessCh) (id r) : EnvTail q y.s (y.enqueued cfg id r).s := by
  have hserv : ∀ program, EnvTail q y.s (y.resumeService cfg id program r).s := by
    intro program
    unfold SessCh.resumeService
    split
    · exact (EnvTail.still (.finish y id)).trans (.still (.refuse _ _ _))
    · split
      · exact .refl _ _
      · rename_i s hs
        have h1 := EnvTail.still (q := q) (.preparePipes hs)
        split
        · exact h1.trans ((EnvTail.still (.finish ⟨s, y.buf, y.stop⟩ id)).trans (.still (.refuse _ _ _)))
        · exact h1.trans (.launch ⟨s, y.buf, y.stop⟩ _ _ _ _ _)
  unfold SessCh.enqueued
  split
  · unfold SessCh.resumeExec
    split
    · exact .refl _ _
    · split
      · exact .refl _ _
      · rename_i s hs
        exact (EnvTail.still (.prepareExec hs)).trans (.launch ⟨s, y.buf, y.stop⟩ _ _ _ _ _)
  · exact hserv _
  · exact hserv _
  · unfold SessCh.resumeSftp
    split
    · exact .refl _ _
    · cases y.s.tty.isSome && !cfg.ndebug
      · simp only [cond_false]
        split
        · exact .refl _ _
        · rename_i s hs
          exact (EnvTail.still (.preparePipes hs)).trans (.launch ⟨s, y.buf, y.stop⟩ _ _ _ _ _)
      · exact .refl _ _
  · exact .refl _ _

/-- What the client asks for with this event. -/
def eventAsks : SessEvent → List SessEntry
  | .request name data _ => [.asked name data]
  | _ => []

theorem EnvTail.handle (cfg) (y : SessCh) (ev) : EnvTail (eventAsks ev) y.s (y.handle cfg ev).s ∧
    ∃ l, (y.handle cfg ev).s.log = y.s.log ++ eventAsks ev ++ l := by
  cases hev : otherEvent ev with
  | true =>
    have h := Still.handle cfg y ev hev
    obtain ⟨l, e, _⟩ := h.log
    refine ⟨.still h, l, ?_⟩
    have : eventAsks ev = [] := by cases ev <;> first | rfl | cases hev
    rw [this, List.append_nil, e]
  | false =>
    cases ev with
    | request name data ok =>
      have h := EnvTail.request (q := [.asked name data]) cfg ⟨y.s.emit (.asked name data), y.buf, y.stop⟩ name data ok (by simp)
      refine ⟨EnvTail.trans (t := y.s.emit (.asked name data)) (.entry (e := .asked name data) rfl rfl rfl) h, ?_⟩
      obtain ⟨l, e, _⟩ := h.log
      exact ⟨l, e⟩
    | enqueued id r =>
      have h := EnvTail.enqueued (q := []) cfg y id r
      obtain ⟨l, e, _⟩ := h.log
      exact ⟨h, l, by simp only [eventAsks, List.append_nil]; exact e⟩
    | restricted r => exact ⟨.entry (e := .restricted r) rfl rfl rfl, [.restricted r], by simp [eventAsks]; rfl⟩
    | _ => simp [otherEvent] at hev

/-- Everything which is in front of the variables was asked for since then. -/
theorem EnvTail.run (cfg) (y : SessCh) (evs) : ∃ l, (y.run cfg evs).s.log = y.s.log ++ l ∧ Newer l y.s.env (y.run cfg evs).s.env ∧
    ∀ a p b, l = a ++ SessEntry.started p :: b → Newer a y.s.env p.env := by
  induction evs using Aux.snoc_ind with
  | h0 => exact ⟨[], by simp [SessCh.run], .refl _ _, by simp⟩
  | h1 evs ev ih =>
    obtain ⟨l, e, hn, hp⟩ := ih
    rw [SessCh.run_snoc]
    unfold SessCh.step
    split
    · exact ⟨l, e, hn, hp⟩
    · obtain ⟨h, l2, e2⟩ := EnvTail.handle cfg (y.run cfg evs) ev
      obtain ⟨l3, e3, hp3⟩ := h.log
      have hl : l3 = eventAsks ev ++ l2 := by
        rw [e2, List.append_assoc] at e3
        exact (List.append_cancel_left e3).symm
      refine ⟨l ++ (eventAsks ev ++ l2), by rw [e2, e]; simp only [List.append_assoc], ?_, ?_⟩
      · exact hn.trans h.env (fun _ hx => List.mem_append_left _ hx)
          (fun _ hx => List.mem_append_right _ (List.mem_append_left _ hx))
      · intro a p b heq
        rcases List.append_eq_append_iff.mp heq with ⟨c, h1, h2⟩ | ⟨c, h1, h2⟩
        · subst h1
          refine hn.trans (hp3 p ?_) (fun _ hx => List.mem_append_left _ hx) ?_
          · rw [hl, h2]; simp
          · intro x hx
            refine List.mem_append_right _ ?_
            cases ev with
            | request name data ok =>
              cases c with
              | nil => simp [eventAsks] at h2
              | cons d c =>
                simp only [eventAsks, List.cons_append, List.nil_append, List.cons.injEq] at h2
                simp only [eventAsks, List.mem_singleton] at hx
                rw [hx, h2.1]
                exact List.mem_cons_self
            | _ => cases hx
        · cases c with
          | nil =>
            simp only [List.nil_append] at h2
            rw [List.append_nil] at h1
            subst h1
            refine hn.trans (hp3 p ?_) (fun _ hx => hx) ?_
            · rw [hl, ← h2]; simp
            · intro x hx
              cases ev with
              | request name data ok => simp [eventAsks] at h2
              | _ => cases hx
          | cons d c =>
            simp only [List.cons_append, List.cons.injEq] at h2
            exact hp _ _ c (by rw [h1, h2.1])

end Lukko
