import Verif.Proof.SessionInv
/-
  Helper lemmas for session channels: windows and data.
-/
namespace Lukko
open Model Spec

def srcRd : Option Source → Bool
  | some x => x.rd
  | none => false

/-- Reading is scheduled. -/
def Model.Sess.reading (s : Sess) : Bool := srcRd s.stdout || (srcRd s.stderr || srcRd s.tty)

/-- Entries which have nothing to do with windows, data from the client and key exchanges. -/
def sessIdle : SessEntry → Bool
  | .input _ => false
  | .inputLost _ => false
  | .data _ => false
  | .sent _ _ => false
  | .io (.tx .eof) => true
  | .io (.tx .close) => true
  | .io (.tx (.request _)) => true
  | .io _ => false
  | _ => true

/-- `s'` comes from `s` by something that does not matter here; `b`: reading may be
scheduled, if the window is not exhausted. -/
structure Idle (b : Bool) (s s' : Sess) : Prop where
  sendWin : s'.sendWin = s.sendWin
  recvWin : s'.recvWin = s.recvWin
  rd : s'.reading = true → s.reading = true ∨ (b = true ∧ 0 < s.sendWin)
  log : ∃ l, s'.log = s.log ++ l ∧ ∀ e ∈ l, sessIdle e = true

theorem Idle.refl (b) (s : Sess) : Idle b s s := ⟨rfl, rfl, .inl, ⟨[], by simp, by simp⟩⟩

theorem Idle.trans {b} {s t u : Sess} (h : Idle b s t) (g : Idle b t u) : Idle b s u := by
  obtain ⟨l1, e1, p1⟩ := h.log
  obtain ⟨l2, e2, p2⟩ := g.log
  refine ⟨g.sendWin.trans h.sendWin, g.recvWin.trans h.recvWin, ?_, ⟨l1 ++ l2, by rw [e2, e1, List.append_assoc], ?_⟩⟩
  · intro x
    rcases g.rd x with x | ⟨x1, x2⟩
    · exact h.rd x
    · exact .inr ⟨x1, by rw [← h.sendWin]; exact x2⟩
  · intro e he
    rcases List.mem_append.mp he with he | he
    · exact p1 e he
    · exact p2 e he

theorem Idle.weaken {b s s'} (h : Idle false s s') : Idle b s s' :=
  ⟨h.sendWin, h.recvWin, fun x => .inl ((h.rd x).resolve_right (by simp)), h.log⟩

/-- Nothing recorded. -/
theorem Idle.quiet {b} {s s' : Sess} (h1 : s'.sendWin = s.sendWin) (h2 : s'.recvWin = s.recvWin)
    (h3 : s'.reading = true → s.reading = true) (h4 : s'.log = s.log) : Idle b s s' :=
  ⟨h1, h2, fun x => .inl (h3 x), ⟨[], by simp [h4], by simp⟩⟩

theorem Idle.emit {b} {e : SessEntry} (s : Sess) (h : sessIdle e = true) : Idle b s (s.emit e) :=
  ⟨rfl, rfl, .inl, ⟨[e], rfl, by simpa using h⟩⟩

theorem reading_eq {s s' : Sess} (h1 : s'.stdout = s.stdout) (h2 : s'.stderr = s.stderr) (h3 : s'.tty = s.tty) :
    s'.reading = s.reading := by
  unfold Sess.reading; rw [h1, h2, h3]

theorem Idle.maybeScheduleRead (s : Sess) : Idle true s s.maybeScheduleRead := by
  unfold Sess.maybeScheduleRead
  split
  · rename_i h; exact ⟨rfl, rfl, fun _ => .inr ⟨rfl, h⟩, ⟨[], by simp [Sess.scheduleRead], by simp⟩⟩
  · exact .refl _ s

theorem cancelRead_reading (s : Sess) : s.cancelRead.reading = false := by
  unfold Sess.reading Sess.cancelRead
  cases s.stdout <;> cases s.stderr <;> cases s.tty <;> rfl

theorem Idle.cancelRead {b} (s : Sess) : Idle b s s.cancelRead :=
  ⟨rfl, rfl, by simp [cancelRead_reading], ⟨[], by simp [Sess.cancelRead], by simp⟩⟩

theorem Idle.scheduleWrite {b} (s : Sess) : Idle b s s.scheduleWrite := by
  unfold Sess.scheduleWrite
  split <;> exact Idle.quiet rfl rfl (by rw [reading_eq rfl rfl rfl]; exact id) rfl

theorem Idle.closeStdin {b} (s : Sess) : Idle b s s.closeStdin := by
  unfold Sess.closeStdin
  split
  · exact ⟨rfl, rfl, by rw [reading_eq rfl rfl rfl]; exact .inl, ⟨_, rfl, by simp [sessIdle]⟩⟩
  · exact .refl _ s

theorem Idle.dropChild {b} (s : Sess) : Idle b s s.dropChild := by
  unfold Sess.dropChild
  split
  · exact ⟨rfl, rfl, by rw [reading_eq rfl rfl rfl]; exact .inl, ⟨_, rfl, by simp [sessIdle]⟩⟩
  · exact .refl _ s

theorem Idle.setStderr (s : Sess) (text : Bytes) : Idle true s (s.setStderr text) := by
  refine ((Idle.dropChild s).trans (Idle.closeStdin _)).trans ?_
  refine ⟨rfl, rfl, ?_, ⟨_, rfl, by simp [sessIdle]⟩⟩
  intro h
  simp only [Sess.setStderr, Sess.reading, srcRd, Bool.false_or, Bool.or_false, decide_eq_true_eq] at h
  have h1 := (Idle.dropChild (b := true) s).sendWin
  have h2 := (Idle.closeStdin (b := true) s.dropChild).sendWin
  exact .inr ⟨rfl, by rw [h2, h1]; exact h⟩

theorem Idle.enableStdin {b} (s : Sess) : Idle b s s.enableStdin := by
  unfold Sess.enableStdin
  simp only
  have h : Idle b s { s with stdinEnabled := true } := Idle.quiet rfl rfl (by rw [reading_eq rfl rfl rfl]; exact id) rfl
  generalize s.stdinDeferred = d at *
  cases d
  · exact h
  · exact h.trans (.scheduleWrite _)

theorem Idle.preparePipes {b nd} {s s' : Sess} (h : s.preparePipes nd = some s') : Idle b s s' := by
  unfold Sess.preparePipes at h
  cases hc : (s.stdin.isSome || s.stdout.isSome || s.stderr.isSome) && !nd
  · rw [hc] at h
    simp only [cond_false, Option.some.injEq] at h
    subst h
    refine Idle.quiet rfl rfl ?_ rfl
    unfold Sess.reading
    simp only [show srcRd (some {}) = false from rfl, Bool.false_or, Bool.or_eq_true]
    exact fun h => .inr (.inr h)
  · rw [hc] at h; simp at h

theorem Idle.prepareExec {b cfg} {s s' : Sess} (h : s.prepareExec cfg = some s') : Idle b s s' := by
  unfold Sess.prepareExec at h
  cases hc : s.agent && !cfg.ndebug
  · rw [hc] at h
    simp only [cond_false] at h
    have h0 : Idle b s { s with agent := s.agent || s.agentReq } := Idle.quiet rfl rfl (by rw [reading_eq rfl rfl rfl]; exact id) rfl
    cases ht : s.tty.isSome
    · rw [ht] at h
      exact h0.trans (.preparePipes h)
    · rw [ht] at h
      simp only [cond_true, Option.some.injEq] at h
      subst h
      exact Idle.quiet rfl rfl (by rw [reading_eq rfl rfl rfl]; exact id) rfl
  · rw [hc] at h; simp at h

theorem Idle.setSource {b} (s : Sess) (f : Stream) (x : Option Source)
    (h : ∀ y, x = some y → y.rd = true → ∃ z, s.source f = some z ∧ z.rd = true) : Idle b s (s.setSource f x) := by
  have key : srcRd x = true → srcRd (s.source f) = true := by
    intro hx
    cases x with
    | none => simp [srcRd] at hx
    | some y => obtain ⟨z, h1, h2⟩ := h y rfl hx; rw [h1]; exact h2
  cases f
  · refine Idle.quiet rfl rfl ?_ rfl
    unfold Sess.reading
    simp only [Bool.or_eq_true, Sess.setSource]
    exact Or.imp_left key
  · refine Idle.quiet rfl rfl ?_ rfl
    unfold Sess.reading
    simp only [Bool.or_eq_true, Sess.setSource]
    exact Or.imp_right (Or.imp_left key)
  · refine Idle.quiet rfl rfl ?_ rfl
    unfold Sess.reading
    simp only [Bool.or_eq_true, Sess.setSource]
    exact Or.imp_right (Or.imp_right key)

theorem Idle.processWrites {b} (s : Sess) (f bs) : Idle b s (s.processWrites f bs) := by
  unfold Sess.processWrites
  split
  · exact .refl _ s
  · rename_i x hx
    cases x.writers
    · exact .refl _ s
    · refine (Idle.setSource s f _ ?_).trans (.emit _ rfl)
      intro y hy hr
      simp only [Option.some.injEq] at hy
      subst hy
      exact ⟨x, hx, hr⟩

theorem Idle.processCloses {b} (s : Sess) (f) : Idle b s (s.processCloses f) := by
  unfold Sess.processCloses
  split
  · exact .refl _ s
  · rename_i x hx
    cases f == Stream.terminal && s.slaveTty
    · refine .setSource s f _ ?_
      intro y hy hr
      simp only [Option.some.injEq] at hy
      subst hy
      exact ⟨x, hx, hr⟩
    · exact .refl _ s

/-! ## The channel -/

theorem Idle.answer {b} (y : SessCh) (ok) : Idle b y.s (y.answer ok).s := .emit _ rfl

theorem Idle.suspend {b} (y : SessCh) (t) : Idle b y.s (y.suspend t).s :=
  Idle.quiet rfl rfl (by rw [reading_eq rfl rfl rfl]; exact id) rfl

theorem Idle.close {b} (y : SessCh) : Idle b y.s y.close.s := (Idle.dropChild _).trans (.emit _ rfl)

theorem Idle.closeIfInactive {b} (y : SessCh) : Idle b y.s y.closeIfInactive.s := by
  unfold SessCh.closeIfInactive
  cases !(y.s.stdout.isSome || y.s.stderr.isSome || y.s.tty.isSome || y.s.child.isSome)
  · exact .refl _ _
  · exact .close y

theorem Idle.maybeSendEof {b} (y : SessCh) : Idle b y.s y.maybeSendEof.s := by
  unfold SessCh.maybeSendEof
  cases y.s.stdout.isSome || y.s.stderr.isSome || y.s.tty.isSome
  · exact (Idle.emit (e := .io (.tx .eof)) y.s rfl).trans (Idle.closeIfInactive { y with s := y.s.emit (.io (.tx .eof)) })
  · exact .refl _ _

theorem Idle.refuse (y : SessCh) (v text) : Idle true y.s (y.refuse v text).s := by
  unfold SessCh.refuse
  cases v
  · exact .answer y _
  · exact (Idle.setStderr y.s text).trans (Idle.answer { y with s := y.s.setStderr text } _)

theorem Idle.finish {b} (y : SessCh) (id) : Idle b y.s (y.finish id).s :=
  Idle.quiet rfl rfl (by rw [reading_eq rfl rfl rfl]; exact fun h => h) rfl

theorem Idle.completed (cfg) (y : SessCh) (id err) : Idle true y.s (y.completed cfg id err).s := by
  unfold SessCh.completed
  split
  · split
    · split
      · refine (Idle.finish y id).trans ((Idle.enableStdin _).trans ?_)
        exact Idle.answer { y.finish id with s := (y.finish id).s.enableStdin } _
      · exact (Idle.finish y id).trans (.refuse _ _ _)
    · exact .refl _ _
  · exact .refl _ _

theorem Idle.completed_ok {b} (cfg) (y : SessCh) (id) : Idle b y.s (y.completed cfg id none).s := by
  unfold SessCh.completed
  split
  · split
    · refine (Idle.finish y id).trans ((Idle.enableStdin _).trans ?_)
      exact Idle.answer { y.finish id with s := (y.finish id).s.enableStdin } _
    · exact .refl _ _
  · exact .refl _ _

theorem Idle.exited {b} (y : SessCh) : Idle b y.s y.exited.s := by
  unfold SessCh.exited
  split
  · exact .refl _ _
  · simp only
    have h1 : Idle b y.s { y.s with child := none, log := y.s.log ++ [SessEntry.exited] } :=
      ⟨rfl, rfl, by rw [reading_eq rfl rfl rfl]; exact .inl, ⟨_, rfl, by simp [sessIdle]⟩⟩
    exact (h1.trans ((Idle.closeStdin _).trans (.emit _ rfl))).trans (Idle.closeIfInactive ⟨_, y.buf, y.stop⟩)

theorem Idle.endOfSource {b} (y : SessCh) (f) : Idle b y.s (y.endOfSource f).s := by
  unfold SessCh.endOfSource
  refine (Idle.setSource y.s f none (by simp)).trans (Idle.trans ?_ (Idle.maybeSendEof _))
  exact Idle.quiet rfl rfl (by rw [reading_eq rfl rfl rfl]; exact id) rfl

/-! ## Requests and processes -/

theorem Idle.execGit (y : SessCh) (service arg) : Idle true y.s (y.execGit service arg).s := by
  unfold SessCh.execGit
  split
  · exact .answer _ _
  · exact .suspend _ _

theorem Idle.execOther (cfg) (y : SessCh) (cmd) : Idle true y.s (y.execOther cfg cmd).s := by
  unfold SessCh.execOther
  split
  · exact .execGit _ _ _
  · split
    · exact .execGit _ _ _
    · exact .refuse _ _ _

theorem Idle.exec (cfg) (y : SessCh) (cmd) : Idle true y.s (y.exec cfg cmd).s := by
  unfold SessCh.exec
  cases cfg.exec with
  | true => cases cmd <;> exact .suspend _ _
  | false =>
    cases cmd with
    | none => exact .refuse _ _ _
    | some cmd =>
      simp only [cond_false]
      split
      · exact .suspend _ _
      · exact .refuse _ _ _
      · exact .execOther _ _ _

theorem Idle.setEnv {b} {s s' : Sess} {name value} (h : s.setEnv name value = some s') : Idle b s s' := by
  unfold Sess.setEnv at h
  split at h
  · simp at h
  · simp only [Option.some.injEq] at h
    subst h
    exact Idle.quiet rfl rfl (by rw [reading_eq rfl rfl rfl]; exact id) rfl

theorem Idle.ptyReq (cfg) (y : SessCh) (data ok) : Idle true y.s (y.ptyReq cfg data ok).s := by
  unfold SessCh.ptyReq
  cases !cfg.exec || y.s.restr.noTerminal
  · simp only [cond_false]
    split
    · exact .refl _ _
    · cases ok
      · exact .refl _ _
      · simp only [Bool.not_true, cond_false]
        split
        · exact .refl _ _
        · rename_i s' hs
          refine Idle.trans ?_ ((Idle.setEnv hs).trans (.answer ⟨s', y.buf, y.stop⟩ _))
          refine ⟨rfl, rfl, ?_, ⟨_, rfl, by simp [sessIdle]⟩⟩
          unfold Sess.reading
          simp only [show srcRd (some {}) = false from rfl, Bool.or_false, Bool.or_eq_true]
          exact fun h => .inl (h.imp_right .inl)
  · exact .answer _ _

theorem Idle.lateRequest (y : SessCh) (name data ok) : Idle true y.s (y.lateRequest name data ok).s := by
  unfold SessCh.lateRequest
  split
  · cases !y.s.tty.isSome
    · simp only [cond_false]
      split
      · exact .refl _ _
      · cases ok
        · exact .refl _ _
        · exact .answer _ _
    · exact .answer _ _
  · exact .answer _ _

theorem Idle.request (cfg) (y : SessCh) (name data ok) : Idle true y.s (y.request cfg name data ok).s := by
  unfold SessCh.request
  cases y.s.child.isSome
  · simp only [cond_false]
    split
    · unfold SessCh.execRequest
      split
      · exact .refl _ _
      · split
        · exact .refuse _ _ _
        · exact .exec _ _ _
    · split
      · exact .exec _ _ _
      · split
        · unfold SessCh.subsystem
          split
          · exact .refl _ _
          · split
            · cases cfg.sftp
              · exact .answer _ _
              · simp only [Bool.not_true, cond_false]
                cases y.s.tty.isSome
                · exact .suspend _ _
                · exact .answer _ _
            · exact .answer _ _
        · split
          · exact .ptyReq _ _ _ _
          · split
            · unfold SessCh.envRequest
              cases cfg.exec
              · exact .answer _ _
              · simp only [Bool.not_true, cond_false]
                split
                · exact .refl _ _
                · split
                  · exact .refl _ _
                  · rename_i s' hs
                    exact (Idle.setEnv hs).trans (.answer ⟨s', y.buf, y.stop⟩ _)
            · split
              · refine Idle.trans ?_ (Idle.answer _ _)
                exact Idle.quiet rfl rfl (by rw [reading_eq rfl rfl rfl]; exact id) rfl
              · exact .answer _ _
  · exact .lateRequest _ _ _ _

theorem Idle.spawn (cfg) (s : Sess) (program original terminal) : Idle true s (s.spawn cfg program original terminal) := by
  unfold Sess.spawn
  simp only
  refine (Idle.maybeScheduleRead s).trans ?_
  generalize ({ program := program, original := original, env := s.maybeScheduleRead.env, terminal := terminal,
                mounts := _ } : Proc) = p
  refine Idle.trans (Idle.emit (e := .started p) s.maybeScheduleRead rfl) ((Idle.dropChild _).trans ?_)
  exact Idle.quiet rfl rfl (by rw [reading_eq rfl rfl rfl]; exact id) rfl

theorem Idle.launch (cfg) (y : SessCh) (id program original terminal r) :
    Idle true y.s (y.launch cfg id program original terminal r).s := by
  unfold SessCh.launch
  split
  · refine (Idle.finish y id).trans ((Idle.maybeScheduleRead _).trans ?_)
    exact Idle.refuse ⟨(y.finish id).s.maybeScheduleRead, y.buf, y.stop⟩ _ _
  · refine (Idle.finish y id).trans ((Idle.spawn cfg _ program original terminal).trans ?_)
    exact Idle.quiet rfl rfl (by rw [reading_eq rfl rfl rfl]; exact fun h => h) rfl

theorem Idle.resumeExec (cfg) (y : SessCh) (id cmd r) : Idle true y.s (y.resumeExec cfg id cmd r).s := by
  unfold SessCh.resumeExec
  split
  · exact .refl _ _
  · split
    · exact .refl _ _
    · rename_i s hs
      exact (Idle.prepareExec hs).trans (.launch cfg ⟨s, y.buf, y.stop⟩ _ _ _ _ _)

theorem Idle.resumeService (cfg) (y : SessCh) (id program r) : Idle true y.s (y.resumeService cfg id program r).s := by
  unfold SessCh.resumeService
  split
  · exact (Idle.finish y id).trans (.refuse _ _ _)
  · split
    · exact .refl _ _
    · rename_i s hs
      refine (Idle.preparePipes hs).trans ?_
      split
      · exact (Idle.finish ⟨s, y.buf, y.stop⟩ id).trans (.refuse _ _ _)
      · exact .launch cfg ⟨s, y.buf, y.stop⟩ _ _ _ _ _

theorem Idle.resumeSftp (cfg) (y : SessCh) (id r) : Idle true y.s (y.resumeSftp cfg id r).s := by
  unfold SessCh.resumeSftp
  split
  · exact .refl _ _
  · cases y.s.tty.isSome && !cfg.ndebug
    · simp only [cond_false]
      split
      · exact .refl _ _
      · rename_i s hs
        exact (Idle.preparePipes hs).trans (.launch cfg ⟨s, y.buf, y.stop⟩ _ _ _ _ _)
    · exact .refl _ _

theorem Idle.enqueued (cfg) (y : SessCh) (id r) : Idle true y.s (y.enqueued cfg id r).s := by
  unfold SessCh.enqueued
  split
  · exact .resumeExec _ _ _ _ _
  · exact .resumeService _ _ _ _ _
  · exact .resumeService _ _ _ _ _
  · exact .resumeSftp _ _ _ _
  · exact .refl _ _

/-! ## Windows and data -/

theorem sessIo_snoc (log : List SessEntry) (e) : sessIo (log ++ [e]) = sessIo log ++ e.toIo.toList := by
  simp [sessIo, List.filterMap_append]
  cases h : e.toIo <;> simp [h]

theorem total_append (f : IoEntry → Nat) (a b : List IoEntry) : total f (a ++ b) = total f a + total f b := by
  simp [total]

theorem clientData_append (a b : List SessEntry) : clientData (a ++ b) = clientData a ++ clientData b := by simp [clientData]
theorem inputOrLost_append (a b : List SessEntry) : inputOrLost (a ++ b) = inputOrLost a ++ inputOrLost b := by simp [inputOrLost]
theorem inputBytes_append (a b : List SessEntry) : inputBytes (a ++ b) = inputBytes a ++ inputBytes b := by simp [inputBytes]
theorem sessIo_append (a b : List SessEntry) : sessIo (a ++ b) = sessIo a ++ sessIo b := by simp [sessIo]

theorem idle_entries {l : List SessEntry} (h : ∀ e ∈ l, sessIdle e = true) :
    clientData l = [] ∧ inputOrLost l = [] ∧ inputBytes l = [] ∧ ∀ e ∈ sessIo l, e = .tx .eof ∨ e = .tx .close ∨ ∃ w, e = .tx (.request w) := by
  induction l with
  | nil => simp [clientData, inputOrLost, inputBytes, sessIo]
  | cons e l ih =>
    obtain ⟨h1, h2, h3, h4⟩ := ih fun x hx => h x (List.mem_cons_of_mem _ hx)
    have he := h e List.mem_cons_self
    rw [← List.singleton_append, clientData_append, inputOrLost_append, inputBytes_append, sessIo_append, h1, h2, h3]
    have key : ∀ x ∈ sessIo [e], x = .tx .eof ∨ x = .tx .close ∨ ∃ w, x = .tx (.request w) := by
      cases e with
      | io e =>
        cases e with
        | tx m => cases m <;> simp [sessIdle, sessIo, SessEntry.toIo] at he ⊢
        | _ => simp [sessIdle] at he
      | _ => simp [sessIdle, sessIo, SessEntry.toIo] at he ⊢
    refine ⟨?_, ?_, ?_, fun x hx => (List.mem_append.mp hx).elim (key x) (h4 x)⟩
    all_goals
      cases e with
      | io e => rfl
      | _ => first | rfl | simp [sessIdle] at he

theorem total_idle {f : IoEntry → Nat} (hf : ∀ e, (e = .tx .eof ∨ e = .tx .close ∨ ∃ w, e = .tx (.request w)) → f e = 0)
    {l : List SessEntry} (h : ∀ e ∈ l, sessIdle e = true) : total f (sessIo l) = 0 := by
  have h4 := (idle_entries h).2.2.2
  generalize sessIo l = m at h4
  induction m with
  | nil => rfl
  | cons e m ih =>
    have := hf e (h4 e List.mem_cons_self)
    have ih := ih fun x hx => h4 x (List.mem_cons_of_mem _ hx)
    simp only [total, List.map_cons, List.sum_cons] at ih ⊢
    omega

/-- Both windows, and the bytes which pass the channel. -/
structure SessAcc (w : Nat) (s : Sess) (b : Buf) : Prop where
  send : total IoEntry.sentBytes (sessIo s.log) + s.sendWin = w + total IoEntry.granted (sessIo s.log)
  recv : s.recvWin + (inputBytes s.log).length + total extBytes (sessIo s.log) =
    RECEIVE_WINDOW + total IoEntry.weGranted (sessIo s.log)
  le : s.recvWin ≤ RECEIVE_WINDOW
  got : clientData s.log = bufBytes b.log
  gotN : total IoEntry.gotBytes (sessIo s.log) = (clientData s.log).length + total extBytes (sessIo s.log)
  took : inputOrLost s.log = taken b.log
  rd : s.reading = true → 0 < s.sendWin

theorem SessAcc.idle {w s s' b} (h : SessAcc w s b) (g : Idle true s s') : SessAcc w s' b := by
  obtain ⟨l, hl, hp⟩ := g.log
  obtain ⟨h1, h2, h3, _⟩ := idle_entries hp
  have t1 : total IoEntry.sentBytes (sessIo l) = 0 := total_idle (by rintro e (rfl | rfl | ⟨_, rfl⟩) <;> rfl) hp
  have t2 : total IoEntry.granted (sessIo l) = 0 := total_idle (by rintro e (rfl | rfl | ⟨_, rfl⟩) <;> rfl) hp
  have t3 : total IoEntry.weGranted (sessIo l) = 0 := total_idle (by rintro e (rfl | rfl | ⟨_, rfl⟩) <;> rfl) hp
  have t4 : total IoEntry.gotBytes (sessIo l) = 0 := total_idle (by rintro e (rfl | rfl | ⟨_, rfl⟩) <;> rfl) hp
  have t5 : total extBytes (sessIo l) = 0 := total_idle (by rintro e (rfl | rfl | ⟨_, rfl⟩) <;> rfl) hp
  obtain ⟨a1, a2, a3, a4, a5, a6, a7⟩ := h
  constructor
  · rw [hl, sessIo_append, total_append, total_append, t1, t2, g.sendWin]; omega
  · rw [hl, sessIo_append, total_append, total_append, inputBytes_append, h3, t3, t5, g.recvWin, List.append_nil]; omega
  · rw [g.recvWin]; exact a3
  · rw [hl, clientData_append, h1, List.append_nil]; exact a4
  · rw [hl, sessIo_append, total_append, total_append, clientData_append, h1, t4, t5, List.append_nil]; omega
  · rw [hl, inputOrLost_append, h2, List.append_nil]; exact a6
  · intro hr
    rw [g.sendWin]
    rcases g.rd hr with hr | hr
    · exact a7 hr
    · exact hr.2


theorem SessAcc.closeStdin {w s b} (h : SessAcc w s b) : SessAcc w s.closeStdin b := h.idle (.closeStdin s)

theorem SessAcc.logs {w s b b'} (h : SessAcc w s b) (h1 : bufBytes b'.log = bufBytes b.log) (h2 : taken b'.log = taken b.log) :
    SessAcc w s b' := ⟨h.send, h.recv, h.le, by rw [h1]; exact h.got, h.gotN, by rw [h2]; exact h.took, h.rd⟩

theorem wroteInput_facts (s : Sess) (payload n) : (s.wroteInput payload n).sendWin = s.sendWin ∧
    (s.wroteInput payload n).recvWin = s.recvWin ∧ (s.wroteInput payload n).reading = s.reading ∧
    (s.wroteInput payload n).log = s.log ++ [.input (payload.take n)] := by
  unfold Sess.wroteInput Sess.scheduleWrite
  split
  · split <;> exact ⟨rfl, rfl, reading_eq rfl rfl rfl, rfl⟩
  · exact ⟨rfl, rfl, reading_eq rfl rfl rfl, rfl⟩

theorem SessAcc.wrote {w s s' b payload n} (h : SessAcc w s b) (hn : n ≤ payload.length)
    (hc : (s.wroteInput payload n).consume n = some s') (q) :
    SessAcc w s' { b.emit (.took (payload.take n)) with queue := q } := by
  obtain ⟨f1, f2, f3, f4⟩ := wroteInput_facts s payload n
  obtain ⟨a1, a2, a3, a4, a5, a6, a7⟩ := h
  have htl : (payload.take n).length = n := by simp only [List.length_take]; omega
  have e1 : sessIo [SessEntry.input (payload.take n)] = [] := rfl
  have e2 : clientData [SessEntry.input (payload.take n)] = [] := rfl
  have e3 : inputBytes [SessEntry.input (payload.take n)] = payload.take n := by simp [inputBytes]
  have e4 : inputOrLost [SessEntry.input (payload.take n)] = payload.take n := by simp [inputOrLost]
  unfold Sess.consume at hc
  split at hc
  · rename_i hle
    split at hc
    · rename_i hhalf
      generalize hk : RECEIVE_WINDOW - ((s.wroteInput payload n).recvWin - n) = k at hc
      have i1 : sessIo [SessEntry.io (.tx (.adjust k))] = [.tx (.adjust k)] := rfl
      have i2 : clientData [SessEntry.io (.tx (.adjust k))] = [] := rfl
      have i3 : inputBytes [SessEntry.io (.tx (.adjust k))] = [] := rfl
      have i4 : inputOrLost [SessEntry.io (.tx (.adjust k))] = [] := rfl
      simp only [Option.some.injEq] at hc
      subst hc
      constructor
      · simp only [Sess.emit, f4, sessIo_append, e1, i1, total_append, List.append_nil, f1]
        simp only [total, List.map_cons, List.map_nil, IoEntry.sentBytes, IoEntry.granted, List.sum_cons, List.sum_nil] at *
        omega
      · simp only [Sess.emit, f4, sessIo_append, e1, i1, total_append, List.append_nil, inputBytes_append, e3, i3, List.length_append, htl]
        simp only [total, List.map_cons, List.map_nil, extBytes, IoEntry.weGranted, List.sum_cons, List.sum_nil] at *
        rw [f2] at hk hle
        omega
      · exact Nat.le_refl _
      · simp only [Sess.emit, Buf.emit, f4, clientData_append, e2, i2, List.append_nil, bufBytes_snoc]; exact a4
      · simp only [Sess.emit, f4, sessIo_append, e1, i1, total_append, List.append_nil, clientData_append, e2, i2]
        simp only [total, List.map_cons, List.map_nil, extBytes, IoEntry.gotBytes, List.sum_cons, List.sum_nil] at *
        omega
      · simp only [Sess.emit, Buf.emit, f4, inputOrLost_append, e4, i4, List.append_nil, taken_snoc, a6]
      · intro hr
        have hr : (s.wroteInput payload n).reading = true := hr
        rw [f3] at hr
        simp only [Sess.emit, f1]; exact a7 hr
    · simp only [Option.some.injEq] at hc
      subst hc
      constructor
      · simp only [f4, sessIo_append, e1, List.append_nil, f1]; exact a1
      · simp only [f4, sessIo_append, e1, List.append_nil, inputBytes_append, e3, List.length_append, htl]
        rw [f2] at hle ⊢
        omega
      · simp only; rw [f2]; omega
      · simp only [Buf.emit, f4, clientData_append, e2, List.append_nil, bufBytes_snoc]; exact a4
      · simp only [f4, sessIo_append, e1, List.append_nil, clientData_append, e2]; exact a5
      · simp only [Buf.emit, f4, inputOrLost_append, e4, taken_snoc, a6]
      · intro hr
        have hr : (s.wroteInput payload n).reading = true := hr
        rw [f3] at hr
        simp only [f1]; exact a7 hr
  · simp at hc

theorem SessAcc.lost {w s b} (h : SessAcc w s b) (payload : Bytes) (q) :
    SessAcc w (s.emit (.inputLost payload)) { b.emit (.took (payload.take payload.length)) with queue := q } := by
  obtain ⟨a1, a2, a3, a4, a5, a6, a7⟩ := h
  have e1 : sessIo [SessEntry.inputLost payload] = [] := rfl
  have e2 : clientData [SessEntry.inputLost payload] = [] := rfl
  have e3 : inputBytes [SessEntry.inputLost payload] = [] := rfl
  have e4 : inputOrLost [SessEntry.inputLost payload] = payload := by simp [inputOrLost]
  constructor
  · simp only [Sess.emit, sessIo_append, e1, List.append_nil]; exact a1
  · simp only [Sess.emit, sessIo_append, e1, List.append_nil, inputBytes_append, e3]; exact a2
  · exact a3
  · simp only [Sess.emit, Buf.emit, clientData_append, e2, List.append_nil, bufBytes_snoc]; exact a4
  · simp only [Sess.emit, sessIo_append, e1, List.append_nil, clientData_append, e2]; exact a5
  · simp only [Sess.emit, Buf.emit, inputOrLost_append, e4, taken_snoc, List.take_length, a6]
  · exact a7

theorem SessAcc.keeps (w : Nat) : Keeps Sess.ops (SessAcc w) where
  eof := by
    intro g b q h
    exact h.closeStdin.logs (by simp [Buf.emit, bufBytes_snoc]) (by simp [Buf.emit, taken_snoc])
  stop := by
    intro g b c k e g' h hd
    simp only [Sess.ops] at hd
    cases hen : g.stdinEnabled
    · rw [hen] at hd; simp at hd
    · rw [hen] at hd
      simp only [Bool.not_true, cond_false] at hd
      cases hno : !g.stdin.isSome && !g.tty.isSome
      · rw [hno] at hd
        simp only [cond_false] at hd
        cases k with
        | wouldBlock => simp [Sess.writeInput] at hd
        | failed => simp [Sess.writeInput] at hd
        | wrote m =>
          simp only [Sess.writeInput] at hd
          split at hd
          · simp at hd; rw [← hd.1]; exact h
          · simp at hd
      · rw [hno] at hd; simp at hd
  data := by
    intro g b c k n g' q h hd
    simp only [Sess.ops] at hd
    cases hen : g.stdinEnabled
    · rw [hen] at hd
      simp only [Bool.not_false, cond_true, Prod.mk.injEq, Except.ok.injEq] at hd
      obtain ⟨rfl, rfl⟩ := hd
      refine SessAcc.idle (s := g) ?_ (Idle.quiet rfl rfl (by rw [reading_eq rfl rfl rfl]; exact id) rfl)
      exact h.logs (by simp [Buf.emit, bufBytes_snoc]) (by simp [Buf.emit, taken_snoc])
    · rw [hen] at hd
      simp only [Bool.not_true, cond_false] at hd
      cases hno : !g.stdin.isSome && !g.tty.isSome
      · rw [hno] at hd
        simp only [cond_false] at hd
        cases k with
        | wouldBlock =>
          simp only [Sess.writeInput, Prod.mk.injEq, Except.ok.injEq] at hd
          obtain ⟨rfl, rfl⟩ := hd
          refine SessAcc.idle (s := g) ?_ (.scheduleWrite g)
          exact h.logs (by simp [Buf.emit, bufBytes_snoc]) (by simp [Buf.emit, taken_snoc])
        | failed =>
          simp only [Sess.writeInput, Prod.mk.injEq, Except.ok.injEq] at hd
          obtain ⟨rfl, rfl⟩ := hd
          exact h.closeStdin.lost c q
        | wrote m =>
          simp only [Sess.writeInput] at hd
          split at hd
          · simp at hd
          · rename_i s' hc
            simp only [Prod.mk.injEq, Except.ok.injEq] at hd
            obtain ⟨rfl, rfl⟩ := hd
            exact h.wrote (Nat.min_le_right _ _) hc q
      · rw [hno] at hd
        simp only [cond_true, Prod.mk.injEq, Except.ok.injEq] at hd
        obtain ⟨rfl, rfl⟩ := hd
        exact h.lost c q

/-! ### Over a whole run -/

theorem SessAcc.sendFrom {w s b f x len} (h : SessAcc w s b) (hx : s.source f = some x)
    (hlen : len ≤ s.sendWin) : SessAcc w (s.sendFrom f x (x.content.take len)) b := by
  obtain ⟨a1, a2, a3, a4, a5, a6, a7⟩ := h
  generalize hbs : x.content.take len = bs
  have hle : bs.length ≤ s.sendWin := by rw [← hbs]; simp only [List.length_take]; omega
  generalize hs1 : s.setSource f (some { x with content := x.content.drop bs.length }) = s1
  have k1 : s1.sendWin = s.sendWin := by rw [← hs1]; cases f <;> rfl
  have k2 : s1.recvWin = s.recvWin := by rw [← hs1]; cases f <;> rfl
  have k3 : s1.log = s.log := by rw [← hs1]; cases f <;> rfl
  have k4 : s1.reading = true → s.reading = true := by
    have := (Idle.setSource (b := false) s f (some { x with content := x.content.drop bs.length }) (by
      intro y hy hr
      simp only [Option.some.injEq] at hy
      subst hy
      exact ⟨x, hx, hr⟩)).rd
    rw [hs1] at this
    exact fun h => (this h).resolve_right (by simp)
  have e2 : clientData [SessEntry.sent f bs] = [] := rfl
  have e3 : inputBytes [SessEntry.sent f bs] = [] := rfl
  have e4 : inputOrLost [SessEntry.sent f bs] = [] := rfl
  have t1 : total IoEntry.sentBytes (sessIo [SessEntry.sent f bs]) = bs.length := by cases f <;> simp [sessIo, SessEntry.toIo, total, IoEntry.sentBytes]
  have t2 : total IoEntry.granted (sessIo [SessEntry.sent f bs]) = 0 := by cases f <;> rfl
  have t3 : total IoEntry.weGranted (sessIo [SessEntry.sent f bs]) = 0 := by cases f <;> rfl
  have t4 : total IoEntry.gotBytes (sessIo [SessEntry.sent f bs]) = 0 := by cases f <;> rfl
  have t5 : total extBytes (sessIo [SessEntry.sent f bs]) = 0 := by cases f <;> rfl
  unfold Sess.sendFrom
  simp only [hs1]
  unfold Sess.cancelIfExhausted
  split
  · constructor
    · simp only [Sess.cancelRead, sessIo_append, total_append, k1, k3, t1, t2]; omega
    · simp only [Sess.cancelRead, sessIo_append, total_append, k2, k3, t3, t5, inputBytes_append, e3, List.append_nil]; omega
    · simp only [Sess.cancelRead, k2]; exact a3
    · simp only [Sess.cancelRead, k3, clientData_append, e2, List.append_nil]; exact a4
    · simp only [Sess.cancelRead, k3, sessIo_append, total_append, t4, t5, clientData_append, e2, List.append_nil]; omega
    · simp only [Sess.cancelRead, k3, inputOrLost_append, e4, List.append_nil]; exact a6
    · rw [cancelRead_reading]; simp
  · rename_i hw
    simp only at hw
    constructor
    · simp only [sessIo_append, total_append, k1, k3, t1, t2]; omega
    · simp only [sessIo_append, total_append, k2, k3, t3, t5, inputBytes_append, e3, List.append_nil]; omega
    · simp only [k2]; exact a3
    · simp only [k3, clientData_append, e2, List.append_nil]; exact a4
    · simp only [k3, sessIo_append, total_append, t4, t5, clientData_append, e2, List.append_nil]; omega
    · simp only [k3, inputOrLost_append, e4, List.append_nil]; exact a6
    · intro _; simp only; omega

/-! ### Functions which do not touch the buffer -/

theorem closeIfInactive_buf (y : SessCh) : y.closeIfInactive.buf = y.buf := by
  unfold SessCh.closeIfInactive
  cases !(y.s.stdout.isSome || y.s.stderr.isSome || y.s.tty.isSome || y.s.child.isSome) <;> rfl

theorem maybeSendEof_buf (y : SessCh) : y.maybeSendEof.buf = y.buf := by
  unfold SessCh.maybeSendEof
  cases y.s.stdout.isSome || y.s.stderr.isSome || y.s.tty.isSome
  · exact closeIfInactive_buf _
  · rfl

theorem refuse_buf (y : SessCh) (v text) : (y.refuse v text).buf = y.buf := by
  unfold SessCh.refuse
  cases v <;> rfl

theorem endOfSource_buf (y : SessCh) (f) : (y.endOfSource f).buf = y.buf := maybeSendEof_buf _

theorem readSource_buf (cfg) (y : SessCh) (f x len) : (y.readSource cfg f x len).buf = y.buf := by
  unfold SessCh.readSource
  simp only
  split
  · cases cfg.ndebug
    · rfl
    · exact endOfSource_buf _ _
  · split
    · exact endOfSource_buf _ _
    · rfl

theorem execGit_buf (y : SessCh) (service arg) : (y.execGit service arg).buf = y.buf := by
  unfold SessCh.execGit
  split <;> rfl

theorem execOther_buf (cfg) (y : SessCh) (cmd) : (y.execOther cfg cmd).buf = y.buf := by
  unfold SessCh.execOther
  split
  · exact execGit_buf _ _ _
  · split
    · exact execGit_buf _ _ _
    · exact refuse_buf _ _ _

theorem exec_buf (cfg) (y : SessCh) (cmd) : (y.exec cfg cmd).buf = y.buf := by
  unfold SessCh.exec
  cases cfg.exec with
  | true => cases cmd <;> rfl
  | false =>
    cases cmd with
    | none => exact refuse_buf _ _ _
    | some cmd =>
      simp only [cond_false]
      split
      · rfl
      · exact refuse_buf _ _ _
      · exact execOther_buf _ _ _

theorem ptyReq_buf (cfg) (y : SessCh) (data ok) : (y.ptyReq cfg data ok).buf = y.buf := by
  unfold SessCh.ptyReq
  cases !cfg.exec || y.s.restr.noTerminal
  · simp only [cond_false]
    split
    · rfl
    · cases ok
      · rfl
      · simp only [Bool.not_true, cond_false]
        split <;> rfl
  · rfl

theorem lateRequest_buf (y : SessCh) (name data ok) : (y.lateRequest name data ok).buf = y.buf := by
  unfold SessCh.lateRequest
  split
  · cases !y.s.tty.isSome
    · simp only [cond_false]
      split
      · rfl
      · cases ok <;> rfl
    · rfl
  · rfl

theorem request_buf (cfg) (y : SessCh) (name data ok) : (y.request cfg name data ok).buf = y.buf := by
  unfold SessCh.request
  cases y.s.child.isSome
  · simp only [cond_false]
    split
    · unfold SessCh.execRequest
      split
      · rfl
      · split
        · exact refuse_buf _ _ _
        · exact exec_buf _ _ _
    · split
      · exact exec_buf _ _ _
      · split
        · unfold SessCh.subsystem
          split
          · rfl
          · split
            · cases cfg.sftp
              · rfl
              · simp only [Bool.not_true, cond_false]
                cases y.s.tty.isSome <;> rfl
            · rfl
        · split
          · exact ptyReq_buf _ _ _ _
          · split
            · unfold SessCh.envRequest
              cases cfg.exec
              · rfl
              · simp only [Bool.not_true, cond_false]
                split
                · rfl
                · split <;> rfl
            · split <;> rfl
  · exact lateRequest_buf _ _ _ _

theorem launch_buf (cfg) (y : SessCh) (id program original terminal r) :
    (y.launch cfg id program original terminal r).buf = y.buf := by
  unfold SessCh.launch
  split
  · exact refuse_buf _ _ _
  · rfl

theorem enqueued_buf (cfg) (y : SessCh) (id r) : (y.enqueued cfg id r).buf = y.buf := by
  have hserv : ∀ program, (y.resumeService cfg id program r).buf = y.buf := by
    intro program
    unfold SessCh.resumeService
    split
    · exact refuse_buf _ _ _
    · split
      · rfl
      · split
        · exact refuse_buf _ _ _
        · exact launch_buf _ _ _ _ _ _ _
  unfold SessCh.enqueued
  split
  · unfold SessCh.resumeExec
    split
    · rfl
    · split
      · rfl
      · exact launch_buf _ _ _ _ _ _ _
  · exact hserv _
  · exact hserv _
  · unfold SessCh.resumeSftp
    split
    · rfl
    · cases y.s.tty.isSome && !cfg.ndebug
      · simp only [cond_false]
        split
        · rfl
        · exact launch_buf _ _ _ _ _ _ _
      · rfl
  · rfl

theorem completed_buf (cfg) (y : SessCh) (id err) : (y.completed cfg id err).buf = y.buf := by
  unfold SessCh.completed
  split
  · split
    · split
      · rfl
      · exact refuse_buf _ _ _
    · rfl
  · rfl

theorem exited_buf (y : SessCh) : y.exited.buf = y.buf := by
  unfold SessCh.exited
  split
  · rfl
  · exact closeIfInactive_buf _

/-! ### All events -/

def SessAccCh (w : Nat) (y : SessCh) : Prop := SessAcc w y.s y.buf

theorem SessAccCh.idle {w} {y y' : SessCh} (h : SessAccCh w y) (g : Idle true y.s y'.s) (hb : y'.buf = y.buf) : SessAccCh w y' := by
  unfold SessAccCh
  rw [hb]
  exact SessAcc.idle h g

theorem SessAccCh.readSource {cfg w y f x len} (h : SessAccCh w y) (hx : y.s.source f = some x) :
    SessAccCh w (SessCh.readSource cfg y f x len) := by
  unfold SessAccCh
  rw [readSource_buf]
  unfold SessCh.readSource
  simp only
  split
  · cases cfg.ndebug
    · exact h
    · exact SessAcc.idle h (.endOfSource y f)
  · split
    · exact SessAcc.idle h (.endOfSource y f)
    · exact SessAcc.sendFrom h hx (by omega)

theorem SessAccCh.ofBuf {w} {r : Sess × Buf × Option BufStop} (h : SessAcc w r.1 r.2.1) : SessAccCh w (SessCh.ofBuf r) := h

/-- An entry about the channel. -/
theorem SessAcc.io {w s b} (h : SessAcc w s b) {e : IoEntry} (h1 : e.sentBytes = 0) (h2 : e.granted = 0) (h3 : e.weGranted = 0)
    (h4 : extBytes e = 0) (h5 : e.gotBytes = 0) : SessAcc w (s.emit (.io e)) b := by
  obtain ⟨a1, a2, a3, a4, a5, a6, a7⟩ := h
  have e1 : ∀ f : IoEntry → Nat, f e = 0 → total f (sessIo (s.log ++ [SessEntry.io e])) = total f (sessIo s.log) := by
    intro f hf
    rw [sessIo_append, total_append]
    simp [sessIo, SessEntry.toIo, total, hf]
  have e2 : clientData [SessEntry.io e] = [] := rfl
  have e3 : inputBytes [SessEntry.io e] = [] := rfl
  have e4 : inputOrLost [SessEntry.io e] = [] := rfl
  constructor
  · simp only [Sess.emit, e1 _ h1, e1 _ h2]; exact a1
  · simp only [Sess.emit, e1 _ h3, e1 _ h4, inputBytes_append, e3, List.append_nil]; exact a2
  · exact a3
  · simp only [Sess.emit, clientData_append, e2, List.append_nil]; exact a4
  · simp only [Sess.emit, e1 _ h4, e1 _ h5, clientData_append, e2, List.append_nil]; exact a5
  · simp only [Sess.emit, inputOrLost_append, e4, List.append_nil]; exact a6
  · exact a7

theorem SessAcc.adjust {w s b} (h : SessAcc w s b) (n : Nat) (hn : n ≠ 0) :
    SessAcc w { (if (s.emit (.io (.rx (.adjust n)))).sendWin = 0 then (s.emit (.io (.rx (.adjust n)))).scheduleRead
      else s.emit (.io (.rx (.adjust n)))) with
      sendWin := (if (s.emit (.io (.rx (.adjust n)))).sendWin = 0 then (s.emit (.io (.rx (.adjust n)))).scheduleRead
      else s.emit (.io (.rx (.adjust n)))).sendWin + n } b := by
  obtain ⟨a1, a2, a3, a4, a5, a6, a7⟩ := h
  have key : ∀ s1 : Sess, s1.sendWin = s.sendWin → s1.recvWin = s.recvWin → s1.log = s.log ++ [.io (.rx (.adjust n))] →
      SessAcc w { s1 with sendWin := s1.sendWin + n } b := by
    intro s1 k1 k2 k3
    have e2 : clientData [SessEntry.io (.rx (.adjust n))] = [] := rfl
    have e3 : inputBytes [SessEntry.io (.rx (.adjust n))] = [] := rfl
    have e4 : inputOrLost [SessEntry.io (.rx (.adjust n))] = [] := rfl
    have e1 : ∀ f : IoEntry → Nat, total f (sessIo (s.log ++ [SessEntry.io (.rx (.adjust n))])) = total f (sessIo s.log) + f (.rx (.adjust n)) := by
      intro f
      rw [sessIo_append, total_append]
      simp [sessIo, SessEntry.toIo, total]
    constructor
    · simp only [k1, k3, e1, IoEntry.sentBytes, IoEntry.granted]; omega
    · simp only [k2, k3, e1, inputBytes_append, e3, List.append_nil, extBytes, IoEntry.weGranted]; omega
    · simp only [k2]; exact a3
    · simp only [k3, clientData_append, e2, List.append_nil]; exact a4
    · simp only [k3, e1, clientData_append, e2, List.append_nil, extBytes, IoEntry.gotBytes]; omega
    · simp only [k3, inputOrLost_append, e4, List.append_nil]; exact a6
    · intro _; simp only; omega
  apply key
  · split <;> rfl
  · split <;> rfl
  · split <;> rfl

theorem SessAccCh.handle {w y} (h : SessAccCh w y) (cfg ev) : SessAccCh w (SessCh.handle cfg y ev) := by
  cases ev with
  | request name data ok =>
    simp only [SessCh.handle]
    refine SessAccCh.idle (y := { y with s := y.s.emit (.asked name data) }) ?_ (.request _ _ _ _ _) (request_buf _ _ _ _ _)
    exact h.idle (.emit _ rfl) rfl
  | enqueued id r => exact h.idle (.enqueued _ _ _ _) (enqueued_buf _ _ _ _)
  | completed id err => exact h.idle (.completed _ _ _ _) (completed_buf _ _ _ _)
  | exited => exact h.idle (.exited _) (exited_buf _)
  | restricted r =>
    refine h.idle (y' := { y with s := { y.s with restr := r, log := y.s.log ++ [.restricted r] } }) ?_ rfl
    exact ⟨rfl, rfl, by rw [reading_eq rfl rfl rfl]; exact .inl, ⟨_, rfl, by simp [sessIdle]⟩⟩
  | recvData bs k =>
    simp only [SessCh.handle]
    split
    · exact h
    · refine SessAccCh.ofBuf ((SessAcc.keeps w).onData ?_ fun h => ⟨h.send, h.recv, h.le, h.got, h.gotN, h.took, h.rd⟩)
      obtain ⟨a1, a2, a3, a4, a5, a6, a7⟩ := h
      have e1 : ∀ f : IoEntry → Nat, total f (sessIo (y.s.log ++ [SessEntry.data bs])) = total f (sessIo y.s.log) + f (.rx (.data bs.length)) := by
        intro f
        rw [sessIo_append, total_append]
        simp [sessIo, SessEntry.toIo, total]
      have e2 : clientData [SessEntry.data bs] = bs := by simp [clientData]
      have e3 : inputBytes [SessEntry.data bs] = [] := rfl
      have e4 : inputOrLost [SessEntry.data bs] = [] := rfl
      constructor
      · simp only [Sess.emit, e1, IoEntry.sentBytes, IoEntry.granted]; omega
      · simp only [Sess.emit, e1, inputBytes_append, e3, List.append_nil, extBytes, IoEntry.weGranted]; omega
      · exact a3
      · simp only [Sess.emit, Buf.emit, clientData_append, e2, bufBytes_snoc, a4]
      · simp only [Sess.emit, e1, clientData_append, e2, extBytes, IoEntry.gotBytes, List.length_append]; omega
      · simp only [Sess.emit, Buf.emit, inputOrLost_append, e4, taken_snoc, List.append_nil]; exact a6
      · exact a7
  | recvExt n =>
    simp only [SessCh.handle]
    split
    · exact h
    · rename_i hn
      obtain ⟨a1, a2, a3, a4, a5, a6, a7⟩ := h
      have e1 : ∀ f : IoEntry → Nat, total f (sessIo (y.s.log ++ [SessEntry.io (.rx (.ext n))])) = total f (sessIo y.s.log) + f (.rx (.ext n)) := by
        intro f
        rw [sessIo_append, total_append]
        simp [sessIo, SessEntry.toIo, total]
      have e2 : clientData [SessEntry.io (.rx (.ext n))] = [] := rfl
      have e3 : inputBytes [SessEntry.io (.rx (.ext n))] = [] := rfl
      have e4 : inputOrLost [SessEntry.io (.rx (.ext n))] = [] := rfl
      constructor
      · simp only [Sess.emit, e1, IoEntry.sentBytes, IoEntry.granted]; omega
      · simp only [Sess.emit, e1, inputBytes_append, e3, List.append_nil, extBytes, IoEntry.weGranted]; omega
      · simp only [Sess.emit]; omega
      · simp only [Sess.emit, clientData_append, e2, List.append_nil]; exact a4
      · simp only [Sess.emit, e1, clientData_append, e2, extBytes, IoEntry.gotBytes, List.append_nil]; omega
      · simp only [Sess.emit, inputOrLost_append, e4, List.append_nil]; exact a6
      · exact a7
  | recvEof =>
    refine SessAccCh.ofBuf ((SessAcc.keeps w).onEof ?_ fun h => ⟨h.send, h.recv, h.le, h.got, h.gotN, h.took, h.rd⟩)
    exact (SessAcc.io h rfl rfl rfl rfl rfl).logs (by simp [Buf.emit, bufBytes_snoc]) (by simp [Buf.emit, taken_snoc])
  | recvAdjust n =>
    simp only [SessCh.handle]
    split
    · exact h
    · rename_i hn; exact SessAcc.adjust h n hn
  | blocked =>
    have h1 : SessAcc w (y.s.emit (.io .kexinit)) y.buf := SessAcc.io h rfl rfl rfl rfl rfl
    simp only [SessCh.handle]
    unfold SessAccCh
    simp only
    split
    · exact h1.idle (.cancelRead _)
    · exact h1
  | unblocked =>
    have h1 : SessAcc w (y.s.emit (.io .newkeys)) y.buf := SessAcc.io h rfl rfl rfl rfl rfl
    exact h1.idle (.maybeScheduleRead _)
  | writes f bs => exact h.idle (.processWrites _ _ _) rfl
  | closes f => exact h.idle (.processCloses _ _) rfl
  | stdinReady ks =>
    simp only [SessCh.handle, SessCh.stdinReady]
    split
    · cases y.buf.enough ks
      · exact h
      refine SessAccCh.ofBuf ((SessAcc.keeps w).read ?_)
      exact SessAcc.idle h (Idle.quiet rfl rfl (by rw [reading_eq rfl rfl rfl]; exact id) rfl)
    · exact h
  | pipeReady f len =>
    simp only [SessCh.handle]
    split
    · exact h
    · unfold SessCh.pipeReady
      split
      · exact h
      · rename_i x hx
        cases x.rd && (!x.content.isEmpty || !x.writers)
        · exact h
        · exact h.readSource hx
  | ttyReady wr len =>
    simp only [SessCh.handle]
    unfold SessCh.ttyReady
    split
    · exact h
    · rename_i x hx
      simp only
      cases (!(x.rd && !x.content.isEmpty) && !(y.ttyWritable wr).isSome)
      · simp only [cond_false]
        generalize y.ttyWritable wr = wr'
        have h1 : SessAccCh w (y.ttyWrite wr') := by
          unfold SessCh.ttyWrite
          split
          · exact h
          · refine SessAccCh.ofBuf ((SessAcc.keeps w).read ?_)
            exact SessAcc.idle h (Idle.quiet rfl rfl (by rw [reading_eq rfl rfl rfl]; exact id) rfl)
        generalize y.ttyWrite wr' = y1 at *
        unfold SessCh.ttyRead
        split
        · exact h1
        · split
          · exact h1
          · rename_i x' hx'
            cases x.rd && !x.content.isEmpty
            · exact h1
            · exact h1.readSource hx'
      · simp only [cond_true]
        cases x.writers
        · exact h.idle (.endOfSource _ _) (endOfSource_buf _ _)
        · exact h
  | gone => exact h.idle (y' := { y with s := y.s.dropChild }.halt .connection) (.dropChild _) rfl

theorem SessAccCh.init (r w) : SessAccCh w (SessCh.init r w) := by
  constructor <;> simp [SessCh.init, sessIo, total, clientData, inputBytes, inputOrLost, bufBytes, taken, Sess.reading, srcRd]

theorem sess_acc (cfg r w evs) : SessAccCh w (SessCh.run cfg (SessCh.init r w) evs) := by
  induction evs using Aux.snoc_ind with
  | h0 => exact .init r w
  | h1 evs ev ih =>
    rw [SessCh.run_snoc]
    unfold SessCh.step
    split
    · exact ih
    · exact ih.handle cfg ev

end Lukko
