import Verif.Proof.Session
import Verif.Spec.Host
/-
  Which entries of a session channel's record come from messages of the client: exactly those which
  are added when a message is handed to the channel.
-/
namespace Lukko
open Model Spec

/-- Entries about messages of the client, and about restrictions. -/
def sessLoud : SessEntry → Bool
  | .restricted _ => true
  | e => e.byClient

/-- `s'` comes from `s` without any of them. -/
structure Hush (s s' : Sess) : Prop where
  restr : s'.restr = s.restr
  log : ∃ l, s'.log = s.log ++ l ∧ ∀ e ∈ l, sessLoud e = false

theorem Hush.refl (s : Sess) : Hush s s := ⟨rfl, ⟨[], by simp, by simp⟩⟩

theorem Hush.trans {s t u : Sess} (h : Hush s t) (g : Hush t u) : Hush s u := by
  obtain ⟨l1, e1, p1⟩ := h.log
  obtain ⟨l2, e2, p2⟩ := g.log
  refine ⟨g.restr.trans h.restr, ⟨l1 ++ l2, by rw [e2, e1, List.append_assoc], ?_⟩⟩
  intro e he
  rcases List.mem_append.mp he with he | he
  · exact p1 e he
  · exact p2 e he

/-- Nothing recorded. -/
theorem Hush.quiet {s s' : Sess} (h1 : s'.restr = s.restr) (h6 : s'.log = s.log) : Hush s s' :=
  ⟨h1, ⟨[], by simp [h6], by simp⟩⟩

theorem Hush.emit {e : SessEntry} (s : Sess) (h : sessLoud e = false) : Hush s (s.emit e) :=
  ⟨rfl, ⟨[e], rfl, by simpa using h⟩⟩

theorem Hush.same {s s' : Sess} (h1 : s'.restr = s.restr) (h6 : s'.log = s.log) : Hush s s' := .quiet h1 h6

theorem Hush.entry {e} {s s' : Sess} (h1 : s'.restr = s.restr) (h2 : s'.log = s.log ++ [e]) (h3 : sessLoud e = false) : Hush s s' :=
  ⟨h1, [e], h2, by simpa using h3⟩

theorem Hush.scheduleRead (s : Sess) : Hush s s.scheduleRead :=
  Hush.quiet rfl rfl

theorem Hush.cancelRead (s : Sess) : Hush s s.cancelRead :=
  Hush.quiet rfl rfl

theorem Hush.maybeScheduleRead (s : Sess) : Hush s s.maybeScheduleRead := by
  unfold Sess.maybeScheduleRead
  split
  · exact .scheduleRead s
  · exact .refl s

theorem Hush.scheduleWrite (s : Sess) : Hush s s.scheduleWrite := by
  unfold Sess.scheduleWrite
  split <;> exact Hush.quiet rfl rfl

theorem Hush.closeStdin (s : Sess) : Hush s s.closeStdin := by
  unfold Sess.closeStdin
  split
  · refine (Hush.emit (e := .inputClosed) s rfl).trans ?_
    exact Hush.quiet rfl rfl
  · exact .refl s

theorem Hush.dropChild (s : Sess) : Hush s s.dropChild := by
  unfold Sess.dropChild
  split
  · exact ⟨rfl, ⟨_, rfl, by simp [sessLoud, SessEntry.byClient]⟩⟩
  · exact .refl s

theorem Hush.setStderr (s : Sess) (text : Bytes) : Hush s (s.setStderr text) := by
  refine ((Hush.dropChild s).trans (Hush.closeStdin _)).trans ?_
  refine (Hush.emit (e := .message text) _ rfl).trans ?_
  exact Hush.quiet rfl rfl

theorem Hush.consume {s s' : Sess} {n : Nat} (h : s.consume n = some s') : Hush s s' := by
  unfold Sess.consume at h
  split at h
  · split at h
    · simp only [Option.some.injEq] at h
      subst h
      exact (Hush.emit (e := .io (.tx (.adjust _))) s rfl).trans (Hush.quiet rfl rfl)
    · simp only [Option.some.injEq] at h
      subst h
      exact Hush.quiet rfl rfl
  · simp at h

theorem Hush.wroteInput (s : Sess) (payload n) : Hush s (s.wroteInput payload n) := by
  unfold Sess.wroteInput
  split
  · exact (Hush.emit _ rfl).trans (.scheduleWrite _)
  · exact .emit _ rfl

theorem Hush.writeInput (s : Sess) (payload : Bytes) (k : Wrote) : Hush s (s.writeInput payload k).1 := by
  cases k with
  | wouldBlock => exact .scheduleWrite s
  | failed => exact (Hush.closeStdin s).trans (.emit _ rfl)
  | wrote m =>
    simp only [Sess.writeInput]
    split
    · exact .refl s
    · rename_i hc; exact (Hush.wroteInput s payload _).trans (.consume hc)

theorem Hush.data (s : Sess) (payload : Bytes) (k : Wrote) : Hush s (Sess.ops.data s payload k).1 := by
  simp only [Sess.ops]
  cases s.stdinEnabled
  · exact Hush.quiet rfl rfl
  · simp only [Bool.not_true, cond_false]
    cases (!s.stdin.isSome && !s.tty.isSome)
    · exact .writeInput s payload k
    · exact .emit s rfl

theorem Hush.keeps (s0 : Sess) : Keeps Sess.ops (fun s _ => Hush s0 s) where
  eof := fun h => h.trans (.closeStdin _)
  stop := by
    intro g b c k e g' h hd
    have := Hush.data g c k
    rw [hd] at this
    exact h.trans this
  data := by
    intro g b c k n g' q h hd
    have := Hush.data g c k
    rw [hd] at this
    exact h.trans this

theorem Hush.ofBuf {s0 : Sess} {r : Sess × Buf × Option BufStop} (h : Hush s0 r.1) : Hush s0 (SessCh.ofBuf r).s := h

theorem Hush.enableStdin (s : Sess) : Hush s s.enableStdin := by
  unfold Sess.enableStdin
  simp only
  have h : Hush s { s with stdinEnabled := true } := Hush.quiet rfl rfl
  generalize s.stdinDeferred = d at *
  cases d
  · exact h
  · exact h.trans (.scheduleWrite _)

theorem Hush.preparePipes {nd} {s s' : Sess} (h : s.preparePipes nd = some s') : Hush s s' := by
  unfold Sess.preparePipes at h
  cases hc : (s.stdin.isSome || s.stdout.isSome || s.stderr.isSome) && !nd
  · rw [hc] at h
    simp only [cond_false, Option.some.injEq] at h
    subst h
    exact Hush.quiet rfl rfl
  · rw [hc] at h; simp at h

theorem Hush.prepareExec {cfg} {s s' : Sess} (h : s.prepareExec cfg = some s') : Hush s s' := by
  unfold Sess.prepareExec at h
  cases hc : s.agent && !cfg.ndebug
  · rw [hc] at h
    simp only [cond_false] at h
    have h0 : Hush s { s with agent := s.agent || s.agentReq } := Hush.quiet rfl rfl
    cases ht : s.tty.isSome
    · rw [ht] at h
      exact h0.trans (.preparePipes h)
    · rw [ht] at h
      simp only [cond_true, Option.some.injEq] at h
      subst h
      exact Hush.quiet rfl rfl
  · rw [hc] at h; simp at h

theorem Hush.setSource (s : Sess) (f : Stream) (x : Option Source) (h : x.isSome = true → (s.source f).isSome = true) :
    Hush s (s.setSource f x) := by
  cases f
  · exact Hush.quiet rfl rfl
  · exact Hush.quiet rfl rfl
  · exact Hush.quiet rfl rfl

theorem Hush.cancelIfExhausted (s : Sess) : Hush s s.cancelIfExhausted := by
  unfold Sess.cancelIfExhausted
  split
  · exact .cancelRead s
  · exact .refl s

theorem Hush.sendFrom (s : Sess) (f x bs) (hx : s.source f = some x) : Hush s (s.sendFrom f x bs) := by
  unfold Sess.sendFrom
  refine (Hush.setSource s f (some { x with content := x.content.drop bs.length }) (by simp [hx])).trans
    (Hush.trans ?_ (Hush.cancelIfExhausted _))
  refine (Hush.emit (e := .sent f bs) _ rfl).trans ?_
  exact Hush.quiet rfl rfl

theorem Hush.processWrites (s : Sess) (f bs) : Hush s (s.processWrites f bs) := by
  unfold Sess.processWrites
  split
  · exact .refl s
  · rename_i x hx
    cases x.writers
    · exact .refl s
    · exact (Hush.setSource s f _ (by simp [hx])).trans (.emit _ rfl)

theorem Hush.processCloses (s : Sess) (f) : Hush s (s.processCloses f) := by
  unfold Sess.processCloses
  split
  · exact .refl s
  · rename_i x hx
    cases f == Stream.terminal && s.slaveTty
    · exact .setSource s f _ (by simp [hx])
    · exact .refl s

/-! ## The channel -/

theorem Hush.answer (y : SessCh) (ok) : Hush y.s (y.answer ok).s := .emit _ rfl

theorem Hush.close (y : SessCh) : Hush y.s y.close.s := (Hush.dropChild _).trans (.emit _ rfl)

theorem Hush.closeIfInactive (y : SessCh) : Hush y.s y.closeIfInactive.s := by
  unfold SessCh.closeIfInactive
  cases !(y.s.stdout.isSome || y.s.stderr.isSome || y.s.tty.isSome || y.s.child.isSome)
  · exact .refl _
  · exact .close y

theorem Hush.maybeSendEof (y : SessCh) : Hush y.s y.maybeSendEof.s := by
  unfold SessCh.maybeSendEof
  cases y.s.stdout.isSome || y.s.stderr.isSome || y.s.tty.isSome
  · exact (Hush.emit (e := .io (.tx .eof)) y.s rfl).trans (Hush.closeIfInactive { y with s := y.s.emit (.io (.tx .eof)) })
  · exact .refl _

theorem Hush.refuse (y : SessCh) (v text) : Hush y.s (y.refuse v text).s := by
  unfold SessCh.refuse
  cases v
  · exact .answer y _
  · exact (Hush.setStderr y.s text).trans (Hush.answer { y with s := y.s.setStderr text } _)

theorem Hush.finish (y : SessCh) (id) : Hush y.s (y.finish id).s := .quiet rfl rfl

theorem Hush.completed (cfg) (y : SessCh) (id err) : Hush y.s (y.completed cfg id err).s := by
  unfold SessCh.completed
  split
  · split
    · split
      · refine (Hush.finish y id).trans ((Hush.enableStdin _).trans ?_)
        exact Hush.answer { y.finish id with s := (y.finish id).s.enableStdin } _
      · exact (Hush.finish y id).trans (.refuse _ _ _)
    · exact .refl _
  · exact .refl _

theorem Hush.exited (y : SessCh) : Hush y.s y.exited.s := by
  unfold SessCh.exited
  split
  · exact .refl _
  · simp only
    have h1 : Hush y.s { y.s with child := none, log := y.s.log ++ [SessEntry.exited] } := .entry rfl rfl rfl
    exact (h1.trans ((Hush.closeStdin _).trans (.emit _ rfl))).trans (Hush.closeIfInactive ⟨_, y.buf, y.stop⟩)

theorem Hush.endOfSource (y : SessCh) (f) : Hush y.s (y.endOfSource f).s := by
  unfold SessCh.endOfSource
  refine (Hush.setSource y.s f none (by simp)).trans (Hush.trans ?_ (Hush.maybeSendEof _))
  exact Hush.quiet rfl rfl

theorem Hush.readSource (cfg) (y : SessCh) (f x len) (hx : y.s.source f = some x) :
    Hush y.s (y.readSource cfg f x len).s := by
  unfold SessCh.readSource
  simp only
  split
  · cases cfg.ndebug
    · exact .refl _
    · exact .endOfSource y f
  · split
    · exact .endOfSource y f
    · exact .sendFrom y.s f x _ hx

theorem Hush.pipeReady (cfg) (y : SessCh) (f len) : Hush y.s (y.pipeReady cfg f len).s := by
  unfold SessCh.pipeReady
  split
  · exact .refl _
  · rename_i x hx
    cases x.rd && (!x.content.isEmpty || !x.writers)
    · exact .refl _
    · exact .readSource cfg y f x len hx

theorem Hush.stdinReady (y : SessCh) (ks) : Hush y.s (y.stdinReady ks).s := by
  unfold SessCh.stdinReady
  split
  · cases y.buf.enough ks
    · exact .refl _
    exact Hush.ofBuf ((Hush.keeps y.s).read (g := { y.s with stdin := some false }) (Hush.quiet rfl rfl))
  · exact .refl _

theorem Hush.ttyWrite (y : SessCh) (w) : Hush y.s (y.ttyWrite w).s := by
  unfold SessCh.ttyWrite
  split
  · exact .refl _
  · exact Hush.ofBuf ((Hush.keeps y.s).read (g := { y.s with ttyWr := false }) (Hush.quiet rfl rfl))

theorem Hush.ttyRead (cfg) (y : SessCh) (r len) : Hush y.s (y.ttyRead cfg r len).s := by
  unfold SessCh.ttyRead
  split
  · exact .refl _
  · split
    · exact .refl _
    · rename_i x hx
      cases r
      · exact .refl _
      · exact .readSource cfg y .terminal x len hx

theorem Hush.ttyReady (cfg) (y : SessCh) (w len) : Hush y.s (y.ttyReady cfg w len).s := by
  unfold SessCh.ttyReady
  split
  · exact .refl _
  · rename_i x hx
    simp only
    cases (!(x.rd && !x.content.isEmpty) && !(y.ttyWritable w).isSome)
    · exact (Hush.ttyWrite y _).trans (.ttyRead cfg _ _ _)
    · simp only [cond_true]
      cases x.writers
      · exact .endOfSource y _
      · exact .refl _

theorem Hush.setEnv {s s' : Sess} {a b} (h : s.setEnv a b = some s') : Hush s s' := by
  unfold Sess.setEnv at h
  split at h
  · simp at h
  · simp only [Option.some.injEq] at h
    subst h
    exact .same rfl rfl

theorem Hush.spawn {cfg} (s : Sess) (program original terminal) : Hush s (s.spawn cfg program original terminal) := by
  unfold Sess.spawn
  simp only
  refine ((Hush.maybeScheduleRead s)).trans ?_
  generalize s.maybeScheduleRead = s1
  generalize (bif s1.restr.readOnlyHome then (cfg.mounts program).map makeReadOnly else cfg.mounts program) = m
  generalize (⟨program, original, s1.env, terminal, m⟩ : Proc) = p
  have h1 : Hush s1 { s1 with log := s1.log ++ [SessEntry.started p] } := .entry rfl rfl rfl
  exact (h1.trans (.dropChild _)).trans (.same rfl rfl)

theorem Hush.execGit (y : SessCh) (service arg) : Hush y.s (y.execGit service arg).s := by
  unfold SessCh.execGit
  split
  · exact .answer _ _
  · exact .same rfl rfl

theorem Hush.execOther (cfg) (y : SessCh) (cmd) : Hush y.s (y.execOther cfg cmd).s := by
  unfold SessCh.execOther
  split
  · exact .execGit _ _ _
  · split
    · exact .execGit _ _ _
    · exact .refuse _ _ _

theorem Hush.exec (cfg) (y : SessCh) (cmd) : Hush y.s (y.exec cfg cmd).s := by
  unfold SessCh.exec
  cases cfg.exec with
  | true => cases cmd <;> exact .same rfl rfl
  | false =>
    cases cmd with
    | none => exact .refuse _ _ _
    | some cmd =>
      simp only [cond_false]
      split
      · exact .same rfl rfl
      · exact .refuse _ _ _
      · exact .execOther _ _ _

theorem Hush.ptyReq (cfg) (y : SessCh) (data ok) : Hush y.s (y.ptyReq cfg data ok).s := by
  unfold SessCh.ptyReq
  cases !cfg.exec || y.s.restr.noTerminal
  · simp only [cond_false]
    split
    · exact .refl _
    · cases ok
      · exact .refl _
      · simp only [Bool.not_true, cond_false]
        split
        · exact .refl _
        · rename_i s' hs
          refine Hush.trans (Hush.trans ?_ (.setEnv hs)) (.answer ⟨s', y.buf, y.stop⟩ _)
          exact Hush.entry (e := .terminalAllocated) rfl rfl rfl
  · exact .answer _ _

theorem Hush.lateRequest (y : SessCh) (name data ok) : Hush y.s (y.lateRequest name data ok).s := by
  unfold SessCh.lateRequest
  split
  · cases !y.s.tty.isSome
    · simp only [cond_false]
      split
      · exact .refl _
      · cases ok
        · exact .refl _
        · exact .answer _ _
    · exact .answer _ _
  · exact .answer _ _

theorem Hush.request (cfg) (y : SessCh) (name data ok) : Hush y.s (y.request cfg name data ok).s := by
  unfold SessCh.request
  cases y.s.child.isSome
  · simp only [cond_false]
    split
    · unfold SessCh.execRequest
      split
      · exact .refl _
      · split
        · exact .refuse _ _ _
        · exact .exec _ _ _
    · split
      · exact .exec _ _ _
      · split
        · unfold SessCh.subsystem
          split
          · exact .refl _
          · split
            · cases cfg.sftp
              · exact .answer _ _
              · simp only [Bool.not_true, cond_false]
                cases y.s.tty.isSome
                · exact .same rfl rfl
                · exact .answer _ _
            · exact .answer _ _
        · split
          · exact .ptyReq _ _ _ _
          · split
            · unfold SessCh.envRequest
              cases cfg.exec
              · exact .answer _ _
              · simp only [Bool.not_true, cond_false]
                split
                · exact .refl _
                · split
                  · exact .refl _
                  · rename_i s' hs
                    exact (Hush.setEnv hs).trans (.answer ⟨s', y.buf, y.stop⟩ _)
            · split
              · exact Hush.trans (t := { y.s with agentReq := true }) (.same rfl rfl)
                  (.answer ⟨{ y.s with agentReq := true }, y.buf, y.stop⟩ _)
              · exact .answer _ _
  · exact .lateRequest _ _ _ _

theorem Hush.launch {cfg} (y : SessCh) (id program original terminal r) :
    Hush y.s (y.launch cfg id program original terminal r).s := by
  have hf := (Hush.finish y id)
  unfold SessCh.launch
  split
  · refine (hf.trans (.maybeScheduleRead _)).trans (.refuse ⟨_, _, _⟩ _ _)
  · exact (hf.trans (.spawn _ _ _ _)).trans (.same rfl rfl)

theorem Hush.enqueued (cfg) (y : SessCh) (id r) : Hush y.s (y.enqueued cfg id r).s := by
  have hserv : ∀ program, Hush y.s (y.resumeService cfg id program r).s := by
    intro program
    unfold SessCh.resumeService
    split
    · exact ((Hush.finish y id)).trans (.refuse _ _ _)
    · split
      · exact .refl _
      · rename_i s hs
        have h1 := (Hush.preparePipes hs)
        split
        · exact h1.trans (((Hush.finish ⟨s, y.buf, y.stop⟩ id)).trans (.refuse _ _ _))
        · exact h1.trans (.launch ⟨s, y.buf, y.stop⟩ _ _ _ _ _)
  unfold SessCh.enqueued
  split
  · unfold SessCh.resumeExec
    split
    · exact .refl _
    · split
      · exact .refl _
      · rename_i s hs
        exact ((Hush.prepareExec hs)).trans (.launch ⟨s, y.buf, y.stop⟩ _ _ _ _ _)
  · exact hserv _
  · exact hserv _
  · unfold SessCh.resumeSftp
    split
    · exact .refl _
    · cases y.s.tty.isSome && !cfg.ndebug
      · simp only [cond_false]
        split
        · exact .refl _
        · rename_i s hs
          exact ((Hush.preparePipes hs)).trans (.launch ⟨s, y.buf, y.stop⟩ _ _ _ _ _)
      · exact .refl _
  · exact .refl _

/-- The entry about it: what the client has sent, or the restrictions. -/
def Model.SessEvent.mark : SessEvent → Option SessEntry
  | .request name data _ => some (.asked name data)
  | .restricted r => some (.restricted r)
  | .recvData bs _ => some (.data bs)
  | .recvExt n => some (.io (.rx (.ext n)))
  | .recvEof => some (.io (.rx .eof))
  | .recvAdjust n => some (.io (.rx (.adjust n)))
  | _ => none

/-- The restrictions afterwards. -/
def Model.SessEvent.restr (r : Restrictions) : SessEvent → Restrictions
  | .restricted r' => r'
  | _ => r

/-- What an event adds to the record: the entry about it, and then nothing else of this kind; or else
the connection is closed. -/
structure Marked (ev : SessEvent) (s s' : Sess) : Prop where
  restr : s'.restr = ev.restr s.restr
  log : ∃ l, s'.log = s.log ++ (ev.mark.toList ++ l) ∧ ∀ e ∈ l, sessLoud e = false

theorem Marked.of {ev} {s s' : Sess} (h1 : ev.mark = none) (h2 : ev.restr s.restr = s.restr) (h : Hush s s') : Marked ev s s' :=
  ⟨h.restr.trans h2.symm, by rw [h1]; exact h.log⟩

theorem Marked.entry {ev e} {s s' : Sess} (h1 : ev.mark = some e) (h2 : ev.restr s.restr = s.restr) (h : Hush (s.emit e) s') :
    Marked ev s s' := by
  obtain ⟨l, hl, hp⟩ := h.log
  refine ⟨h.restr.trans h2.symm, l, ?_, hp⟩
  rw [hl, h1]
  simp [Sess.emit]

theorem handle_marked (cfg) (y : SessCh) (ev) :
    Marked ev y.s (y.handle cfg ev).s ∨ ((y.handle cfg ev).s = y.s ∧ (y.handle cfg ev).stop = some .connection) := by
  cases ev with
  | request name data sysOk =>
    exact .inl (.entry rfl rfl (.request cfg ⟨y.s.emit (.asked name data), y.buf, y.stop⟩ _ _ _))
  | enqueued id r => exact .inl (.of rfl rfl (.enqueued cfg y id r))
  | restricted r => exact .inl ⟨rfl, [], rfl, by simp⟩
  | completed id err => exact .inl (.of rfl rfl (.completed cfg y id err))
  | exited => exact .inl (.of rfl rfl (.exited y))
  | recvData bs k =>
    simp only [SessCh.handle]
    split
    · exact .inr ⟨rfl, rfl⟩
    · exact .inl (.entry rfl rfl (Hush.ofBuf ((Hush.keeps _).onData (.refl _) fun h => h)))
  | recvExt n =>
    simp only [SessCh.handle]
    split
    · exact .inr ⟨rfl, rfl⟩
    · exact .inl (.entry (e := .io (.rx (.ext n))) rfl rfl (.same rfl rfl))
  | recvEof => exact .inl (.entry rfl rfl (Hush.ofBuf ((Hush.keeps _).onEof (.refl _) fun h => h)))
  | recvAdjust n =>
    simp only [SessCh.handle]
    split
    · exact .inr ⟨rfl, rfl⟩
    · refine .inl (.entry (e := .io (.rx (.adjust n))) rfl rfl ?_)
      split
      · exact (Hush.scheduleRead _).trans (.same rfl rfl)
      · exact .same rfl rfl
  | blocked =>
    simp only [SessCh.handle]
    refine .inl (.of rfl rfl ((Hush.emit (e := .io .kexinit) y.s rfl).trans ?_))
    split
    · exact .cancelRead _
    · exact .refl _
  | unblocked => exact .inl (.of rfl rfl ((Hush.emit (e := .io .newkeys) y.s rfl).trans (.maybeScheduleRead _)))
  | writes f bs => exact .inl (.of rfl rfl (.processWrites _ _ _))
  | closes f => exact .inl (.of rfl rfl (.processCloses _ _))
  | stdinReady ks => exact .inl (.of rfl rfl (.stdinReady _ _))
  | pipeReady f len =>
    simp only [SessCh.handle]
    split
    · exact .inl (.of rfl rfl (.refl _))
    · exact .inl (.of rfl rfl (.pipeReady _ _ _ _))
  | ttyReady w len => exact .inl (.of rfl rfl (.ttyReady _ _ _ _))
  | gone => exact .inl (.of rfl rfl (.dropChild _))

end Lukko
