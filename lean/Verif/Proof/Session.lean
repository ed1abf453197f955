import Verif.Model.Session
import Verif.Proof.Socket
import Verif.Proof.Parse
/-
  Helper lemmas for session channels: everything but handling requests and starting
  processes leaves alone what decides about them.
-/
namespace Lukko
open Model Spec

/-- Entries which have nothing to do with starting processes. -/
def sessPlain : SessEntry → Bool
  | .started _ => false
  | .restricted _ => false
  | .terminalAllocated => false
  | .asked _ _ => false
  | _ => true

/-- A coroutine that will start a process. -/
def willStart (t : Nat × STask) : Bool :=
  match t.2 with
  | .wait _ => false
  | _ => true

def childCount (s : Sess) : Int := if s.child.isSome then 1 else 0

theorem running_append (a b : List SessEntry) : running (a ++ b) = running a + running b := by
  simp [running]

theorem restrictionsNow_plain {r l} (m : List SessEntry) (h : ∀ e ∈ l, sessPlain e = true) :
    restrictionsNow r (m ++ l) = restrictionsNow r m := by
  induction l using Aux.snoc_ind with
  | h0 => simp
  | h1 l e ih =>
    rw [← List.append_assoc, restrictionsNow, List.foldl_append]
    have he := h e (by simp)
    have := ih fun x hx => h x (by simp [hx])
    rw [restrictionsNow] at this
    rw [this]
    cases e <;> simp_all [sessPlain]

/-- `s'` comes from `s` by something that does not matter here. -/
structure Still (s s' : Sess) : Prop where
  restr : s'.restr = s.restr
  env : s'.env = s.env
  envSize : s'.envSize = s.envSize
  tasks : (s'.tasks.filter willStart).Sublist (s.tasks.filter willStart)
  tty : s'.tty.isSome = true → s.tty.isSome = true
  log : ∃ l, s'.log = s.log ++ l ∧ ∀ e ∈ l, sessPlain e = true
  run : running s'.log - childCount s' = running s.log - childCount s

theorem Still.refl (s : Sess) : Still s s := ⟨rfl, rfl, rfl, List.Sublist.refl _, id, ⟨[], by simp, by simp⟩, rfl⟩

theorem Still.trans {s t u : Sess} (h : Still s t) (g : Still t u) : Still s u := by
  obtain ⟨l1, e1, p1⟩ := h.log
  obtain ⟨l2, e2, p2⟩ := g.log
  refine ⟨g.restr.trans h.restr, g.env.trans h.env, g.envSize.trans h.envSize, g.tasks.trans h.tasks,
    fun x => h.tty (g.tty x), ⟨l1 ++ l2, by rw [e2, e1, List.append_assoc], ?_⟩, g.run.trans h.run⟩
  intro e he
  rcases List.mem_append.mp he with he | he
  · exact p1 e he
  · exact p2 e he

/-- Nothing recorded. -/
theorem Still.quiet {s s' : Sess} (h1 : s'.restr = s.restr) (h2 : s'.env = s.env) (h3 : s'.envSize = s.envSize)
    (h4 : s'.tasks = s.tasks) (h5 : s'.tty.isSome = true → s.tty.isSome = true) (h6 : s'.log = s.log) (h7 : s'.child = s.child) : Still s s' :=
  ⟨h1, h2, h3, by rw [h4]; exact List.Sublist.refl _, h5, ⟨[], by simp [h6], by simp⟩, by rw [h6, childCount, h7]; rfl⟩

theorem Still.emit {e : SessEntry} (s : Sess) (h : sessPlain e = true) (h0 : running [e] = 0) : Still s (s.emit e) := by
  refine ⟨rfl, rfl, rfl, List.Sublist.refl _, id, ⟨[e], rfl, by simpa using h⟩, ?_⟩
  simp only [Sess.emit, running_append, h0, childCount, Int.add_zero]
  rfl

theorem Still.scheduleRead (s : Sess) : Still s s.scheduleRead :=
  Still.quiet rfl rfl rfl rfl (by simp [Sess.scheduleRead]) rfl rfl

theorem Still.cancelRead (s : Sess) : Still s s.cancelRead :=
  Still.quiet rfl rfl rfl rfl (by simp [Sess.cancelRead]) rfl rfl

theorem Still.maybeScheduleRead (s : Sess) : Still s s.maybeScheduleRead := by
  unfold Sess.maybeScheduleRead
  split
  · exact .scheduleRead s
  · exact .refl s

theorem Still.scheduleWrite (s : Sess) : Still s s.scheduleWrite := by
  unfold Sess.scheduleWrite
  split <;> exact Still.quiet rfl rfl rfl rfl id rfl rfl

theorem Still.closeStdin (s : Sess) : Still s s.closeStdin := by
  unfold Sess.closeStdin
  split
  · refine (Still.emit (e := .inputClosed) s rfl rfl).trans ?_
    exact Still.quiet rfl rfl rfl rfl id rfl rfl
  · exact .refl s

theorem Still.dropChild (s : Sess) : Still s s.dropChild := by
  unfold Sess.dropChild
  split
  · rename_i hc
    refine ⟨rfl, rfl, rfl, List.Sublist.refl _, id, ⟨_, rfl, by simp [sessPlain]⟩, ?_⟩
    have h1 : running [SessEntry.killed] = -1 := rfl
    simp only [running_append, childCount, hc, h1, Option.isSome_some, Option.isSome_none, if_true, Bool.false_eq_true, if_false]
    omega
  · exact .refl s

theorem dropChild_child (s : Sess) : s.dropChild.child = none := by
  unfold Sess.dropChild
  split
  · rfl
  · assumption

theorem closeStdin_child (s : Sess) : s.closeStdin.child = s.child := by
  unfold Sess.closeStdin
  split <;> rfl

theorem Still.setStderr (s : Sess) (text : Bytes) : Still s (s.setStderr text) := by
  refine ((Still.dropChild s).trans (Still.closeStdin _)).trans ?_
  refine (Still.emit (e := .message text) _ rfl rfl).trans ?_
  exact Still.quiet rfl rfl rfl rfl (by simp [Sess.setStderr]) rfl rfl

theorem Still.consume {s s' : Sess} {n : Nat} (h : s.consume n = some s') : Still s s' := by
  unfold Sess.consume at h
  split at h
  · split at h
    · simp only [Option.some.injEq] at h
      subst h
      exact (Still.emit (e := .io (.tx (.adjust _))) s rfl rfl).trans (Still.quiet rfl rfl rfl rfl id rfl rfl)
    · simp only [Option.some.injEq] at h
      subst h
      exact Still.quiet rfl rfl rfl rfl id rfl rfl
  · simp at h

theorem Still.wroteInput (s : Sess) (payload n) : Still s (s.wroteInput payload n) := by
  unfold Sess.wroteInput
  split
  · exact (Still.emit _ rfl rfl).trans (.scheduleWrite _)
  · exact .emit _ rfl rfl

theorem Still.writeInput (s : Sess) (payload : Bytes) (k : Wrote) : Still s (s.writeInput payload k).1 := by
  cases k with
  | wouldBlock => exact .scheduleWrite s
  | failed => exact (Still.closeStdin s).trans (.emit _ rfl rfl)
  | wrote m =>
    simp only [Sess.writeInput]
    split
    · exact .refl s
    · rename_i hc; exact (Still.wroteInput s payload _).trans (.consume hc)

theorem Still.data (s : Sess) (payload : Bytes) (k : Wrote) : Still s (Sess.ops.data s payload k).1 := by
  simp only [Sess.ops]
  cases s.stdinEnabled
  · exact Still.quiet rfl rfl rfl rfl id rfl rfl
  · simp only [Bool.not_true, cond_false]
    cases (!s.stdin.isSome && !s.tty.isSome)
    · exact .writeInput s payload k
    · exact .emit s rfl rfl

theorem Still.keeps (s0 : Sess) : Keeps Sess.ops (fun s _ => Still s0 s) where
  eof := fun h => h.trans (.closeStdin _)
  stop := by
    intro g b c k e g' h hd
    have := Still.data g c k
    rw [hd] at this
    exact h.trans this
  data := by
    intro g b c k n g' q h hd
    have := Still.data g c k
    rw [hd] at this
    exact h.trans this

theorem Still.ofBuf {s0 : Sess} {r : Sess × Buf × Option BufStop} (h : Still s0 r.1) : Still s0 (SessCh.ofBuf r).s := h

theorem Still.enableStdin (s : Sess) : Still s s.enableStdin := by
  unfold Sess.enableStdin
  simp only
  have h : Still s { s with stdinEnabled := true } := Still.quiet rfl rfl rfl rfl id rfl rfl
  generalize s.stdinDeferred = d at *
  cases d
  · exact h
  · exact h.trans (.scheduleWrite _)

theorem Still.preparePipes {nd} {s s' : Sess} (h : s.preparePipes nd = some s') : Still s s' := by
  unfold Sess.preparePipes at h
  cases hc : (s.stdin.isSome || s.stdout.isSome || s.stderr.isSome) && !nd
  · rw [hc] at h
    simp only [cond_false, Option.some.injEq] at h
    subst h
    exact Still.quiet rfl rfl rfl rfl id rfl rfl
  · rw [hc] at h; simp at h

theorem Still.prepareExec {cfg} {s s' : Sess} (h : s.prepareExec cfg = some s') : Still s s' := by
  unfold Sess.prepareExec at h
  cases hc : s.agent && !cfg.ndebug
  · rw [hc] at h
    simp only [cond_false] at h
    have h0 : Still s { s with agent := s.agent || s.agentReq } := Still.quiet rfl rfl rfl rfl id rfl rfl
    cases ht : s.tty.isSome
    · rw [ht] at h
      exact h0.trans (.preparePipes h)
    · rw [ht] at h
      simp only [cond_true, Option.some.injEq] at h
      subst h
      exact Still.quiet rfl rfl rfl rfl id rfl rfl
  · rw [hc] at h; simp at h

theorem Still.setSource (s : Sess) (f : Stream) (x : Option Source) (h : x.isSome = true → (s.source f).isSome = true) :
    Still s (s.setSource f x) := by
  cases f
  · exact Still.quiet rfl rfl rfl rfl id rfl rfl
  · exact Still.quiet rfl rfl rfl rfl id rfl rfl
  · exact Still.quiet rfl rfl rfl rfl h rfl rfl

theorem Still.cancelIfExhausted (s : Sess) : Still s s.cancelIfExhausted := by
  unfold Sess.cancelIfExhausted
  split
  · exact .cancelRead s
  · exact .refl s

theorem Still.sendFrom (s : Sess) (f x bs) (hx : s.source f = some x) : Still s (s.sendFrom f x bs) := by
  unfold Sess.sendFrom
  refine (Still.setSource s f (some { x with content := x.content.drop bs.length }) (by simp [hx])).trans
    (Still.trans ?_ (Still.cancelIfExhausted _))
  refine (Still.emit (e := .sent f bs) _ rfl rfl).trans ?_
  exact Still.quiet rfl rfl rfl rfl id rfl rfl

theorem Still.processWrites (s : Sess) (f bs) : Still s (s.processWrites f bs) := by
  unfold Sess.processWrites
  split
  · exact .refl s
  · rename_i x hx
    cases x.writers
    · exact .refl s
    · exact (Still.setSource s f _ (by simp [hx])).trans (.emit _ rfl rfl)

theorem Still.processCloses (s : Sess) (f) : Still s (s.processCloses f) := by
  unfold Sess.processCloses
  split
  · exact .refl s
  · rename_i x hx
    cases f == Stream.terminal && s.slaveTty
    · exact .setSource s f _ (by simp [hx])
    · exact .refl s

/-! ## The channel -/

theorem Still.answer (y : SessCh) (ok) : Still y.s (y.answer ok).s := .emit _ rfl rfl

theorem Still.close (y : SessCh) : Still y.s y.close.s := (Still.dropChild _).trans (.emit _ rfl rfl)

theorem Still.closeIfInactive (y : SessCh) : Still y.s y.closeIfInactive.s := by
  unfold SessCh.closeIfInactive
  cases !(y.s.stdout.isSome || y.s.stderr.isSome || y.s.tty.isSome || y.s.child.isSome)
  · exact .refl _
  · exact .close y

theorem Still.maybeSendEof (y : SessCh) : Still y.s y.maybeSendEof.s := by
  unfold SessCh.maybeSendEof
  cases y.s.stdout.isSome || y.s.stderr.isSome || y.s.tty.isSome
  · exact (Still.emit (e := .io (.tx .eof)) y.s rfl rfl).trans (Still.closeIfInactive { y with s := y.s.emit (.io (.tx .eof)) })
  · exact .refl _

theorem Still.refuse (y : SessCh) (v text) : Still y.s (y.refuse v text).s := by
  unfold SessCh.refuse
  cases v
  · exact .answer y _
  · exact (Still.setStderr y.s text).trans (Still.answer { y with s := y.s.setStderr text } _)

theorem Still.finish (y : SessCh) (id) : Still y.s (y.finish id).s := by
  refine ⟨rfl, rfl, rfl, ?_, fun h => h, ⟨[], by simp [SessCh.finish], by simp⟩, rfl⟩
  exact List.filter_sublist.filter _

theorem Still.completed (cfg) (y : SessCh) (id err) : Still y.s (y.completed cfg id err).s := by
  unfold SessCh.completed
  split
  · split
    · split
      · refine (Still.finish y id).trans ((Still.enableStdin _).trans ?_)
        exact Still.answer { y.finish id with s := (y.finish id).s.enableStdin } _
      · exact (Still.finish y id).trans (.refuse _ _ _)
    · exact .refl _
  · exact .refl _

theorem Still.exited (y : SessCh) : Still y.s y.exited.s := by
  unfold SessCh.exited
  split
  · exact .refl _
  · rename_i hc
    simp only
    have h1 : Still y.s { y.s with child := none, log := y.s.log ++ [SessEntry.exited] } := by
      refine ⟨rfl, rfl, rfl, List.Sublist.refl _, id, ⟨_, rfl, by simp [sessPlain]⟩, ?_⟩
      have h1 : running [SessEntry.exited] = -1 := rfl
      simp only [running_append, childCount, hc, h1, Option.isSome_some, Option.isSome_none, if_true, Bool.false_eq_true, if_false]
      omega
    exact (h1.trans ((Still.closeStdin _).trans (.emit _ rfl rfl))).trans (Still.closeIfInactive ⟨_, y.buf, y.stop⟩)

theorem Still.endOfSource (y : SessCh) (f) : Still y.s (y.endOfSource f).s := by
  unfold SessCh.endOfSource
  refine (Still.setSource y.s f none (by simp)).trans (Still.trans ?_ (Still.maybeSendEof _))
  exact Still.quiet rfl rfl rfl rfl id rfl rfl

theorem Still.readSource (cfg) (y : SessCh) (f x len) (hx : y.s.source f = some x) :
    Still y.s (y.readSource cfg f x len).s := by
  unfold SessCh.readSource
  simp only
  split
  · cases cfg.ndebug
    · exact .refl _
    · exact .endOfSource y f
  · split
    · exact .endOfSource y f
    · exact .sendFrom y.s f x _ hx

theorem Still.pipeReady (cfg) (y : SessCh) (f len) : Still y.s (y.pipeReady cfg f len).s := by
  unfold SessCh.pipeReady
  split
  · exact .refl _
  · rename_i x hx
    cases x.rd && (!x.content.isEmpty || !x.writers)
    · exact .refl _
    · exact .readSource cfg y f x len hx

theorem Still.stdinReady (y : SessCh) (ks) : Still y.s (y.stdinReady ks).s := by
  unfold SessCh.stdinReady
  split
  · cases y.buf.enough ks
    · exact .refl _
    exact Still.ofBuf ((Still.keeps y.s).read (g := { y.s with stdin := some false }) (Still.quiet rfl rfl rfl rfl id rfl rfl))
  · exact .refl _

theorem Still.ttyWrite (y : SessCh) (w) : Still y.s (y.ttyWrite w).s := by
  unfold SessCh.ttyWrite
  split
  · exact .refl _
  · exact Still.ofBuf ((Still.keeps y.s).read (g := { y.s with ttyWr := false }) (Still.quiet rfl rfl rfl rfl id rfl rfl))

theorem Still.ttyRead (cfg) (y : SessCh) (r len) : Still y.s (y.ttyRead cfg r len).s := by
  unfold SessCh.ttyRead
  split
  · exact .refl _
  · split
    · exact .refl _
    · rename_i x hx
      cases r
      · exact .refl _
      · exact .readSource cfg y .terminal x len hx

theorem Still.ttyReady (cfg) (y : SessCh) (w len) : Still y.s (y.ttyReady cfg w len).s := by
  unfold SessCh.ttyReady
  split
  · exact .refl _
  · rename_i x hx
    simp only
    cases (!(x.rd && !x.content.isEmpty) && !(y.ttyWritable w).isSome)
    · exact (Still.ttyWrite y _).trans (.ttyRead cfg _ _ _)
    · simp only [cond_true]
      cases x.writers
      · exact .endOfSource y _
      · exact .refl _

/-- Events which neither ask for, permit nor start a process. -/
def otherEvent : SessEvent → Bool
  | .request _ _ _ => false
  | .enqueued _ _ => false
  | .restricted _ => false
  | _ => true

theorem Still.handle (cfg) (y : SessCh) (ev) (hev : otherEvent ev = true) : Still y.s (y.handle cfg ev).s := by
  cases ev with
  | request name data sysOk => simp [otherEvent] at hev
  | enqueued id r => simp [otherEvent] at hev
  | restricted r => simp [otherEvent] at hev
  | completed id err => exact .completed cfg y id err
  | exited => exact .exited y
  | recvData bs k =>
    simp only [SessCh.handle]
    split
    · exact .refl _
    · exact Still.ofBuf ((Still.keeps y.s).onData (.emit _ rfl rfl) fun h => h)
  | recvExt n =>
    simp only [SessCh.handle]
    split
    · exact .refl _
    · exact (Still.emit (e := .io (.rx (.ext n))) y.s rfl rfl).trans (Still.quiet rfl rfl rfl rfl id rfl rfl)
  | recvEof => exact Still.ofBuf ((Still.keeps y.s).onEof (.emit _ rfl rfl) fun h => h)
  | recvAdjust n =>
    simp only [SessCh.handle]
    split
    · exact .refl _
    · refine (Still.emit (e := .io (.rx (.adjust n))) y.s rfl rfl).trans ?_
      split
      · exact (Still.scheduleRead _).trans (Still.quiet rfl rfl rfl rfl id rfl rfl)
      · exact Still.quiet rfl rfl rfl rfl id rfl rfl
  | blocked =>
    simp only [SessCh.handle]
    refine (Still.emit (e := .io .kexinit) y.s rfl rfl).trans ?_
    split
    · exact .cancelRead _
    · exact .refl _
  | unblocked => exact (Still.emit (e := .io .newkeys) y.s rfl rfl).trans (.maybeScheduleRead _)
  | writes f bs => exact .processWrites _ _ _
  | closes f => exact .processCloses _ _
  | stdinReady ks => exact .stdinReady _ _
  | pipeReady f len =>
    simp only [SessCh.handle]
    split
    · exact .refl _
    · exact .pipeReady _ _ _ _
  | ttyReady w len => exact .ttyReady _ _ _ _
  | gone => exact .dropChild _

end Lukko
