import Verif.Proof.SessionInv
import Verif.Proof.SessionIo
/-
  Session channels: the steps of which the handling of an event consists.
-/
namespace Lukko
open Model Spec

/-- Entries which do not matter for `Prim`. -/
def inert : SessEntry → Bool
  | .answered _ => true
  | .restricted _ => true
  | .exited => true
  | .killed => true
  | .input _ => true
  | .inputLost _ => true
  | .inputClosed => true
  | .io (.tx (.request _)) => true
  | .io (.tx (.adjust _)) => true
  | .io (.rx (.ext _)) => true
  | _ => false

/-- Entries about the end of a process. -/
def reportEntry : SessEntry → Bool
  | .exited => true
  | .io (.tx (.request _)) => true
  | _ => false

/-- The end of a process is reported right after it, and nothing else is reported. -/
inductive Reports : List SessEntry → Prop
  | nil : Reports []
  | other {e l} (h : reportEntry e = false) (hl : Reports l) : Reports (e :: l)
  | exit {l} (hl : Reports l) : Reports (.exited :: .io (.tx (.request false)) :: l)
  | exitClosed {l} (hl : Reports l) : Reports (.exited :: .inputClosed :: .io (.tx (.request false)) :: l)

theorem Reports.append {a b} (h : Reports a) (g : Reports b) : Reports (a ++ b) := by
  induction h with
  | nil => exact g
  | other h _ ih => exact .other h ih
  | exit _ ih => exact .exit ih
  | exitClosed _ ih => exact .exitClosed ih

theorem Reports.same {a l : List SessEntry} (h : a = a ++ l) : Reports l := by
  rw [show l = [] by simpa using h]; exact .nil

theorem Reports.one {a l : List SessEntry} {e} (h : a ++ [e] = a ++ l) (he : reportEntry e = false) : Reports l := by
  rw [← List.append_cancel_left h]; exact .other he .nil

/-- Nothing happens to the output side, and nothing is opened; `w`: something may happen
to the input side. -/
structure Misc (w : Bool) (s s' : Sess) : Prop where
  sendWin : s'.sendWin = s.sendWin
  stdout : s'.stdout = s.stdout
  stderr : s'.stderr = s.stderr
  tty : s'.tty = s.tty
  slaveTty : s'.slaveTty = s.slaveTty
  agent : s'.agent = s.agent
  enabled : s'.stdinEnabled = s.stdinEnabled
  stdin : s'.stdin.isSome = true → s.stdin.isSome = true
  child : s'.child.isSome = true → s.child.isSome = true
  tasks : ∀ t ∈ s'.tasks, t ∈ s.tasks ∨ willStart t = false
  log : ∃ l, s'.log = s.log ++ l ∧ (∀ e ∈ l, inert e = true) ∧
    (s.stdin.isSome = true → s'.stdin = none → SessEntry.inputClosed ∈ l)
  same : w = false → s'.stdin = s.stdin ∧ s'.ttyWr = s.ttyWr ∧ s'.stdinDeferred = s.stdinDeferred ∧
    s'.log.count .inputClosed = s.log.count .inputClosed
  rep : ∀ l, s'.log = s.log ++ l → Reports l

/-- `k`: a process was asked for.  `fr`: pipes are opened only if there are none.  `w`:
see above.  `s0`: the state in the beginning.  `rx`: what is received. -/
structure PMode where
  k : Bool
  fr : Bool
  w : Bool
  s0 : Sess
  rx : Option SessEntry

/-- No pipes. -/
structure Fresh (s : Sess) : Prop where
  stdin : s.stdin = none
  stdout : s.stdout = none
  stderr : s.stderr = none

/-- Nothing to read from. -/
structure NoSource (s : Sess) : Prop where
  stdout : s.stdout = none
  stderr : s.stderr = none
  tty : s.tty = none

/-- The tasks which are not for `Exec`. -/
def isService : STask → Bool
  | .rsync _ => true
  | .git _ _ => true
  | .sftp => true
  | _ => false

/-- One step. -/
inductive Prim (cfg : SessCfg) (m : PMode) : Sess → Sess → Prop
  | misc {s s' : Sess} (h : Misc m.w s s') : Prim cfg m s s'
  | rx (s : Sess) (e : SessEntry) (h : m.rx = some e) (he : e = .io (.rx .eof) ∨ ∃ bs, e = .data bs) : Prim cfg m s (s.emit e)
  | ask (s : Sess) (name data : Bytes) (hk : startRequests [.asked name data] ≠ 0 → m.k = true) :
      Prim cfg m s (s.emit (.asked name data))
  | suspend (s : Sess) (t : STask) (hk : m.k = true) (hc : s.child = none) (ht : t = .sftp → s.tty = none)
      (hs : isService t = true → t ≠ .sftp → cfg.exec = false) (hw : ∀ p, t ≠ .wait p) :
      Prim cfg m s { s with tasks := s.tasks ++ [(s.nextTask, t)], nextTask := s.nextTask + 1 }
  | setStderr (s : Sess) (text : Bytes) (hk : m.k = true) : Prim cfg m s (s.setStderr text)
  | pipes (s : Sess) (hk : m.k = true) (hf : m.fr = true → Fresh s ∧ s.tty = none)
      (h0 : s = { m.s0 with agent := s.agent }) (ht : ∃ t ∈ m.s0.tasks, willStart t = true) : Prim cfg m s { s with stdin := some false, stdout := some {}, stderr := some {} }
  | agent (s : Sess) (b : Bool) (hk : m.k = true) : Prim cfg m s { s with agent := b }
  | handTty (s : Sess) (hk : m.k = true) (ht : ∃ t ∈ m.s0.tasks, willStart t = true) : Prim cfg m s { s with slaveTty := false }
  | spawn (s : Sess) (program original terminal) (hk : m.k = true) (h1 : terminal = false → s.stdin.isSome = true)
      (h2 : terminal = true → s.tty.isSome = true) : Prim cfg m s (s.spawn cfg program original terminal)
  | sched (s : Sess) (hk : m.k = true) : Prim cfg m s s.maybeScheduleRead
  | term (s : Sess) (hk : m.k = false) (hx : cfg.exec = true) (hc : s.child = none) : Prim cfg m s { s with
      slaveTty := true, tty := some {}, ttyWr := false, log := s.log ++ [SessEntry.terminalAllocated] }
  | enable (s : Sess) (hk : m.k = true) (hw : m.w = true) (h : s.child.isSome = true) : Prim cfg m s { s with stdinEnabled := true }
  | adjust (s : Sess) (n : Nat) (hn : n ≠ 0) : Prim cfg m s
      { (if s.sendWin = 0 then s.scheduleRead else s) with sendWin := s.sendWin + n, log := s.log ++ [.io (.rx (.adjust n))] }
  | kexinit (s : Sess) (hk : m.k = false) : Prim cfg m s
      { (if 0 < s.sendWin then s.cancelRead else s) with log := s.log ++ [.io .kexinit] }
  | newkeys (s : Sess) : Prim cfg m s (s.emit (.io .newkeys)).maybeScheduleRead
  | wrote (s : Sess) (f : Stream) (x : Source) (bs : Bytes) (hx : s.source f = some x) (hw : x.writers = true) :
      Prim cfg m s ((s.setSource f (some { x with content := x.content ++ bs })).emit (.wrote f bs))
  | closes (s : Sess) (f : Stream) (x : Source) (hx : s.source f = some x) (h : f = .terminal → s.slaveTty = false) :
      Prim cfg m s (s.setSource f (some { x with writers := false }))
  | send (s : Sess) (f : Stream) (x : Source) (len : Nat) (hx : s.source f = some x) (hr : x.rd = true)
      (hc : x.content ≠ []) (hs : 0 < s.sendWin) (hk : m.k = false) :
      Prim cfg m s (s.sendFrom f x (x.content.take (min (len + 1) (min 4096 s.sendWin))))
  | srcEnd (s : Sess) (f : Stream) (x : Source) (hx : s.source f = some x) (hw : x.writers = false)
      (hc : f ≠ .terminal → x.content = []) :
      Prim cfg m s { s.setSource f none with ttyWr := s.ttyWr && f != Stream.terminal }
  | eofOut (s : Sess) (h : NoSource s) (h0 : ∃ f x, m.s0.source f = some x ∧ x.writers = false)
      (hl : s.log.count (.io (.tx .eof)) = m.s0.log.count (.io (.tx .eof))) (hk : m.k = false) : Prim cfg m s (s.emit (.io (.tx .eof)))
  | closeOut (s : Sess) (h : NoSource s) (hc : s.child = none) : Prim cfg m s (s.emit (.io (.tx .close)))

inductive Prims (cfg : SessCfg) (m : PMode) : Sess → Sess → Prop
  | refl (s : Sess) : Prims cfg m s s
  | tail {s t u : Sess} (h : Prims cfg m s t) (g : Prim cfg m t u) : Prims cfg m s u

variable {cfg : SessCfg} {m : PMode}

theorem Prims.one {s s' : Sess} (h : Prim cfg m s s') : Prims cfg m s s' := .tail (.refl s) h

theorem Prims.trans {s t u : Sess} (h : Prims cfg m s t) (g : Prims cfg m t u) : Prims cfg m s u := by
  induction g with
  | refl => exact h
  | tail _ g ih => exact .tail ih g

/-- An invariant is kept if each step keeps it. -/
theorem Prims.induct {P : Sess → Prop} (h : ∀ s s', Prim cfg m s s' → P s → P s') {s s' : Sess}
    (hs : Prims cfg m s s') (hp : P s) : P s' := by
  induction hs with
  | refl => exact hp
  | tail _ g ih => exact h _ _ g ih

/-! ## Miscellaneous steps -/

theorem Misc.refl (w) (s : Sess) : Misc w s s :=
  ⟨rfl, rfl, rfl, rfl, rfl, rfl, rfl, id, id, fun _ h => .inl h, ⟨[], by simp, by simp, fun h1 h2 => by rw [h2] at h1; simp at h1⟩,
    fun _ => ⟨rfl, rfl, rfl, by simp⟩, fun _ h => .same h⟩

theorem Misc.trans {w} {s t u : Sess} (h : Misc w s t) (g : Misc w t u) : Misc w s u := by
  obtain ⟨l1, e1, p1, q1⟩ := h.log
  obtain ⟨l2, e2, p2, q2⟩ := g.log
  refine ⟨g.sendWin.trans h.sendWin, g.stdout.trans h.stdout, g.stderr.trans h.stderr, g.tty.trans h.tty,
    g.slaveTty.trans h.slaveTty, g.agent.trans h.agent, g.enabled.trans h.enabled, fun x => h.stdin (g.stdin x),
    fun x => h.child (g.child x), ?_, ⟨l1 ++ l2, by rw [e2, e1, List.append_assoc], ?_, ?_⟩, ?_, ?_⟩
  · intro x hx
    rcases g.tasks x hx with hx | hx
    · exact h.tasks x hx
    · exact .inr hx
  · intro e he
    rcases List.mem_append.mp he with he | he
    · exact p1 e he
    · exact p2 e he
  · intro h1 h2
    cases ht : t.stdin with
    | none => exact List.mem_append_left _ (q1 h1 ht)
    | some d => exact List.mem_append_right _ (q2 (by rw [ht]; rfl) h2)
  · intro hw
    obtain ⟨a1, a2, a3, a4⟩ := h.same hw
    obtain ⟨b1, b2, b3, b4⟩ := g.same hw
    exact ⟨b1.trans a1, b2.trans a2, b3.trans a3, b4.trans a4⟩
  · intro l hl
    rw [e2, e1, List.append_assoc] at hl
    rw [← List.append_cancel_left hl]
    exact (h.rep l1 e1).append (g.rep l2 e2)

theorem Misc.emit {w} (s : Sess) {e : SessEntry} (h : inert e = true) (hc : e ≠ .inputClosed := by simp)
    (hr : reportEntry e = false := by rfl) : Misc w s (s.emit e) :=
  ⟨rfl, rfl, rfl, rfl, rfl, rfl, rfl, id, id, fun _ h => .inl h,
    ⟨[e], rfl, by simpa using h, fun h1 h2 => by rw [show s.stdin = none from h2] at h1; simp at h1⟩,
    fun _ => ⟨rfl, rfl, rfl, by simp [Sess.emit, List.count_append, List.count_cons, hc]⟩, fun _ h => .one h hr⟩

/-- Fields which do not occur in `Misc`. -/
theorem Misc.quiet {w} {s s' : Sess} (h0 : s'.sendWin = s.sendWin) (h1 : s'.stdout = s.stdout) (h2 : s'.stderr = s.stderr)
    (h3 : s'.tty = s.tty) (h4 : s'.slaveTty = s.slaveTty) (h5 : s'.agent = s.agent) (h6 : s'.stdinEnabled = s.stdinEnabled)
    (h7 : s'.stdin = s.stdin) (h8 : s'.child = s.child) (h9 : ∀ t ∈ s'.tasks, t ∈ s.tasks ∨ willStart t = false)
    (h10 : s'.log = s.log) (h11 : s'.ttyWr = s.ttyWr) (h12 : s'.stdinDeferred = s.stdinDeferred) : Misc w s s' :=
  ⟨h0, h1, h2, h3, h4, h5, h6, by rw [h7]; exact id, by rw [h8]; exact id, h9,
    ⟨[], by simp [h10], by simp, fun h1 h2 => by rw [← h7, h2] at h1; simp at h1⟩, fun _ => ⟨h7, h11, h12, by rw [h10]⟩,
    fun _ h => .same (h10 ▸ h)⟩

theorem Misc.scheduleWrite (s : Sess) : Misc true s s.scheduleWrite := by
  unfold Sess.scheduleWrite
  split
  · rename_i d hd
    exact ⟨rfl, rfl, rfl, rfl, rfl, rfl, rfl, fun _ => by rw [hd]; rfl, id, fun _ h => .inl h, ⟨[], by simp, by simp, by simp⟩, by simp, fun _ h => .same h⟩
  · rename_i hd
    exact ⟨rfl, rfl, rfl, rfl, rfl, rfl, rfl, id, id, fun _ h => .inl h,
      ⟨[], by simp, by simp, by simp [hd]⟩, by simp, fun _ h => .same h⟩

theorem Misc.closeStdin (s : Sess) : Misc true s s.closeStdin := by
  unfold Sess.closeStdin
  split
  · exact ⟨rfl, rfl, rfl, rfl, rfl, rfl, rfl, by simp, id, fun _ h => .inl h, ⟨_, rfl, by simp [inert], by simp⟩, by simp, fun _ h => .one h rfl⟩
  · exact .refl _ _

theorem Misc.exit (s : Sess) : Misc true s
    ((({ s with child := none, log := s.log ++ [SessEntry.exited] } : Sess).closeStdin).emit (.io (.tx (.request false)))) := by
  unfold Sess.closeStdin
  split
  · exact ⟨rfl, rfl, rfl, rfl, rfl, rfl, rfl, by simp [Sess.emit], by simp [Sess.emit], fun _ h => .inl h,
      ⟨[.exited, .inputClosed, .io (.tx (.request false))], by simp [Sess.emit], by simp [inert], by simp⟩, by simp,
      fun l h => by
        rw [← List.append_cancel_left (as := s.log) (bs := [.exited, .inputClosed, .io (.tx (.request false))]) (cs := l)
          (by rw [← h]; simp [Sess.emit])]
        exact .exitClosed .nil⟩
  · exact ⟨rfl, rfl, rfl, rfl, rfl, rfl, rfl, id, by simp [Sess.emit], fun _ h => .inl h,
      ⟨[.exited, .io (.tx (.request false))], by simp [Sess.emit], by simp [inert],
        fun h1 h2 => by rw [show s.stdin = none from h2] at h1; simp at h1⟩, by simp,
      fun l h => by
        rw [← List.append_cancel_left (as := s.log) (bs := [.exited, .io (.tx (.request false))]) (cs := l)
          (by rw [← h]; simp [Sess.emit])]
        exact .exit .nil⟩

theorem Misc.dropChild {w} (s : Sess) : Misc w s s.dropChild := by
  unfold Sess.dropChild
  split
  · exact ⟨rfl, rfl, rfl, rfl, rfl, rfl, rfl, id, by simp, fun _ h => .inl h,
      ⟨_, rfl, by simp [inert], fun h1 h2 => by rw [h2] at h1; simp at h1⟩, fun _ => ⟨rfl, rfl, rfl, by simp⟩, fun _ h => .one h rfl⟩
  · exact .refl _ _

theorem Misc.consume {w} {s s' : Sess} {n} (h : s.consume n = some s') : Misc w s s' := by
  unfold Sess.consume at h
  split at h
  · split at h
    · simp only [Option.some.injEq] at h
      subst h
      exact ⟨rfl, rfl, rfl, rfl, rfl, rfl, rfl, id, id, fun _ h => .inl h,
        ⟨_, rfl, by simp [inert], fun h1 h2 => by rw [show s.stdin = none from h2] at h1; simp at h1⟩, fun _ => ⟨rfl, rfl, rfl, by simp [Sess.emit]⟩,
        fun _ h => .one h rfl⟩
    · simp only [Option.some.injEq] at h
      subst h
      exact .quiet rfl rfl rfl rfl rfl rfl rfl rfl rfl (fun _ h => .inl h) rfl rfl rfl
  · simp at h

theorem Misc.wroteInput (s : Sess) (payload n) : Misc true s (s.wroteInput payload n) := by
  unfold Sess.wroteInput
  split
  · exact (Misc.emit s (e := .input (payload.take n)) rfl).trans (.scheduleWrite _)
  · exact .emit s rfl

theorem Misc.writeInput (s : Sess) (payload : Bytes) (k : Wrote) : Misc true s (s.writeInput payload k).1 := by
  unfold Sess.writeInput
  cases k with
  | wouldBlock => exact .scheduleWrite s
  | failed => exact (Misc.closeStdin s).trans (.emit _ rfl)
  | wrote m =>
    simp only
    split
    · exact .refl _ _
    · rename_i s' h; exact (Misc.wroteInput s _ _).trans (.consume h)

theorem Misc.data (s : Sess) (payload : Bytes) (k : Wrote) : Misc true s (Sess.ops.data s payload k).1 := by
  unfold Sess.ops
  simp only
  have hd : Misc true s { s with stdinDeferred := true } := by
    exact ⟨rfl, rfl, rfl, rfl, rfl, rfl, rfl, id, id, fun _ h => .inl h,
      ⟨[], by simp, by simp, fun h1 h2 => by rw [h2] at h1; simp at h1⟩, by simp, fun _ h => .same h⟩
  generalize s.stdinEnabled = en at *
  cases en
  · exact hd
  · simp only [Bool.not_true, cond_false]
    cases !s.stdin.isSome && !s.tty.isSome
    · exact .writeInput s payload k
    · exact .emit s rfl

theorem Misc.keeps (s0 : Sess) : Keeps Sess.ops (fun s _ => Misc true s0 s) where
  data := fun {g b pl k g' n q} h e => by
    have := Misc.data g pl k
    rw [e] at this
    exact h.trans this
  stop := fun {g b pl k g' e} h he => by
    have := Misc.data g pl k
    rw [he] at this
    exact h.trans this
  eof := fun {g b p} h => h.trans (.closeStdin _)

theorem Misc.ofBuf {s0 : Sess} {r : Sess × Buf × Option BufStop} (h : Misc true s0 r.1) : Misc true s0 (SessCh.ofBuf r).s := h

/-! ## Events -/

theorem Prims.answer (y : SessCh) (ok) : Prims cfg m y.s (y.answer ok).s := .one (.misc (.emit _ rfl))

theorem Prims.refuse (hk : m.k = true) (y : SessCh) (v text) : Prims cfg m y.s (y.refuse v text).s := by
  unfold SessCh.refuse
  cases v
  · exact .answer _ _
  · exact (Prims.one (.setStderr y.s text hk)).trans (.answer ⟨y.s.setStderr text, y.buf, y.stop⟩ _)

theorem Prims.finish (y : SessCh) (id) : Prims cfg m y.s (y.finish id).s :=
  .one (.misc (.quiet rfl rfl rfl rfl rfl rfl rfl rfl rfl (fun _ h => .inl (List.mem_filter.mp h).1) rfl rfl rfl))

theorem Prims.execGit (hk : m.k = true) (hx : cfg.exec = false) (y : SessCh) (hc : y.s.child = none) (service arg) :
    Prims cfg m y.s (y.execGit service arg).s := by
  unfold SessCh.execGit
  split
  · exact .answer _ _
  · exact .one (.suspend _ _ hk hc (by simp) (fun _ _ => hx) (by simp))

theorem Prims.execOther (hk : m.k = true) (hx : cfg.exec = false) (y : SessCh) (hc : y.s.child = none) (cmd) :
    Prims cfg m y.s (y.execOther cfg cmd).s := by
  unfold SessCh.execOther
  split
  · exact .execGit hk hx _ hc _ _
  · split
    · exact .execGit hk hx _ hc _ _
    · exact .refuse hk _ _ _

theorem Prims.exec (hk : m.k = true) (y : SessCh) (hc : y.s.child = none) (cmd) : Prims cfg m y.s (y.exec cfg cmd).s := by
  unfold SessCh.exec
  cases hx : cfg.exec with
  | true => cases cmd <;> exact .one (.suspend _ _ hk hc (by simp) (by simp [isService]) (by simp))
  | false =>
    cases cmd with
    | none => exact .refuse hk _ _ _
    | some cmd =>
      simp only [cond_false]
      split
      · exact .one (.suspend _ _ hk hc (by simp) (fun _ _ => hx) (by simp))
      · exact .refuse hk _ _ _
      · exact .execOther hk hx _ hc _

theorem Prims.setEnv {s s' : Sess} {a b} (h : s.setEnv a b = some s') : Prims cfg m s s' := by
  unfold Sess.setEnv at h
  split at h
  · simp at h
  · simp only [Option.some.injEq] at h
    subst h
    exact .one (.misc (.quiet rfl rfl rfl rfl rfl rfl rfl rfl rfl (fun _ h => .inl h) rfl rfl rfl))

theorem Prims.ptyReq (hk : m.k = false) (y : SessCh) (hc : y.s.child = none) (data ok) : Prims cfg m y.s (y.ptyReq cfg data ok).s := by
  unfold SessCh.ptyReq
  cases hx : !cfg.exec || y.s.restr.noTerminal
  · have hx : cfg.exec = true := by
      cases h : cfg.exec
      · rw [h] at hx; simp at hx
      · rfl
    simp only [cond_false]
    split
    · exact .refl _
    · cases ok
      · exact .refl _
      · simp only [Bool.not_true, cond_false]
        split
        · exact .refl _
        · rename_i s' hs
          exact ((Prims.one (.term y.s hk hx hc)).trans (.setEnv hs)).trans (.answer ⟨s', y.buf, y.stop⟩ _)
  · exact .answer _ _

theorem Prims.lateRequest (y : SessCh) (name data ok) : Prims cfg m y.s (y.lateRequest name data ok).s := by
  unfold SessCh.lateRequest
  split
  · cases !y.s.tty.isSome
    · simp only [cond_false]
      split
      · exact .refl _
      · cases ok
        · exact .refl _
        · exact .answer _ _
    · exact .answer _ _
  · exact .answer _ _

theorem Prims.request (y : SessCh) (name data ok) (hk : m.k = (startRequests [.asked name data] != 0)) :
    Prims cfg m y.s (y.request cfg name data ok).s := by
  unfold SessCh.request
  cases hc : y.s.child with
  | some pid => exact .lateRequest _ _ _ _
  | none =>
    simp only [Option.isSome_none, cond_false]
    split
    · rename_i hn
      have hk : m.k = true := hk.trans (by subst hn; simp [startRequests])
      unfold SessCh.execRequest
      split
      · exact .refl _
      · split
        · exact .refuse hk _ _ _
        · exact .exec hk _ hc _
    · split
      · rename_i hn
        exact .exec (hk.trans (by subst hn; simp [startRequests])) _ hc _
      · split
        · rename_i hn
          have hk : m.k = true := hk.trans (by subst hn; simp [startRequests])
          unfold SessCh.subsystem
          split
          · exact .refl _
          · split
            · cases cfg.sftp
              · exact .answer _ _
              · simp only [Bool.not_true, cond_false]
                cases ht : y.s.tty with
                | none => exact .one (.suspend _ _ hk hc (fun _ => ht) (by simp) (by simp))
                | some x => exact .answer _ _
            · exact .answer _ _
        · split
          · rename_i hn
            exact .ptyReq (hk.trans (by subst hn; simp [startRequests, ascii])) _ hc _ _
          · split
            · unfold SessCh.envRequest
              cases cfg.exec
              · exact .answer _ _
              · simp only [Bool.not_true, cond_false]
                split
                · exact .refl _
                · split
                  · exact .refl _
                  · rename_i s' hs
                    exact (Prims.setEnv hs).trans (.answer ⟨s', y.buf, y.stop⟩ _)
            · split
              · exact Prims.trans (t := { y.s with agentReq := true })
                  (.one (.misc (.quiet rfl rfl rfl rfl rfl rfl rfl rfl rfl (fun _ h => .inl h) rfl rfl rfl)))
                  (.answer ⟨{ y.s with agentReq := true }, y.buf, y.stop⟩ _)
              · exact .answer _ _

theorem Prims.launch (hk : m.k = true) (y : SessCh) (id program original terminal r)
    (h1 : terminal = false → y.s.stdin.isSome = true) (h2 : terminal = true → y.s.tty.isSome = true) :
    Prims cfg m y.s (y.launch cfg id program original terminal r).s := by
  have hf := Prims.finish (cfg := cfg) (m := m) y id
  unfold SessCh.launch
  split
  · exact (hf.trans (.one (.sched _ hk))).trans (.refuse hk ⟨_, _, _⟩ _ _)
  · refine (hf.trans (.one (.spawn _ program original terminal hk h1 h2))).trans (.one (.misc ?_))
    refine .quiet rfl rfl rfl rfl rfl rfl rfl rfl rfl ?_ rfl rfl rfl
    intro t ht
    rcases List.mem_append.mp ht with ht | ht
    · exact .inl ht
    · rw [List.mem_singleton.mp ht]; exact .inr rfl

theorem preparePipes_eq {nd} {s s' : Sess} (h : s.preparePipes nd = some s') :
    s' = { s with stdin := some false, stdout := some {}, stderr := some {} } ∧ (nd = false → Fresh s) := by
  unfold Sess.preparePipes at h
  cases hc : (s.stdin.isSome || s.stdout.isSome || s.stderr.isSome) && !nd
  · rw [hc] at h
    simp only [cond_false, Option.some.injEq] at h
    refine ⟨h.symm, fun hn => ?_⟩
    subst hn
    simp only [Bool.not_false, Bool.and_true, Bool.or_eq_false_iff, Option.isSome_eq_false_iff, Option.isNone_iff_eq_none] at hc
    exact ⟨hc.1.1, hc.1.2, hc.2⟩
  · rw [hc] at h; simp at h

theorem preparePipes_stdin {nd} {s s' : Sess} (h : s.preparePipes nd = some s') : s'.stdin.isSome = true := by
  rw [(preparePipes_eq h).1]; rfl

theorem Prims.preparePipes {s s' : Sess} {nd} (hk : m.k = true) (ht : ∃ t ∈ m.s0.tasks, willStart t = true) (h0 : s = { m.s0 with agent := s.agent })
    (hf : m.fr = true → (nd = false ∨ Fresh s) ∧ s.tty = none) (h : s.preparePipes nd = some s') : Prims cfg m s s' := by
  obtain ⟨h1, h2⟩ := preparePipes_eq h
  subst h1
  refine .one (.pipes s hk (fun hr => ?_) h0 ht)
  obtain ⟨h3, h4⟩ := hf hr
  exact ⟨h3.elim h2 id, h4⟩

theorem Prims.prepareExec (hk : m.k = true) (ht : ∃ t ∈ m.s0.tasks, willStart t = true) {s s' : Sess} (h0 : s = m.s0) (hf : m.fr = true → cfg.ndebug = false ∨ Fresh s)
    (h : s.prepareExec cfg = some s') :
    Prims cfg m s s' ∧ (s'.tty.isSome = false → s'.stdin.isSome = true) := by
  unfold Sess.prepareExec at h
  revert h
  cases s.agent && !cfg.ndebug
  · simp only [cond_false]
    have ha : Prims cfg m s { s with agent := s.agent || s.agentReq } := .one (.agent s _ hk)
    cases hs : s.tty.isSome
    · simp only [cond_false]
      intro h
      have hn : s.tty = none := by simpa using hs
      refine ⟨ha.trans (.preparePipes hk ht (by rw [← h0]) (fun hr => ⟨?_, hn⟩) h), fun _ => preparePipes_stdin h⟩
      exact (hf hr).imp id fun f => ⟨f.stdin, f.stdout, f.stderr⟩
    · simp only [cond_true, Option.some.injEq]
      intro h
      subst h
      refine ⟨ha.trans (.one (.handTty _ hk ht)), ?_⟩
      intro h2
      exact absurd h2 (by simp [hs])
  · simp

theorem Prims.enqueued (hk : m.k = true) (y : SessCh) (h0 : y.s = m.s0) (id r)
    (hf : m.fr = true → ∀ t, y.s.tasks.lookup id = some t → willStart (id, t) = true →
      (cfg.ndebug = false ∨ Fresh y.s) ∧ (isService t = true → (t = .sftp ∧ cfg.ndebug = false) ∨ y.s.tty = none)) :
    Prims cfg m y.s (y.enqueued cfg id r).s := by
  have hm : ∀ {t}, y.s.tasks.lookup id = some t → willStart (id, t) = true → ∃ t ∈ m.s0.tasks, willStart t = true := by
    intro t h1 h2
    obtain ⟨a, b, h3, _⟩ := List.lookup_eq_some_iff.mp h1
    exact ⟨(id, t), by rw [← h0, h3]; simp, h2⟩
  have hserv : ∀ t program, (m.fr = true → (cfg.ndebug = false ∨ Fresh y.s) ∧ (isService t = true → (t = .sftp ∧ cfg.ndebug = false) ∨ y.s.tty = none)) →
      isService t = true → t ≠ .sftp → (∃ t ∈ m.s0.tasks, willStart t = true) → Prims cfg m y.s (y.resumeService cfg id program r).s := by
    intro t program hf hs hns ht
    unfold SessCh.resumeService
    split
    · exact (Prims.finish y id).trans (.refuse hk _ _ _)
    · split
      · exact .refl _
      · rename_i s hp
        have h1 : Prims cfg m y.s s := .preparePipes hk ht (by rw [← h0]) (fun hr => ⟨(hf hr).1, ((hf hr).2 hs).resolve_left fun h => hns h.1⟩) hp
        split
        · exact h1.trans ((Prims.finish ⟨s, y.buf, y.stop⟩ id).trans (.refuse hk _ _ _))
        · exact h1.trans (.launch hk ⟨s, y.buf, y.stop⟩ _ _ _ _ _ (fun _ => preparePipes_stdin hp) (by simp))
  unfold SessCh.enqueued
  split
  · rename_i cmd hl
    unfold SessCh.resumeExec
    split
    · exact .refl _
    · split
      · exact .refl _
      · rename_i s hs
        obtain ⟨h1, h2⟩ := Prims.prepareExec (m := m) hk (hm hl rfl) h0 (fun hr => (hf hr _ hl rfl).1) hs
        exact h1.trans (.launch hk ⟨s, y.buf, y.stop⟩ _ _ _ _ _ h2 (fun h => h))
  · rename_i hl; exact hserv _ _ (fun hr => hf hr _ hl rfl) rfl (by simp) (hm hl rfl)
  · rename_i hl; exact hserv _ _ (fun hr => hf hr _ hl rfl) rfl (by simp) (hm hl rfl)
  · rename_i hl
    unfold SessCh.resumeSftp
    split
    · exact .refl _
    · cases hc : y.s.tty.isSome && !cfg.ndebug
      · simp only [cond_false]
        split
        · exact .refl _
        · rename_i s hs
          refine (Prims.preparePipes hk (hm hl rfl) (by rw [← h0]) (fun hr => ⟨(hf hr _ hl rfl).1, ?_⟩) hs).trans
            (.launch hk ⟨s, y.buf, y.stop⟩ _ _ _ _ _ (fun _ => preparePipes_stdin hs) (by simp))
          rcases (hf hr _ hl rfl).2 rfl with h | h
          · rw [h.2] at hc
            simpa using hc
          · exact h
      · exact .refl _
  · exact .refl _

theorem enableStdin_eq (s : Sess) : s.enableStdin = { s with stdinEnabled := true } ∨
    s.enableStdin = ({ s with stdinEnabled := true } : Sess).scheduleWrite := by
  unfold Sess.enableStdin
  simp only [Bool.cond_eq_ite]
  split
  · exact .inr rfl
  · exact .inl rfl

theorem Prims.completed (hk : m.k = true) (hw : m.w = true) (y : SessCh) (id err) : Prims cfg m y.s (y.completed cfg id err).s := by
  unfold SessCh.completed
  split
  · split
    · rename_i hc
      split
      · have h : (y.finish id).s.child.isSome = true := by
          show y.s.child.isSome = true
          rw [hc]; rfl
        refine ((Prims.finish y id).trans ?_).trans (.answer ⟨(y.finish id).s.enableStdin, y.buf, y.stop⟩ _)
        have h1 : Prims cfg m (y.finish id).s { (y.finish id).s with stdinEnabled := true } := .one (.enable _ hk hw h)
        rcases enableStdin_eq (y.finish id).s with e | e
        · rw [e]; exact h1
        · rw [e]
          refine h1.trans (.one (.misc ?_))
          rw [hw]
          exact .scheduleWrite _
      · exact (Prims.finish y id).trans (.refuse hk _ _ _)
    · exact .refl _
  · exact .refl _

theorem noSource_of {s : Sess} (h : (s.stdout.isSome || s.stderr.isSome || s.tty.isSome) = false) : NoSource s := by
  simp only [Bool.or_eq_false_iff, Option.isSome_eq_false_iff, Option.isNone_iff_eq_none] at h
  exact ⟨h.1.1, h.1.2, h.2⟩

theorem Prims.closeIfInactive (y : SessCh) : Prims cfg m y.s y.closeIfInactive.s := by
  unfold SessCh.closeIfInactive
  cases h : y.s.stdout.isSome || y.s.stderr.isSome || y.s.tty.isSome || y.s.child.isSome
  · rw [Bool.or_eq_false_iff] at h
    have hn := noSource_of h.1
    have hd := Misc.dropChild (w := m.w) y.s
    refine (Prims.one (.misc hd)).trans (.one (.closeOut _ ⟨?_, ?_, ?_⟩ ?_))
    · exact hd.stdout.trans hn.stdout
    · exact hd.stderr.trans hn.stderr
    · exact hd.tty.trans hn.tty
    · exact dropChild_child _
  · exact .refl _

theorem Misc.txEof {w s s'} (h : Misc w s s') : s'.log.count (.io (.tx .eof)) = s.log.count (.io (.tx .eof)) := by
  obtain ⟨l, e, hi, _⟩ := h.log
  have h0 : l.count (.io (.tx .eof)) = 0 := List.count_eq_zero.mpr fun hc => by have := hi _ hc; simp [inert] at this
  rw [e, List.count_append, h0]; rfl

theorem Prims.maybeSendEof (hk : m.k = false) (y : SessCh) (h0 : ∃ f x, m.s0.source f = some x ∧ x.writers = false)
    (hl : y.s.log.count (.io (.tx .eof)) = m.s0.log.count (.io (.tx .eof))) : Prims cfg m y.s y.maybeSendEof.s := by
  unfold SessCh.maybeSendEof
  cases h : y.s.stdout.isSome || y.s.stderr.isSome || y.s.tty.isSome
  · exact (Prims.one (.eofOut _ (noSource_of h) h0 hl hk)).trans (.closeIfInactive ⟨y.s.emit (.io (.tx .eof)), y.buf, y.stop⟩)
  · exact .refl _

theorem Prims.endOfSource (hk : m.k = false) (y : SessCh) {f x} (h0 : m.s0.source f = some x) (hx : y.s.source f = some x) (hw : x.writers = false)
    (hc : f ≠ .terminal → x.content = []) (hl : y.s.log.count (.io (.tx .eof)) = m.s0.log.count (.io (.tx .eof))) :
    Prims cfg m y.s (y.endOfSource f).s :=
  (Prims.one (.srcEnd y.s f x hx hw hc)).trans (.maybeSendEof hk ⟨_, y.buf, y.stop⟩ ⟨f, x, h0, hw⟩
    (by cases f <;> exact hl))

theorem source_reading {s : Sess} {f x} (hx : s.source f = some x) (hr : x.rd = true) : s.reading = true := by
  unfold Sess.reading
  cases f <;> simp only [Sess.source] at hx <;> rw [hx] <;> simp [srcRd, hr]

theorem Prims.readSource (hk : m.k = false) (y : SessCh) {f x} (h0 : m.s0.source f = some x) (hx : y.s.source f = some x) (hr : x.rd = true) (hs : 0 < y.s.sendWin)
    (hc : x.content = [] → x.writers = false) (hl : y.s.log.count (.io (.tx .eof)) = m.s0.log.count (.io (.tx .eof))) (len) :
    Prims cfg m y.s (y.readSource cfg f x len).s := by
  unfold SessCh.readSource
  simp only
  rw [if_neg (by omega)]
  split
  · rename_i h; exact .endOfSource hk y h0 hx (hc h) (fun _ => h) hl
  · rename_i h; exact .one (.send y.s f x len hx hr h hs hk)

theorem Prims.pipeReady (hk : m.k = false) (y : SessCh) (h0 : y.s = m.s0) (hrd : y.s.reading = true → 0 < y.s.sendWin) (f len) :
    Prims cfg m y.s (y.pipeReady cfg f len).s := by
  unfold SessCh.pipeReady
  split
  · exact .refl _
  · rename_i x hx
    cases h : x.rd && (!x.content.isEmpty || !x.writers)
    · exact .refl _
    · simp only [Bool.and_eq_true, Bool.or_eq_true, Bool.not_eq_true'] at h
      refine .readSource hk y (by rw [← h0]; exact hx) hx h.1 (hrd (source_reading hx h.1)) ?_ (by rw [h0]) len
      intro hc
      rcases h.2 with h | h
      · rw [hc] at h; simp at h
      · exact h

theorem Prims.ttyReady (hk : m.k = false) (hw : m.w = true) (y : SessCh) (h0 : y.s = m.s0) (hrd : y.s.reading = true → 0 < y.s.sendWin) (wr len) :
    Prims cfg m y.s (y.ttyReady cfg wr len).s := by
  unfold SessCh.ttyReady
  split
  · exact .refl _
  · rename_i x hx
    simp only
    cases hc : (!(x.rd && !x.content.isEmpty) && !(y.ttyWritable wr).isSome)
    · simp only [cond_false]
      have h1 : Misc true y.s (y.ttyWrite (y.ttyWritable wr)).s := by
        unfold SessCh.ttyWrite
        split
        · exact .refl _ _
        · refine Misc.ofBuf ((Misc.keeps y.s).read (g := { y.s with ttyWr := false }) ?_)
          exact ⟨rfl, rfl, rfl, rfl, rfl, rfl, rfl, id, id, fun _ h => .inl h,
            ⟨[], by simp, by simp, fun h1 h2 => by rw [show y.s.stdin = none from h2] at h1; simp at h1⟩, by simp,
            fun _ h => .same h⟩
      generalize y.ttyWrite (y.ttyWritable wr) = y1 at *
      refine (Prims.one (.misc (by rw [hw]; exact h1))).trans ?_
      unfold SessCh.ttyRead
      split
      · exact .refl _
      · split
        · exact .refl _
        · rename_i x' hx'
          cases hr : x.rd && !x.content.isEmpty
          · exact .refl _
          · rw [h1.tty, hx] at hx'
            simp only [Option.some.injEq] at hx'
            subst hx'
            simp only [Bool.and_eq_true, Bool.not_eq_true'] at hr
            have hx1 : y1.s.source .terminal = some x := h1.tty.trans hx
            refine .readSource hk y1 (by rw [← h0]; exact hx) hx1 hr.1 ?_ ?_ (by rw [h1.txEof, h0]) len
            · rw [h1.sendWin]; exact hrd (source_reading (f := .terminal) hx hr.1)
            · intro h; rw [h] at hr; simp at hr
    · simp only [cond_true]
      cases hwr : x.writers
      · exact .endOfSource hk y (f := .terminal) (by rw [← h0]; exact hx) hx hwr (fun h => absurd rfl h) (by rw [h0])
      · exact .refl _

/-- Does the event begin, or continue, starting a process? -/
def startEvent : SessEvent → Bool
  | .request name data _ => startRequests [.asked name data] != 0
  | .enqueued _ _ => true
  | .completed _ _ => true
  | _ => false

/-- The input side changes. -/
def inputEvent : SessEvent → Bool
  | .completed _ _ => true
  | .exited => true
  | .recvData _ _ => true
  | .recvEof => true
  | .stdinReady _ => true
  | .ttyReady _ _ => true
  | _ => false

/-- Data or end-of-file. -/
def received : SessEvent → Option SessEntry
  | .recvData bs _ => some (.data bs)
  | .recvEof => some (.io (.rx .eof))
  | _ => none

theorem Prims.handle (y : SessCh) (ev) (h0 : y.s = m.s0) (hk : m.k = startEvent ev) (hw : inputEvent ev = true → m.w = true) (hrx : m.rx = received ev)
    (hrd : y.s.reading = true → 0 < y.s.sendWin)
    (hf : m.fr = true → ∀ id t, y.s.tasks.lookup id = some t → willStart (id, t) = true →
      (cfg.ndebug = false ∨ Fresh y.s) ∧ (isService t = true → (t = .sftp ∧ cfg.ndebug = false) ∨ y.s.tty = none)) :
    Prims cfg m y.s (y.handle cfg ev).s := by
  have hbuf : ∀ {t s : Sess}, m.w = true → Misc true t s → Prims cfg m t s := fun hw h => .one (.misc (by rw [hw]; exact h))
  cases ev with
  | request name data ok =>
    exact (Prims.one (.ask y.s name data fun h => hk.trans (by simpa [startEvent] using h))).trans (.request ⟨y.s.emit (.asked name data), y.buf, y.stop⟩ _ _ _ hk)
  | enqueued id r => exact .enqueued hk y h0 id r fun hr => hf hr id
  | completed id err => exact .completed hk (hw rfl) y id err
  | exited =>
    show Prims cfg m y.s y.exited.s
    unfold SessCh.exited
    split
    · exact .refl _
    · exact (hbuf (hw rfl) (.exit y.s)).trans (.closeIfInactive ⟨_, y.buf, y.stop⟩)
  | restricted r =>
    refine .one (.misc ?_)
    exact ⟨rfl, rfl, rfl, rfl, rfl, rfl, rfl, id, id, fun _ h => .inl h,
      ⟨[.restricted r], rfl, by simp [inert], fun h1 h2 => by rw [show y.s.stdin = none from h2] at h1; simp at h1⟩, fun _ => ⟨rfl, rfl, rfl, by simp [SessCh.handle]⟩,
      fun _ h => .one h rfl⟩
  | recvData bs k =>
    simp only [SessCh.handle]
    split
    · exact .refl _
    · exact (Prims.one (.rx y.s (.data bs) hrx (.inr ⟨bs, rfl⟩))).trans
        (hbuf (hw rfl) (Misc.ofBuf ((Misc.keeps (y.s.emit (.data bs))).onData (.refl _ _) fun h => h)))
  | recvExt n =>
    simp only [SessCh.handle]
    split
    · exact .refl _
    · refine .one (.misc ?_)
      exact ⟨rfl, rfl, rfl, rfl, rfl, rfl, rfl, id, id, fun _ h => .inl h,
        ⟨[.io (.rx (.ext n))], rfl, by simp [inert], fun h1 h2 => by rw [show y.s.stdin = none from h2] at h1; simp at h1⟩, fun _ => ⟨rfl, rfl, rfl, by simp [Sess.emit]⟩,
        fun _ h => .one h rfl⟩
  | recvEof =>
    exact (Prims.one (.rx y.s (.io (.rx .eof)) hrx (.inl rfl))).trans
      (hbuf (hw rfl) (Misc.ofBuf ((Misc.keeps (y.s.emit (.io (.rx .eof)))).onEof (.refl _ _) fun h => h)))
  | recvAdjust n =>
    simp only [SessCh.handle]
    split
    · exact .refl _
    · rename_i hn
      have h := Prim.adjust (cfg := cfg) (m := m) y.s n hn
      refine .one ?_
      have e : ∀ (c : Prop) [Decidable c], ({ (if c then y.s.scheduleRead else y.s) with sendWin := y.s.sendWin + n, log := y.s.log ++ [.io (.rx (.adjust n))] } : Sess) =
        { (if c then (y.s.emit (.io (.rx (.adjust n)))).scheduleRead else y.s.emit (.io (.rx (.adjust n)))) with
          sendWin := (if c then (y.s.emit (.io (.rx (.adjust n)))).scheduleRead else y.s.emit (.io (.rx (.adjust n)))).sendWin + n } := by
        intro c _; split <;> rfl
      rw [e] at h
      exact h
  | blocked =>
    simp only [SessCh.handle]
    have h := Prim.kexinit (cfg := cfg) (m := m) y.s hk
    refine .one ?_
    have e : ∀ (c : Prop) [Decidable c], ({ (if c then y.s.cancelRead else y.s) with log := y.s.log ++ [.io .kexinit] } : Sess) =
        if c then (y.s.emit (.io .kexinit)).cancelRead else y.s.emit (.io .kexinit) := by
      intro c _; split <;> rfl
    rw [e] at h
    exact h
  | unblocked => exact .one (.newkeys y.s)
  | writes f bs =>
    simp only [SessCh.handle, Sess.processWrites]
    split
    · exact .refl _
    · rename_i x hx
      simp only [Bool.cond_eq_ite]
      split
      · rename_i h; exact .one (.wrote y.s f x bs hx h)
      · exact .refl _
  | closes f =>
    simp only [SessCh.handle, Sess.processCloses]
    split
    · exact .refl _
    · rename_i x hx
      cases h : f == Stream.terminal && y.s.slaveTty
      · refine .one (.closes y.s f x hx ?_)
        intro hf; subst hf; simpa using h
      · exact .refl _
  | stdinReady ks =>
    simp only [SessCh.handle, SessCh.stdinReady]
    split
    · rename_i hs
      cases y.buf.enough ks
      · exact .refl _
      · refine hbuf (hw rfl) (Misc.ofBuf ((Misc.keeps y.s).read (g := { y.s with stdin := some false }) ?_))
        exact ⟨rfl, rfl, rfl, rfl, rfl, rfl, rfl, fun _ => by rw [hs]; rfl, id, fun _ h => .inl h,
            ⟨[], by simp, by simp, fun h1 h2 => by simp at h2⟩, by simp, fun _ h => .same h⟩
    · exact .refl _
  | pipeReady f len =>
    simp only [SessCh.handle]
    split
    · exact .refl _
    · exact .pipeReady hk y h0 hrd f len
  | ttyReady wr len => exact .ttyReady hk (hw rfl) y h0 hrd wr len
  | gone => exact .one (.misc (.dropChild _))

/-- Events which do not concern the buffer. -/
def bufEvent : SessEvent → Bool
  | .recvData _ _ => true
  | .recvEof => true
  | .stdinReady _ => true
  | .ttyReady _ _ => true
  | _ => false

theorem handle_buf (y : SessCh) {ev} (h : bufEvent ev = false) : (y.handle cfg ev).buf = y.buf := by
  cases ev with
  | request name data ok => exact request_buf _ _ _ _ _
  | enqueued id r => exact enqueued_buf _ _ _ _
  | completed id err => exact completed_buf _ _ _ _
  | exited => exact exited_buf _
  | recvExt n => simp only [SessCh.handle]; split <;> rfl
  | recvAdjust n => simp only [SessCh.handle]; split <;> rfl
  | pipeReady f len =>
    simp only [SessCh.handle, SessCh.pipeReady]
    split
    · rfl
    · split
      · rfl
      · rename_i x hx
        cases x.rd && (!x.content.isEmpty || !x.writers)
        · rfl
        · exact readSource_buf _ _ _ _ _
  | recvData _ _ => simp [bufEvent] at h
  | recvEof => simp [bufEvent] at h
  | stdinReady _ => simp [bufEvent] at h
  | ttyReady _ _ => simp [bufEvent] at h
  | _ => rfl

end Lukko
