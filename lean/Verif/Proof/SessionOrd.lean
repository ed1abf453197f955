import Verif.Proof.SessionPrim
/-
  Clients which ask for one process only, and for a terminal only before that.
-/
namespace Lukko
open Model Spec

theorem spawn_log (cfg) (s : Sess) (program original terminal) :
    ∃ p l, (s.spawn cfg program original terminal).log = s.log ++ .started p :: l ∧ p.terminal = terminal ∧
      (∀ e ∈ l, e = SessEntry.killed) := by
  unfold Sess.spawn
  simp only
  have hm : ∀ s : Sess, s.maybeScheduleRead.log = s.log := by
    intro s; unfold Sess.maybeScheduleRead; split <;> rfl
  generalize hp : Proc.mk program original s.maybeScheduleRead.env terminal _ = p
  have ht : p.terminal = terminal := by rw [← hp]
  unfold Sess.dropChild
  split
  · refine ⟨p, [.killed], ?_, ht, by simp⟩
    simp only [hm, List.append_assoc, List.cons_append, List.nil_append]
  · refine ⟨p, [], ?_, ht, by simp⟩
    simp only [hm]

theorem setStderr_log (s : Sess) (text : Bytes) :
    ∃ l, (s.setStderr text).log = s.log ++ l ++ [.message text] ∧ (∀ e ∈ l, e = SessEntry.killed ∨ e = .inputClosed) ∧
      (s.stdin.isSome = true → SessEntry.inputClosed ∈ l) := by
  have h1 : ∃ l, s.dropChild.log = s.log ++ l ∧ (∀ e ∈ l, e = SessEntry.killed) ∧ s.dropChild.stdin = s.stdin := by
    unfold Sess.dropChild
    split
    · exact ⟨[.killed], rfl, by simp, rfl⟩
    · exact ⟨[], by simp, by simp, rfl⟩
  obtain ⟨l1, e1, p1, q1⟩ := h1
  have h2 : ∀ t : Sess, ∃ l, t.closeStdin.log = t.log ++ l ∧ (∀ e ∈ l, e = SessEntry.inputClosed) ∧
      (t.stdin.isSome = true → SessEntry.inputClosed ∈ l) := by
    intro t
    unfold Sess.closeStdin
    split
    · exact ⟨[.inputClosed], rfl, by simp, by simp⟩
    · rename_i h; exact ⟨[], by simp, by simp, by simp [h]⟩
  obtain ⟨l2, e2, p2, q2⟩ := h2 s.dropChild
  refine ⟨l1 ++ l2, ?_, ?_, ?_⟩
  · simp only [Sess.setStderr, e2, e1, List.append_assoc]
  · intro e he
    rcases List.mem_append.mp he with he | he
    · exact .inl (p1 e he)
    · exact .inr (p2 e he)
  · intro h
    exact List.mem_append_right _ (q2 (by rw [q1]; exact h))

theorem maybeScheduleRead_log (s : Sess) : s.maybeScheduleRead.log = s.log := by
  unfold Sess.maybeScheduleRead; split <;> rfl

theorem setSource_log (s : Sess) (f x) : (s.setSource f x).log = s.log := by cases f <;> rfl

theorem sendFrom_log (s : Sess) (f x bs) : (s.sendFrom f x bs).log = s.log ++ [.sent f bs] := by
  unfold Sess.sendFrom Sess.cancelIfExhausted
  simp only
  split
  · exact congrArg (· ++ _) (setSource_log s _ _)
  · exact congrArg (· ++ _) (setSource_log s _ _)

theorem Prim.log {cfg m s s'} (h : Prim cfg m s s') : ∃ l, s'.log = s.log ++ l := by
  cases h with
  | misc h => obtain ⟨l, e, _⟩ := h.log; exact ⟨l, e⟩
  | rx e h he => exact ⟨_, rfl⟩
  | ask name data hk => exact ⟨_, rfl⟩
  | suspend t => exact ⟨[], by simp⟩
  | setStderr text => obtain ⟨l, e, _⟩ := setStderr_log s text; exact ⟨_, by rw [e, List.append_assoc]⟩
  | pipes => exact ⟨[], by simp⟩
  | agent => exact ⟨[], by simp⟩
  | handTty => exact ⟨[], by simp⟩
  | spawn program original terminal => obtain ⟨p, l, e, _⟩ := spawn_log cfg s program original terminal; exact ⟨_, e⟩
  | sched => exact ⟨[], by simp [maybeScheduleRead_log]⟩
  | term => exact ⟨_, rfl⟩
  | enable => exact ⟨[], by simp⟩
  | adjust => exact ⟨_, rfl⟩
  | kexinit => exact ⟨_, rfl⟩
  | newkeys => exact ⟨[.io .newkeys], by rw [maybeScheduleRead_log]; rfl⟩
  | wrote f x bs => exact ⟨[.wrote f bs], by simp [Sess.emit, setSource_log]⟩
  | closes f x => exact ⟨[], by simp [setSource_log]⟩
  | send f x len => exact ⟨_, sendFrom_log _ _ _ _⟩
  | srcEnd f x => exact ⟨[], by simp [setSource_log]⟩
  | eofOut => exact ⟨_, rfl⟩
  | closeOut => exact ⟨_, rfl⟩

theorem Prims.log {cfg m s s'} (h : Prims cfg m s s') : ∃ l, s'.log = s.log ++ l := by
  induction h with
  | refl => exact ⟨[], by simp⟩
  | tail _ g ih =>
    obtain ⟨l, e⟩ := ih
    obtain ⟨l', e'⟩ := g.log
    exact ⟨l ++ l', by rw [e', e, List.append_assoc]⟩

theorem Spec.Orderly.prefix {a b : List SessEntry} (h : Orderly (a ++ b)) : Orderly a := by
  refine ⟨?_, ?_⟩
  · have := h.1; rw [startRequests_append] at this; omega
  · intro x y e
    exact h.2 x (y ++ b) (by rw [e]; simp)

/-- No process is going to be started. -/
def NoWill (s : Sess) : Prop := ∀ t ∈ s.tasks, willStart t = false

/-- Nothing has been started yet. -/
structure Unused (s : Sess) : Prop where
  fresh : Fresh s
  child : s.child = none
  enabled : s.stdinEnabled = false
  agent : s.agent = false

structure OrdW (cfg : SessCfg) (s : Sess) : Prop where
  exec : s.tty.isSome = true → cfg.exec = true
  serv : ∀ t ∈ s.tasks, isService t.2 = true → s.tty = none
  in_ : s.stdin.isSome = true → s.tty = none

structure Ord (cfg : SessCfg) (s : Sess) : Prop extends OrdW cfg s where
  before : startRequests s.log = 0 → NoWill s ∧ Unused s
  will : NoWill s ∨ Unused s

theorem Misc.serv {w s s'} (h : Misc w s s') {P : STask → Bool} (hp : ∀ t, P t = true → ∀ i, willStart (i, t) = true)
    {Q : Prop} (hs : ∀ t ∈ s.tasks, P t.2 = true → Q) : ∀ t ∈ s'.tasks, P t.2 = true → Q := by
  intro t ht hpt
  rcases h.tasks t ht with h | h
  · exact hs t h hpt
  · have := hp t.2 hpt t.1
    rw [h] at this; simp at this

theorem service_will (t : STask) (h : isService t = true) (i : Nat) : willStart (i, t) = true := by
  cases t <;> simp_all [isService, willStart]

theorem setStderr_facts (s : Sess) (text) : (s.setStderr text).tty = none ∧ (s.setStderr text).stdin = none ∧
    (s.setStderr text).tasks = s.tasks ∧ (s.setStderr text).child = none := by
  have h1 : s.dropChild.tasks = s.tasks := by unfold Sess.dropChild; split <;> rfl
  have h2 : ∀ t : Sess, t.closeStdin.tasks = t.tasks ∧ t.closeStdin.stdin = none := by
    intro t; unfold Sess.closeStdin; split
    · exact ⟨rfl, rfl⟩
    · rename_i h; exact ⟨rfl, h⟩
  refine ⟨rfl, (h2 _).2, (h2 _).1.trans h1, ?_⟩
  show s.dropChild.closeStdin.child = none
  rw [closeStdin_child, dropChild_child]

theorem spawn_facts (cfg) (s : Sess) (program original terminal) :
    (s.spawn cfg program original terminal).tty.isSome = s.tty.isSome ∧ (s.spawn cfg program original terminal).stdin = s.stdin ∧
    (s.spawn cfg program original terminal).tasks = s.tasks := by
  have hd : ∀ t : Sess, t.dropChild.tty = t.tty ∧ t.dropChild.stdin = t.stdin ∧ t.dropChild.tasks = t.tasks := by
    intro t; unfold Sess.dropChild; split <;> exact ⟨rfl, rfl, rfl⟩
  have hm : s.maybeScheduleRead.tty.isSome = s.tty.isSome ∧ s.maybeScheduleRead.stdin = s.stdin ∧ s.maybeScheduleRead.tasks = s.tasks := by
    unfold Sess.maybeScheduleRead Sess.scheduleRead; split
    · exact ⟨by simp, rfl, rfl⟩
    · exact ⟨rfl, rfl, rfl⟩
  unfold Sess.spawn
  simp only
  refine ⟨?_, ?_, ?_⟩
  · rw [(hd _).1]; exact hm.1
  · rw [(hd _).2.1]; exact hm.2.1
  · rw [(hd _).2.2]; exact hm.2.2

theorem isSome_none {α} {a b : Option α} (h : a.isSome = b.isSome) (hb : b = none) : a = none := by
  subst hb; simpa using h

/-- Whether there are sources, and everything else of interest except them. -/
structure SameShape (s s' : Sess) : Prop where
  stdout : s'.stdout.isSome = s.stdout.isSome
  stderr : s'.stderr.isSome = s.stderr.isSome
  tty : s'.tty.isSome = s.tty.isSome
  stdin : s'.stdin = s.stdin
  tasks : s'.tasks = s.tasks
  child : s'.child = s.child
  enabled : s'.stdinEnabled = s.stdinEnabled
  agent : s'.agent = s.agent

theorem OrdW.shape {cfg s s'} (h : OrdW cfg s) (g : SameShape s s') : OrdW cfg s' :=
  ⟨by rw [g.tty]; exact h.exec, by rw [g.tasks]; exact fun t a b => isSome_none g.tty (h.serv t a b),
    by rw [g.stdin]; exact fun a => isSome_none g.tty (h.in_ a)⟩

theorem Unused.shape {s s'} (h : Unused s) (g : SameShape s s') : Unused s' :=
  ⟨⟨g.stdin.trans h.fresh.stdin, isSome_none g.stdout h.fresh.stdout, isSome_none g.stderr h.fresh.stderr⟩,
    g.child.trans h.child, g.enabled.trans h.enabled, g.agent.trans h.agent⟩

theorem SameShape.scheduleRead (s : Sess) : SameShape s s.scheduleRead :=
  ⟨by simp [Sess.scheduleRead], by simp [Sess.scheduleRead], by simp [Sess.scheduleRead], rfl, rfl, rfl, rfl, rfl⟩

theorem SameShape.cancelRead (s : Sess) : SameShape s s.cancelRead :=
  ⟨by simp [Sess.cancelRead], by simp [Sess.cancelRead], by simp [Sess.cancelRead], rfl, rfl, rfl, rfl, rfl⟩

theorem SameShape.refl (s : Sess) : SameShape s s := ⟨rfl, rfl, rfl, rfl, rfl, rfl, rfl, rfl⟩

theorem SameShape.trans {s t u : Sess} (h : SameShape s t) (g : SameShape t u) : SameShape s u :=
  ⟨g.stdout.trans h.stdout, g.stderr.trans h.stderr, g.tty.trans h.tty, g.stdin.trans h.stdin, g.tasks.trans h.tasks,
    g.child.trans h.child, g.enabled.trans h.enabled, g.agent.trans h.agent⟩

theorem SameShape.quiet {s s' : Sess} (h1 : s'.stdout = s.stdout) (h2 : s'.stderr = s.stderr) (h3 : s'.tty = s.tty)
    (h4 : s'.stdin = s.stdin) (h5 : s'.tasks = s.tasks) (h6 : s'.child = s.child) (h7 : s'.stdinEnabled = s.stdinEnabled)
    (h8 : s'.agent = s.agent) : SameShape s s' := ⟨by rw [h1], by rw [h2], by rw [h3], h4, h5, h6, h7, h8⟩

theorem SameShape.maybeScheduleRead (s : Sess) : SameShape s s.maybeScheduleRead := by
  unfold Sess.maybeScheduleRead; split
  · exact .scheduleRead s
  · exact .refl s

theorem SameShape.setSource {s : Sess} {f x y} (h : s.source f = some x) : SameShape s (s.setSource f (some y)) := by
  cases f <;> simp only [Sess.source] at h
  · exact ⟨by simp [Sess.setSource, h], rfl, rfl, rfl, rfl, rfl, rfl, rfl⟩
  · exact ⟨rfl, by simp [Sess.setSource, h], rfl, rfl, rfl, rfl, rfl, rfl⟩
  · exact ⟨rfl, rfl, by simp [Sess.setSource, h], rfl, rfl, rfl, rfl, rfl⟩

theorem SameShape.sendFrom {s : Sess} {f x bs} (h : s.source f = some x) : SameShape s (s.sendFrom f x bs) := by
  unfold Sess.sendFrom Sess.cancelIfExhausted
  simp only
  have h1 := SameShape.setSource (y := { x with content := x.content.drop bs.length }) h
  split
  · refine h1.trans (SameShape.trans (t := { s.setSource f (some { x with content := x.content.drop bs.length }) with
      sendWin := (s.setSource f (some { x with content := x.content.drop bs.length })).sendWin - bs.length,
      log := (s.setSource f (some { x with content := x.content.drop bs.length })).log ++ [SessEntry.sent f bs] })
      (.quiet rfl rfl rfl rfl rfl rfl rfl rfl) (.cancelRead _))
  · exact h1.trans (.quiet rfl rfl rfl rfl rfl rfl rfl rfl)

/-- Steps which keep the shape. -/
theorem Prim.shape {cfg m s s'} (h : Prim cfg m s s') :
    (Misc m.w s s' ∨ SameShape s s') ∨
    (∃ t, s' = { s with tasks := s.tasks ++ [(s.nextTask, t)], nextTask := s.nextTask + 1 } ∧ m.k = true ∧ s.child = none ∧
      (t = .sftp → s.tty = none) ∧ (isService t = true → t ≠ .sftp → cfg.exec = false)) ∨
    (∃ text, s' = s.setStderr text ∧ m.k = true) ∨
    (s' = { s with stdin := some false, stdout := some {}, stderr := some {} } ∧ m.k = true ∧ (m.fr = true → Fresh s ∧ s.tty = none) ∧
      s = { m.s0 with agent := s.agent } ∧ ∃ t ∈ m.s0.tasks, willStart t = true) ∨
    (∃ b, s' = { s with agent := b } ∧ m.k = true) ∨
    (∃ program original terminal, s' = s.spawn cfg program original terminal ∧ m.k = true ∧
      (terminal = false → s.stdin.isSome = true) ∧ (terminal = true → s.tty.isSome = true)) ∨
    (s' = { s with slaveTty := true, tty := some {}, ttyWr := false, log := s.log ++ [SessEntry.terminalAllocated] } ∧
      m.k = false ∧ cfg.exec = true ∧ s.child = none) ∨
    (s' = { s with stdinEnabled := true } ∧ m.k = true ∧ s.child.isSome = true) ∨
    (∃ f x, s' = { s.setSource f none with ttyWr := s.ttyWr && f != Stream.terminal } ∧ s.source f = some x ∧
      x.writers = false ∧ (f ≠ .terminal → x.content = [])) := by
  cases h with
  | misc h => exact .inl (.inl h)
  | rx e h he => exact .inl (.inr (.quiet rfl rfl rfl rfl rfl rfl rfl rfl))
  | ask name data hk => exact .inl (.inr (.quiet rfl rfl rfl rfl rfl rfl rfl rfl))
  | suspend t hk hc ht hs hw => exact .inr (.inl ⟨t, rfl, hk, hc, ht, hs⟩)
  | setStderr text hk => exact .inr (.inr (.inl ⟨text, rfl, hk⟩))
  | pipes hk hf h0 ht => exact .inr (.inr (.inr (.inl ⟨rfl, hk, hf, h0, ht⟩)))
  | agent b hk => exact .inr (.inr (.inr (.inr (.inl ⟨b, rfl, hk⟩))))
  | handTty hk => exact .inl (.inr (.quiet rfl rfl rfl rfl rfl rfl rfl rfl))
  | spawn program original terminal hk h1 h2 => exact .inr (.inr (.inr (.inr (.inr (.inl ⟨_, _, _, rfl, hk, h1, h2⟩)))))
  | sched hk => exact .inl (.inr (.maybeScheduleRead s))
  | term hk hx hc => exact .inr (.inr (.inr (.inr (.inr (.inr (.inl ⟨rfl, hk, hx, hc⟩))))))
  | enable hk hw hc => exact .inr (.inr (.inr (.inr (.inr (.inr (.inr (.inl ⟨rfl, hk, hc⟩)))))))
  | adjust n hn =>
    refine .inl (.inr ?_)
    split
    · exact (SameShape.scheduleRead s).trans (.quiet rfl rfl rfl rfl rfl rfl rfl rfl)
    · exact .quiet rfl rfl rfl rfl rfl rfl rfl rfl
  | kexinit =>
    refine .inl (.inr ?_)
    split
    · exact (SameShape.cancelRead s).trans (.quiet rfl rfl rfl rfl rfl rfl rfl rfl)
    · exact .quiet rfl rfl rfl rfl rfl rfl rfl rfl
  | newkeys =>
    exact .inl (.inr (SameShape.trans (t := s.emit (.io .newkeys)) (.quiet rfl rfl rfl rfl rfl rfl rfl rfl) (.maybeScheduleRead _)))
  | wrote f x bs hx hw => exact .inl (.inr ((SameShape.setSource hx).trans (.quiet rfl rfl rfl rfl rfl rfl rfl rfl)))
  | closes f x hx h => exact .inl (.inr (.setSource hx))
  | send f x len hx hr hc hs => exact .inl (.inr (.sendFrom hx))
  | srcEnd f x hx hw hc => exact .inr (.inr (.inr (.inr (.inr (.inr (.inr (.inr ⟨f, x, rfl, hx, hw, hc⟩)))))))
  | eofOut h => exact .inl (.inr (.quiet rfl rfl rfl rfl rfl rfl rfl rfl))
  | closeOut h hc => exact .inl (.inr (.quiet rfl rfl rfl rfl rfl rfl rfl rfl))

theorem OrdW.misc {cfg w s s'} (h : OrdW cfg s) (g : Misc w s s') : OrdW cfg s' :=
  ⟨by rw [g.tty]; exact h.exec, by rw [g.tty]; exact g.serv service_will h.serv, by rw [g.tty]; exact fun a => h.in_ (g.stdin a)⟩

theorem Unused.misc {w s s'} (h : Unused s) (g : Misc w s s') : Unused s' := by
  refine ⟨⟨?_, g.stdout.trans h.fresh.stdout, g.stderr.trans h.fresh.stderr⟩, ?_, g.enabled.trans h.enabled, g.agent.trans h.agent⟩
  · cases hs : s'.stdin with
    | none => rfl
    | some d => have := g.stdin (by rw [hs]; rfl); rw [h.fresh.stdin] at this; simp at this
  · cases hs : s'.child with
    | none => rfl
    | some d => have := g.child (by rw [hs]; rfl); rw [h.child] at this; simp at this

theorem setSource_none_tty (s : Sess) (f) : (s.setSource f none).tty = s.tty ∨ (s.setSource f none).tty = none := by
  cases f
  · exact .inl rfl
  · exact .inl rfl
  · exact .inr rfl

theorem OrdW.srcEnd {cfg s} (h : OrdW cfg s) (f) (b : Bool) : OrdW cfg { s.setSource f none with ttyWr := b } := by
  have hs : (s.setSource f none).tasks = s.tasks ∧ (s.setSource f none).stdin = s.stdin := by cases f <;> exact ⟨rfl, rfl⟩
  have ht := setSource_none_tty s f
  refine ⟨?_, ?_, ?_⟩ <;> simp only
  · rcases ht with ht | ht
    · rw [ht]; exact h.exec
    · rw [ht]; simp
  · rw [hs.1]
    rcases ht with ht | ht
    · rw [ht]; exact h.serv
    · exact fun _ _ _ => ht
  · rw [hs.2]
    rcases ht with ht | ht
    · rw [ht]; exact h.in_
    · exact fun _ => ht

theorem Unused.srcEnd {s} (h : Unused s) (f) (b : Bool) : Unused { s.setSource f none with ttyWr := b } := by
  cases f
  · exact ⟨⟨h.fresh.stdin, rfl, h.fresh.stderr⟩, h.child, h.enabled, h.agent⟩
  · exact ⟨⟨h.fresh.stdin, h.fresh.stdout, rfl⟩, h.child, h.enabled, h.agent⟩
  · exact ⟨⟨h.fresh.stdin, h.fresh.stdout, h.fresh.stderr⟩, h.child, h.enabled, h.agent⟩

theorem NoWill.misc {w s s'} (h : NoWill s) (g : Misc w s s') : NoWill s' := by
  intro t ht
  rcases g.tasks t ht with h1 | h1
  · exact h t h1
  · exact h1

/-- Steps of events which have to do with starting a process. -/
theorem OrdW.prim {cfg m s s'} (hk : m.k = true) (hf : m.fr = true) (g : Prim cfg m s s') (h : OrdW cfg s) : OrdW cfg s' := by
  rcases g.shape with (g | g) | ⟨t, rfl, _, hc, ht, hs⟩ | ⟨text, rfl, _⟩ | ⟨rfl, _, hp, _⟩ | ⟨b, rfl, _⟩ | ⟨p, o, t, rfl, _⟩ |
    ⟨_, hk', _⟩ | ⟨rfl, _⟩ | ⟨f, x, rfl, _⟩
  · exact h.misc g
  · exact h.shape g
  · refine ⟨h.exec, ?_, h.in_⟩
    intro t' ht' hs'
    rcases List.mem_append.mp ht' with ht' | ht'
    · exact h.serv t' ht' hs'
    · rw [List.mem_singleton.mp ht'] at hs'
      by_cases he : t = .sftp
      · exact ht he
      · have hx := hs hs' he
        cases hy : s.tty with
        | none => rfl
        | some y => have := h.exec (by rw [hy]; rfl); rw [hx] at this; simp at this
  · obtain ⟨h1, h2, h3, h4⟩ := setStderr_facts s text
    exact ⟨by rw [h1]; simp, fun _ _ _ => h1, fun _ => h1⟩
  · exact ⟨h.exec, h.serv, fun _ => (hp hf).2⟩
  · exact ⟨h.exec, h.serv, h.in_⟩
  · obtain ⟨h1, h2, h3⟩ := spawn_facts cfg s p o t
    exact ⟨by rw [h1]; exact h.exec, by rw [h3]; exact fun t a b => isSome_none h1 (h.serv t a b),
      by rw [h2]; exact fun a => isSome_none h1 (h.in_ a)⟩
  · rw [hk] at hk'; simp at hk'
  · exact ⟨h.exec, h.serv, h.in_⟩
  · exact h.srcEnd f _

theorem startRequests_inert {l : List SessEntry} (h : ∀ e ∈ l, inert e = true) : startRequests l = 0 := by
  unfold startRequests
  rw [List.countP_eq_zero]
  intro e he
  have := h e he
  cases e <;> simp_all [inert]

/-- Steps of other events. -/
theorem Ord.prim {cfg m s s'} (hk : m.k = false) (g : Prim cfg m s s') (hq : startRequests s'.log = 0 → startRequests s.log = 0)
    (ho : Orderly s'.log) (h : Ord cfg s) : Ord cfg s' := by
  rcases g.shape with (g | g) | ⟨t, rfl, hk', _⟩ | ⟨text, rfl, hk'⟩ | ⟨rfl, hk', hp, _⟩ | ⟨b, rfl, hk'⟩ | ⟨p, o, t, rfl, hk', _⟩ |
    ⟨rfl, _, hx, hc⟩ | ⟨rfl, hk', _⟩ | ⟨f, x, rfl, _⟩
  · refine ⟨h.toOrdW.misc g, fun h0 => ?_, h.will.imp (·.misc g) (·.misc g)⟩
    obtain ⟨h1, h2⟩ := h.before (hq h0)
    exact ⟨h1.misc g, h2.misc g⟩
  · refine ⟨h.toOrdW.shape g, fun h0 => ?_, h.will.imp (by unfold NoWill; rw [g.tasks]; exact id) (·.shape g)⟩
    obtain ⟨h1, h2⟩ := h.before (hq h0)
    exact ⟨by unfold NoWill; rw [g.tasks]; exact h1, h2.shape g⟩
  · rw [hk] at hk'; simp at hk'
  · rw [hk] at hk'; simp at hk'
  · rw [hk] at hk'; simp at hk'
  · rw [hk] at hk'; simp at hk'
  · rw [hk] at hk'; simp at hk'
  · have h0 := ho.2 s.log [] rfl
    obtain ⟨h1, h2⟩ := h.before h0
    have h3 : Unused { s with slaveTty := true, tty := some {}, ttyWr := false, log := s.log ++ [SessEntry.terminalAllocated] } :=
      ⟨⟨h2.fresh.stdin, h2.fresh.stdout, h2.fresh.stderr⟩, h2.child, h2.enabled, h2.agent⟩
    refine ⟨⟨fun _ => hx, ?_, ?_⟩, fun _ => ⟨h1, h3⟩, .inr h3⟩
    · intro t ht hs
      have := service_will t.2 hs t.1
      rw [h1 t ht] at this; simp at this
    · intro h4; simp only at h4; rw [h2.fresh.stdin] at h4; simp at h4
  · rw [hk] at hk'; simp at hk'
  · have ht : (s.setSource f none).tasks = s.tasks := by cases f <;> rfl
    refine ⟨h.toOrdW.srcEnd f _, fun h0 => ?_, h.will.imp (by unfold NoWill; simp only [ht]; exact id) (·.srcEnd f _)⟩
    obtain ⟨h1, h2⟩ := h.before (hq h0)
    exact ⟨by unfold NoWill; simp only [ht]; exact h1, h2.srcEnd f _⟩

theorem Ord.other {cfg m s s'} (hk : m.k = false) (g : Prims cfg m s s') (ho : Orderly s'.log) (h : Ord cfg s) : Ord cfg s' := by
  refine Prims.induct (P := fun s => Orderly s.log → Ord cfg s) ?_ g (fun _ => h) ho
  intro s s' g h ho
  obtain ⟨l, e⟩ := g.log
  refine .prim hk g ?_ ho (h ?_)
  · rw [e, startRequests_append]; omega
  · rw [e] at ho; exact ho.prefix

/-! ## Requests -/

theorem NoWill.emit {s : Sess} (h : NoWill s) (e) : NoWill (s.emit e) := h

theorem Unused.emit {s : Sess} (h : Unused s) (e) : Unused (s.emit e) :=
  ⟨⟨h.fresh.stdin, h.fresh.stdout, h.fresh.stderr⟩, h.child, h.enabled, h.agent⟩

theorem NoWill.setStderr {s : Sess} (h : NoWill s) (text) : NoWill (s.setStderr text) := by
  unfold NoWill; rw [(setStderr_facts s text).2.2.1]; exact h

theorem NoWill.refuse {y : SessCh} (h : NoWill y.s) (verbose text) : NoWill (y.refuse verbose text).s := by
  unfold SessCh.refuse
  cases verbose
  · exact h.emit _
  · exact (h.setStderr text).emit _

/-- What holds after a process was asked for. -/
def Asked (s : Sess) : Prop := NoWill s ∨ Unused s

theorem Asked.suspend {y : SessCh} (h : Unused y.s) (t) : Asked (y.suspend t).s :=
  .inr ⟨⟨h.fresh.stdin, h.fresh.stdout, h.fresh.stderr⟩, h.child, h.enabled, h.agent⟩

theorem Asked.execGit {y : SessCh} (h : NoWill y.s) (hu : Unused y.s) (service arg) : Asked (y.execGit service arg).s := by
  unfold SessCh.execGit
  split
  · exact .inl (h.emit _)
  · exact .suspend hu _

theorem Asked.execOther {cfg} {y : SessCh} (h : NoWill y.s) (hu : Unused y.s) (cmd) : Asked (y.execOther cfg cmd).s := by
  unfold SessCh.execOther
  split
  · exact .execGit h hu _ _
  · split
    · exact .execGit h hu _ _
    · exact .inl (h.refuse _ _)

theorem Asked.exec {cfg} {y : SessCh} (h : NoWill y.s) (hu : Unused y.s) (cmd) : Asked (y.exec cfg cmd).s := by
  cases cmd with
  | none =>
    show Asked (bif cfg.exec then y.suspend (.exec none) else y.refuse (cfg.sftpOnly && cfg.rejectStderr) SFTP_ONLY_MESSAGE).s
    cases cfg.exec
    · exact .inl (h.refuse _ _)
    · exact .suspend hu _
  | some cmd =>
    simp only [SessCh.exec]
    cases cfg.exec
    · simp only [cond_false]
      split
      · exact .suspend hu _
      · exact .inl (h.refuse _ _)
      · exact .execOther h hu _
    · exact .suspend hu _

theorem Asked.execRequest {cfg} {y : SessCh} (h : NoWill y.s) (hu : Unused y.s) (data) : Asked (y.execRequest cfg data).s := by
  unfold SessCh.execRequest
  split
  · exact .inl h
  · split
    · exact .inl (h.refuse _ _)
    · exact .exec h hu _

theorem Asked.subsystem {cfg} {y : SessCh} (h : NoWill y.s) (hu : Unused y.s) (data) : Asked (y.subsystem cfg data).s := by
  unfold SessCh.subsystem
  split
  · exact .inl h
  · split
    · cases cfg.sftp
      · exact .inl (h.emit _)
      · cases hy : y.s.tty.isSome
        · exact .suspend hu _
        · exact .inl (h.emit _)
    · exact .inl (h.emit _)

theorem Asked.request {cfg} {y : SessCh} (h : NoWill y.s) (hu : Unused y.s) (name data ok)
    (hn : startRequests [.asked name data] ≠ 0) : Asked (y.request cfg name data ok).s := by
  unfold SessCh.request
  simp only [hu.child, Option.isSome_none, cond_false]
  split
  · exact .execRequest h hu _
  · split
    · exact .exec h hu _
    · split
      · exact .subsystem h hu _
      · rename_i h1 h2 h3
        simp [startRequests, h1, h2, h3] at hn

theorem startRequests_asked {log : List SessEntry} {name data} (h : Orderly (log ++ [.asked name data]))
    (hn : startRequests [.asked name data] ≠ 0) : startRequests log = 0 := by
  have := h.1
  rw [startRequests_append] at this
  omega

/-! ## Starting -/

theorem NoWill.of {s : Sess} (h : (s.tasks.filter willStart).length = 0) : NoWill s := by
  intro t ht
  have := List.length_eq_zero_iff.mp h
  cases hw : willStart t with
  | false => rfl
  | true =>
    have : t ∈ s.tasks.filter willStart := List.mem_filter.mpr ⟨ht, hw⟩
    rw [List.length_eq_zero_iff.mp h] at this
    simp at this

theorem NoWill.launch {cfg} {y : SessCh} {id} (h : NoWill (y.finish id).s) (program original terminal r) :
    NoWill (y.launch cfg id program original terminal r).s := by
  unfold SessCh.launch
  split
  · refine NoWill.refuse ?_ _ _
    unfold NoWill
    rw [(SameShape.maybeScheduleRead _).tasks]
    exact h
  · intro t ht
    simp only at ht
    rw [(spawn_facts cfg _ _ _ _).2.2] at ht
    rcases List.mem_append.mp ht with ht | ht
    · exact h t ht
    · rw [List.mem_singleton.mp ht]; rfl

theorem NoWill.finish {y z : SessCh} {id} (h : NoWill (y.finish id).s) (e : z.s.tasks = y.s.tasks) : NoWill (z.finish id).s := by
  intro t ht
  refine h t ?_
  show t ∈ y.s.tasks.filter _
  rw [← e]; exact ht

theorem prepareExec_tasks {cfg} {s s' : Sess} (h : s.prepareExec cfg = some s') : s'.tasks = s.tasks := by
  unfold Sess.prepareExec at h
  simp only [Bool.cond_eq_ite] at h
  split at h
  · simp at h
  · split at h
    · simp only [Option.some.injEq] at h; subst h; rfl
    · exact (preparePipes_same h).1

theorem NoWill.enqueued {cfg} {y : SessCh} {id r t} (ht : y.s.tasks.lookup id = some t) (hw : willStart (id, t) = true)
    (h : NoWill (y.finish id).s) (hs : (y.enqueued cfg id r).stop = none) : NoWill (y.enqueued cfg id r).s := by
  have hserv : ∀ program, (y.resumeService cfg id program r).stop = none → NoWill (y.resumeService cfg id program r).s := by
    intro program hs
    unfold SessCh.resumeService at hs ⊢
    split
    · exact h.refuse _ _
    · simp only at hs
      split
      · rename_i h1; rw [h1] at hs; simp [SessCh.halt] at hs
      · rename_i s hp
        split
        · exact (h.finish (z := ⟨s, y.buf, y.stop⟩) (preparePipes_same hp).1).refuse _ _
        · exact .launch (h.finish (z := ⟨s, y.buf, y.stop⟩) (preparePipes_same hp).1) _ _ _ _
  unfold SessCh.enqueued at hs ⊢
  rw [ht] at hs ⊢
  cases t with
  | exec cmd =>
    simp only at hs ⊢
    unfold SessCh.resumeExec at hs ⊢
    split
    · simp [SessCh.halt] at hs
    · simp only at hs
      split
      · rename_i h1; rw [h1] at hs; simp [SessCh.halt] at hs
      · rename_i s hp
        exact .launch (h.finish (z := ⟨s, y.buf, y.stop⟩) (prepareExec_tasks hp)) _ _ _ _
  | rsync cmd => exact hserv _ hs
  | git a b => exact hserv _ hs
  | sftp =>
    simp only at hs ⊢
    unfold SessCh.resumeSftp at hs ⊢
    split
    · simp [SessCh.halt] at hs
    · simp only [Bool.cond_eq_ite] at hs ⊢
      split
      · rename_i h1; rw [if_pos h1] at hs; simp [SessCh.halt] at hs
      · rename_i h1
        rw [if_neg h1] at hs
        split
        · rename_i h2; rw [h2] at hs; simp [SessCh.halt] at hs
        · rename_i s hp
          exact .launch (h.finish (z := ⟨s, y.buf, y.stop⟩) (preparePipes_same hp).1) _ _ _ _
  | wait pid => simp [willStart] at hw

theorem enqueued_idle {cfg} {y : SessCh} {id r} (h : ∀ t, y.s.tasks.lookup id = some t → willStart (id, t) = false) :
    y.enqueued cfg id r = y := by
  unfold SessCh.enqueued
  cases ht : y.s.tasks.lookup id with
  | none => rfl
  | some t =>
    have := h t ht
    cases t <;> first | rfl | simp [willStart] at this

theorem NoWill.completed {cfg} {y : SessCh} {id err} (h : NoWill y.s) : NoWill (y.completed cfg id err).s := by
  have hf : NoWill (y.finish id).s := fun t ht => h t (List.mem_filter.mp ht).1
  unfold SessCh.completed
  split
  · split
    · split
      · refine NoWill.emit ?_ _
        unfold NoWill Sess.enableStdin Sess.scheduleWrite
        simp only [Bool.cond_eq_ite]
        split
        · split <;> exact hf
        · exact hf
      · exact hf.refuse _ _
    · exact h
  · exact h

theorem completed_idle {cfg} {y : SessCh} {id err} (h : y.s.child = none) : y.completed cfg id err = y := by
  unfold SessCh.completed
  split
  · simp [h]
  · rfl

theorem Ord.handle {cfg r0} {y : SessCh} (hi : SessInv cfg r0 y.s) (hrd : y.s.reading = true → 0 < y.s.sendWin) (h : Ord cfg y.s)
    (ev) (ho : Orderly (y.handle cfg ev).s.log) (hs : (y.handle cfg ev).stop = none) :
    Ord cfg (y.handle cfg ev).s := by
  have hf : ∀ id t, y.s.tasks.lookup id = some t → willStart (id, t) = true →
      (cfg.ndebug = false ∨ Fresh y.s) ∧ (isService t = true → (t = .sftp ∧ cfg.ndebug = false) ∨ y.s.tty = none) := by
    intro id t ht hw
    have hmem : (id, t) ∈ y.s.tasks := by
      obtain ⟨a, b, h1, _⟩ := List.lookup_eq_some_iff.mp ht
      rw [h1]; simp
    refine ⟨.inr ?_, fun hv => .inr (h.serv _ hmem hv)⟩
    rcases h.will with h1 | h1
    · have := h1 _ hmem; rw [hw] at this; simp at this
    · exact h1.fresh
  have hp := Prims.handle (cfg := cfg) (m := ⟨startEvent ev, true, true, y.s, received ev⟩) y ev rfl rfl (fun _ => rfl) rfl hrd (fun _ => hf)
  cases hk : startEvent ev with
  | false => exact h.other (m := ⟨startEvent ev, true, true, y.s, received ev⟩) hk hp ho
  | true =>
    have hw : OrdW cfg (y.handle cfg ev).s :=
      Prims.induct (P := OrdW cfg) (fun _ _ g h => h.prim hk rfl g) hp h.toOrdW
    have hlog := hp.log
    cases ev with
    | request name data ok =>
      have hn : startRequests [.asked name data] ≠ 0 := by simpa [startEvent] using hk
      have hlog1 : ∃ l, (y.handle cfg (.request name data ok)).s.log = (y.s.log ++ [.asked name data]) ++ l :=
        (Prims.request (cfg := cfg) (m := ⟨true, true, true, y.s, none⟩) ⟨y.s.emit (.asked name data), y.buf, y.stop⟩ name data ok hk.symm).log
      obtain ⟨l, e⟩ := hlog1
      have h0 := startRequests_asked (by rw [e] at ho; exact ho.prefix) hn
      obtain ⟨h1, h2⟩ := h.before h0
      refine ⟨hw, fun hz => ?_, ?_⟩
      · rw [e, startRequests_append, startRequests_append] at hz
        omega
      · exact Asked.request (y := ⟨y.s.emit (.asked name data), y.buf, y.stop⟩) (h1.emit _) (h2.emit _) name data ok hn
    | enqueued id r =>
      by_cases hx : ∀ t, y.s.tasks.lookup id = some t → willStart (id, t) = false
      · show Ord cfg (y.enqueued cfg id r).s
        rw [enqueued_idle hx]; exact h
      · have : ∃ t, y.s.tasks.lookup id = some t ∧ willStart (id, t) = true := by
          apply Classical.byContradiction
          intro hc
          apply hx
          intro t ht
          cases hw : willStart (id, t) with
          | false => rfl
          | true => exact absurd ⟨t, ht, hw⟩ hc
        obtain ⟨t, ht, hwt⟩ := this
        have hmem : (id, t) ∈ y.s.tasks := by
          obtain ⟨a, b, h1, _⟩ := List.lookup_eq_some_iff.mp ht
          rw [h1]; simp
        have hop := finish_open hi ht hwt
        obtain ⟨l, e⟩ := hlog
        have hle : startRequests y.s.log ≤ 1 := by
          have := ho.1; rw [e, startRequests_append] at this; omega
        have hnw : NoWill (y.finish id).s := by
          apply NoWill.of
          have h1 : (processes (y.finish id).s.log).length + ((y.finish id).s.tasks.filter willStart).length < startRequests (y.finish id).s.log := hop
          have h2 : (y.finish id).s.log = y.s.log := rfl
          rw [h2] at h1
          omega
        refine ⟨hw, fun hz => ?_, .inl (hnw.enqueued ht hwt hs)⟩
        rw [e, startRequests_append] at hz
        have := (h.before (by omega)).1 _ hmem
        rw [hwt] at this; simp at this
    | completed id err =>
      cases hc : y.s.child with
      | none =>
        show Ord cfg (y.completed cfg id err).s
        rw [completed_idle hc]; exact h
      | some pid =>
        refine ⟨hw, fun hz => ?_, ?_⟩
        · obtain ⟨l, e⟩ := hlog
          rw [e, startRequests_append] at hz
          have := (h.before (by omega)).2.child
          rw [hc] at this; simp at this
        · rcases h.will with h1 | h1
          · exact .inl h1.completed
          · have := h1.child; rw [hc] at this; simp at this
    | _ => simp [startEvent] at hk

theorem ord_init (cfg r w) : Ord cfg (SessCh.init r w).s := by
  have hu : Unused (SessCh.init r w).s := ⟨⟨rfl, rfl, rfl⟩, rfl, rfl, rfl⟩
  refine ⟨⟨by simp [SessCh.init], by simp [SessCh.init], by simp [SessCh.init]⟩, fun _ => ⟨?_, hu⟩, .inr hu⟩
  intro t ht; simp [SessCh.init] at ht

/-- Every event extends the log. -/
theorem handle_log {cfg} {y : SessCh} (hrd : y.s.reading = true → 0 < y.s.sendWin) (ev) :
    ∃ l, (y.handle cfg ev).s.log = y.s.log ++ l :=
  (Prims.handle (cfg := cfg) (m := ⟨startEvent ev, false, true, y.s, received ev⟩) y ev rfl rfl (fun _ => rfl) rfl hrd (by simp)).log

theorem step_log (cfg r w evs ev) :
    ∃ l, ((SessCh.init r w).run cfg (evs ++ [ev])).s.log = ((SessCh.init r w).run cfg evs).s.log ++ l := by
  rw [SessCh.run_snoc]
  unfold SessCh.step
  split
  · exact ⟨[], by simp⟩
  · rename_i h
    exact handle_log (sess_acc cfg r w evs).rd ev

theorem sess_ord (cfg r w evs) (ho : Orderly ((SessCh.init r w).run cfg evs).s.log)
    (hs : ((SessCh.init r w).run cfg evs).stop = none) : Ord cfg ((SessCh.init r w).run cfg evs).s := by
  induction evs using Aux.snoc_ind with
  | h0 => exact ord_init cfg r w
  | h1 evs ev ih =>
    obtain ⟨l, e⟩ := step_log cfg r w evs ev
    rw [e] at ho
    have ho1 := ho.prefix
    rw [SessCh.run_snoc] at e hs ⊢
    rw [← e] at ho
    unfold SessCh.step at ho hs ⊢
    split at hs
    · rename_i h; rw [h] at hs; simp at hs
    · rename_i h
      simp only [h] at ho ⊢
      exact Ord.handle (sess_inv cfg r w evs) (sess_acc cfg r w evs).rd (ih ho1 h) ev ho hs

end Lukko
