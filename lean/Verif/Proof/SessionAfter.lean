import Verif.Proof.SessionOut
/-
  Session channels: what follows end-of-file (for C64).
-/
namespace Lukko
open Model Spec

/-- An output entry: data or end-of-file. -/
def outEntry : SessEntry → Bool
  | .sent _ _ => true
  | .io (.tx .eof) => true
  | _ => false

/-- Nothing follows end-of-file. -/
def Silent (log : List SessEntry) : Prop :=
  ∀ a b, log = a ++ .io (.tx .eof) :: b → ∀ e ∈ b, outEntry e = false

theorem Silent.append {log l : List SessEntry} (h : Silent log) (hl : ∀ e ∈ l, outEntry e = false) : Silent (log ++ l) := by
  intro a b eq e he
  rcases split_append eq with ⟨b', e2⟩ | ⟨a', rfl, e2⟩
  · rw [e2, List.append_assoc, List.cons_append, List.append_cancel_left_eq, List.cons.injEq] at eq
    rw [← eq.2] at he
    rcases List.mem_append.mp he with he | he
    · exact h a b' e2 e he
    · exact hl e he
  · have := hl (.io (.tx .eof)) (by rw [e2]; simp)
    simp [outEntry] at this

/-- The first end-of-file, or data before it. -/
theorem Silent.one {log : List SessEntry} (h : .io (.tx .eof) ∉ log) (e) : Silent (log ++ [e]) := by
  intro a b eq x hx
  rcases split_append eq with ⟨b', e2⟩ | ⟨a', rfl, e2⟩
  · exact absurd (by rw [e2]; simp) h
  · rw [(single_split e2).2.1] at hx; simp at hx

theorem inert_out {e : SessEntry} (h : inert e = true) : outEntry e = false := by
  cases e with
  | io x =>
    cases x with
    | tx m => cases m <;> first | rfl | simp [inert] at h
    | _ => rfl
  | _ => first | rfl | simp [inert] at h

/-- Steps which send nothing. -/
theorem Prim.silent {cfg m s s'} (g : Prim cfg m s s') :
    (∃ l, s'.log = s.log ++ l ∧ ∀ e ∈ l, outEntry e = false) ∨
    (m.k = false ∧ (∃ f bs, s'.log = s.log ++ [.sent f bs]) ∧ ¬ NoSource s) ∨
    (m.k = false ∧ s' = s.emit (.io (.tx .eof)) ∧ NoSource s ∧ (∃ f x, m.s0.source f = some x ∧ x.writers = false) ∧
      s.log.count (.io (.tx .eof)) = m.s0.log.count (.io (.tx .eof))) := by
  have none : s'.log = s.log → ∃ l, s'.log = s.log ++ l ∧ ∀ e ∈ l, outEntry e = false := fun h => ⟨[], by simp [h], by simp⟩
  cases g with
  | misc g =>
    obtain ⟨l, e, hi, _⟩ := g.log
    exact .inl ⟨l, e, fun x hx => inert_out (hi x hx)⟩
  | rx e h1 he => exact .inl ⟨[e], rfl, by rcases he with rfl | ⟨bs, rfl⟩ <;> simp [outEntry]⟩
  | ask => exact .inl ⟨_, rfl, by simp [outEntry]⟩
  | suspend => exact .inl (none rfl)
  | setStderr text =>
    obtain ⟨l, e, hl, _⟩ := setStderr_log s text
    refine .inl ⟨l ++ [.message text], by rw [e, List.append_assoc], ?_⟩
    intro x hx
    rcases List.mem_append.mp hx with hx | hx
    · rcases hl x hx with rfl | rfl <;> rfl
    · rw [List.mem_singleton.mp hx]; rfl
  | pipes => exact .inl (none rfl)
  | agent => exact .inl (none rfl)
  | handTty => exact .inl (none rfl)
  | spawn program original terminal =>
    obtain ⟨p, l, e, _, hl⟩ := spawn_log cfg s program original terminal
    refine .inl ⟨_, e, ?_⟩
    intro x hx
    rcases List.mem_cons.mp hx with rfl | hx
    · rfl
    · rw [hl x hx]; rfl
  | sched => exact .inl (none (maybeScheduleRead_log s))
  | term => exact .inl ⟨_, rfl, by simp [outEntry]⟩
  | enable => exact .inl (none rfl)
  | adjust n => exact .inl ⟨_, rfl, by simp [outEntry]⟩
  | kexinit => exact .inl ⟨_, rfl, by simp [outEntry]⟩
  | newkeys => exact .inl ⟨[.io .newkeys], by rw [maybeScheduleRead_log]; rfl, by simp [outEntry]⟩
  | wrote g x bs hx hw => exact .inl ⟨[.wrote g bs], by simp only [Sess.emit, setSource_log], by simp [outEntry]⟩
  | closes g x hx => exact .inl (none (setSource_log _ _ _))
  | send g x len hx hr hc h0 hk =>
    refine .inr (.inl ⟨hk, ⟨_, _, sendFrom_log _ _ _ _⟩, ?_⟩)
    intro hn
    cases g <;> simp [Sess.source, hn.stdout, hn.stderr, hn.tty] at hx
  | srcEnd g x hx hw hc => exact .inl (none (setSource_log _ _ _))
  | eofOut hn h0 hl hk => exact .inr (.inr ⟨hk, rfl, hn, h0, hl⟩)
  | closeOut hn => exact .inl ⟨_, rfl, by simp [outEntry]⟩

theorem NoSource.shape {s s'} (h : NoSource s) (g : SameShape s s') : NoSource s' :=
  ⟨isSome_none g.stdout h.stdout, isSome_none g.stderr h.stderr, isSome_none g.tty h.tty⟩

theorem NoSource.misc {w s s'} (h : NoSource s) (g : Misc w s s') : NoSource s' :=
  ⟨g.stdout.trans h.stdout, g.stderr.trans h.stderr, g.tty.trans h.tty⟩

theorem spawn_shape (cfg) (s : Sess) (p o t) : (s.spawn cfg p o t).stdout.isSome = s.stdout.isSome ∧
    (s.spawn cfg p o t).stderr.isSome = s.stderr.isSome ∧ (s.spawn cfg p o t).tty.isSome = s.tty.isSome := by
  have hd : ∀ t : Sess, t.dropChild.stdout = t.stdout ∧ t.dropChild.stderr = t.stderr ∧ t.dropChild.tty = t.tty := by
    intro t; unfold Sess.dropChild; split <;> exact ⟨rfl, rfl, rfl⟩
  have hm := SameShape.maybeScheduleRead s
  unfold Sess.spawn
  simp only
  refine ⟨?_, ?_, ?_⟩
  · rw [(hd _).1]; exact hm.stdout
  · rw [(hd _).2.1]; exact hm.stderr
  · rw [(hd _).2.2]; exact hm.tty

/-- Once there is nothing to read from, and nothing will be started, this remains so. -/
theorem NoSource.prim {cfg m s s'} (g : Prim cfg m s s') (h : NoSource s) (hm : NoMessage s'.log) (hw : NoWill m.s0)
    (ho : m.k = false → Orderly s'.log ∧ startRequests s.log ≠ 0) : NoSource s' := by
  rcases g.shape with (g | g) | ⟨t, rfl, hk', _⟩ | ⟨text, rfl, hk'⟩ | ⟨_, _, _, _, t, h1, h2⟩ | ⟨b, rfl, hk'⟩ |
      ⟨p, o, t, rfl, hk', _⟩ | ⟨e, hk, hx, hc⟩ | ⟨rfl, hk', _⟩ | ⟨f, x, rfl, _⟩
  · exact h.misc g
  · exact h.shape g
  · exact ⟨h.stdout, h.stderr, h.tty⟩
  · refine absurd ?_ (hm text)
    obtain ⟨l, e, _⟩ := setStderr_log s text
    rw [e]; simp
  · rw [hw t h1] at h2; simp at h2
  · exact ⟨h.stdout, h.stderr, h.tty⟩
  · obtain ⟨h1, h2, h3⟩ := spawn_shape cfg s p o t
    exact ⟨isSome_none h1 h.stdout, isSome_none h2 h.stderr, isSome_none h3 h.tty⟩
  · obtain ⟨ho1, ho2⟩ := ho hk
    exact absurd (ho1.2 s.log [] (by rw [e])) ho2
  · exact ⟨h.stdout, h.stderr, h.tty⟩
  · cases f
    · exact ⟨rfl, h.stderr, h.tty⟩
    · exact ⟨h.stdout, rfl, h.tty⟩
    · exact ⟨h.stdout, h.stderr, rfl⟩

/-- Other events than those which start a process do not add such tasks. -/
theorem NoWill.prim {cfg m s s'} (hk : m.k = false) (g : Prim cfg m s s') (h : NoWill s) : NoWill s' := by
  rcases g.shape with (g | g) | ⟨t, rfl, hk', _⟩ | ⟨text, rfl, hk'⟩ | ⟨_, hk', _⟩ | ⟨b, rfl, hk'⟩ |
      ⟨p, o, t, rfl, hk', _⟩ | ⟨rfl, _⟩ | ⟨rfl, hk', _⟩ | ⟨f, x, rfl, _⟩
  · exact h.misc g
  · unfold NoWill; rw [g.tasks]; exact h
  · rw [hk] at hk'; simp at hk'
  · rw [hk] at hk'; simp at hk'
  · rw [hk] at hk'; simp at hk'
  · rw [hk] at hk'; simp at hk'
  · rw [hk] at hk'; simp at hk'
  · exact h
  · rw [hk] at hk'; simp at hk'
  · have : (s.setSource f none).tasks = s.tasks := by cases f <;> rfl
    unfold NoWill; simp only [this]; exact h

/-- There is a terminal, and it was given to a process. -/
def Handed (s : Sess) : Prop := s.tty.isSome = true ∧ s.slaveTty = false

/-- While we have the terminal open, it does not hang up. -/
def TtyOk (s : Sess) : Prop := ∀ x, s.tty = some x → x.writers = false → s.slaveTty = false

/-- What the steps do to the terminal. -/
inductive TtyStep (s s' : Sess) : Prop
  | gone (h : s'.tty = none)
  | fresh (h : s'.tty = some {}) (hs : s'.slaveTty = true)
  | same (h : s'.tty.isSome = s.tty.isSome) (hs : s'.slaveTty = s.slaveTty)
      (hw : ∀ x', s'.tty = some x' → ∃ x, s.tty = some x ∧ (x'.writers = x.writers ∨ s.slaveTty = false))

theorem TtyStep.eq {s s' : Sess} (h : s'.tty = s.tty) (hs : s'.slaveTty = s.slaveTty) : TtyStep s s' :=
  .same (by rw [h]) hs fun x' hx => ⟨x', by rw [← h]; exact hx, .inl rfl⟩

theorem TtyStep.map {s s' : Sess} {b} (h : s'.tty = s.tty.map fun x => { x with rd := b }) (hs : s'.slaveTty = s.slaveTty) : TtyStep s s' := by
  refine .same (by rw [h]; simp) hs fun x' hx => ?_
  rw [h] at hx
  cases ht : s.tty with
  | none => rw [ht] at hx; simp at hx
  | some x =>
    rw [ht] at hx
    simp only [Option.map_some, Option.some.injEq] at hx
    exact ⟨x, rfl, .inl (by rw [← hx])⟩

theorem TtyStep.maybe (s : Sess) : TtyStep s s.maybeScheduleRead := by
  unfold Sess.maybeScheduleRead
  split
  · exact .map (b := true) rfl rfl
  · exact .eq rfl rfl

theorem TtyStep.set {s s' : Sess} {f x x'} (hx : s.source f = some x) (h1 : s'.tty = (s.setSource f (some x')).tty)
    (h2 : s'.slaveTty = s.slaveTty) (hw : x'.writers = x.writers ∨ (f = .terminal → s.slaveTty = false)) : TtyStep s s' := by
  cases f
  · exact .eq h1 h2
  · exact .eq h1 h2
  · simp only [Sess.source] at hx
    simp only [Sess.setSource] at h1
    refine .same (by rw [h1, hx]; rfl) h2 fun y hy => ⟨x, hx, ?_⟩
    rw [h1] at hy
    simp only [Option.some.injEq] at hy
    subst hy
    exact hw.imp id fun h => h rfl

theorem spawn_ttyStep (cfg) (s : Sess) (p o t) : TtyStep s (s.spawn cfg p o t) := by
  have hd : ∀ t : Sess, t.dropChild.slaveTty = t.slaveTty ∧ t.dropChild.tty = t.tty := by
    intro t; unfold Sess.dropChild; split <;> exact ⟨rfl, rfl⟩
  have h := TtyStep.maybe s
  have e1 : (s.spawn cfg p o t).tty = s.maybeScheduleRead.tty := by
    unfold Sess.spawn
    simp only
    rw [(hd _).2]
  have e2 : (s.spawn cfg p o t).slaveTty = s.maybeScheduleRead.slaveTty := by
    unfold Sess.spawn
    simp only
    rw [(hd _).1]
  cases h with
  | gone h => exact .gone (e1.trans h)
  | fresh h hs => exact .fresh (e1.trans h) (e2.trans hs)
  | same h hs hw => exact .same (by rw [e1]; exact h) (e2.trans hs) (by rw [e1]; exact hw)

theorem Prim.ttyStep {cfg m s s'} (g : Prim cfg m s s') : TtyStep s s' ∨
    (s'.tty = s.tty ∧ s'.slaveTty = false ∧ m.k = true ∧ ∃ t ∈ m.s0.tasks, willStart t = true) := by
  cases g with
  | misc g => exact .inl (.eq g.tty g.slaveTty)
  | rx => exact .inl (.eq rfl rfl)
  | ask => exact .inl (.eq rfl rfl)
  | suspend => exact .inl (.eq rfl rfl)
  | setStderr => exact .inl (.gone rfl)
  | pipes => exact .inl (.eq rfl rfl)
  | agent => exact .inl (.eq rfl rfl)
  | handTty hk ht => exact .inr ⟨rfl, rfl, hk, ht⟩
  | spawn => exact .inl (spawn_ttyStep _ _ _ _ _)
  | sched => exact .inl (.maybe _)
  | term => exact .inl (.fresh rfl rfl)
  | enable => exact .inl (.eq rfl rfl)
  | adjust =>
    refine .inl ?_
    split
    · exact .map (b := true) rfl rfl
    · exact .eq rfl rfl
  | kexinit =>
    refine .inl ?_
    split
    · exact .map (b := false) rfl rfl
    · exact .eq rfl rfl
  | newkeys =>
    refine .inl ?_
    unfold Sess.maybeScheduleRead
    split
    · exact .map (b := true) rfl rfl
    · exact .eq rfl rfl
  | wrote f x bs hx => exact .inl (.set hx rfl (by cases f <;> rfl) (.inl rfl))
  | closes f x hx h => exact .inl (.set hx rfl (by cases f <;> rfl) (.inr h))
  | send f x len hx =>
    refine .inl ?_
    unfold Sess.sendFrom Sess.cancelIfExhausted
    simp only
    have h1 := TtyStep.set (s' := s.setSource f (some { x with content := x.content.drop (x.content.take (min (len + 1) (min 4096 s.sendWin))).length }))
      hx rfl (by cases f <;> rfl) (.inl rfl)
    generalize s.setSource f _ = t at *
    split
    · cases h1 with
      | gone h => exact .gone (by simp [Sess.cancelRead, h])
      | fresh h hs => exact .fresh (by simp [Sess.cancelRead, h]) hs
      | same h hs hw =>
        refine .same (by simp [Sess.cancelRead, h]) hs fun x' hx' => ?_
        simp only [Sess.cancelRead, Option.map_eq_some_iff] at hx'
        obtain ⟨y, hy, rfl⟩ := hx'
        exact hw y hy
    · cases h1 with
      | gone h => exact .gone h
      | fresh h hs => exact .fresh h hs
      | same h hs hw => exact .same h hs hw
  | srcEnd f x hx =>
    cases f
    · exact .inl (.eq rfl rfl)
    · exact .inl (.eq rfl rfl)
    · exact .inl (.gone rfl)
  | eofOut => exact .inl (.eq rfl rfl)
  | closeOut => exact .inl (.eq rfl rfl)

theorem TtyOk.prim {cfg m s s'} (g : Prim cfg m s s') (h : TtyOk s) : TtyOk s' := by
  intro x' hx' hw'
  rcases g.ttyStep with g | ⟨_, h2, _⟩
  · cases g with
    | gone h => rw [h] at hx'; simp at hx'
    | fresh h1 h2 => rw [h1] at hx'; simp only [Option.some.injEq] at hx'; subst hx'; simp at hw'
    | same h1 h2 h3 =>
      obtain ⟨x, hx, h4⟩ := h3 x' hx'
      rw [h2]
      rcases h4 with h4 | h4
      · exact h x hx (by rw [← h4]; exact hw')
      · exact h4
  · exact h2

theorem Handed.prim {cfg m s s'} (g : Prim cfg m s s') (hw : m.k = true → NoWill m.s0) (h : Handed s') : Handed s := by
  rcases g.ttyStep with g | ⟨_, _, hk, t, h1, h2⟩
  · cases g with
    | gone h1 => have := h.1; rw [h1] at this; simp at this
    | fresh h1 h2 => have := h.2; rw [h2] at this; simp at this
    | same h1 h2 h3 => exact ⟨by rw [← h1]; exact h.1, by rw [← h2]; exact h.2⟩
  · rw [hw hk t h1] at h2; simp at h2

/-- After end-of-file. -/
structure AfterEof (s : Sess) : Prop where
  over : .io (.tx .eof) ∈ s.log → NoSource s ∧ startRequests s.log ≠ 0 ∧ NoWill s
  handed : Handed s → NoWill s ∧ startRequests s.log ≠ 0

theorem startRequests_mono {a l : List SessEntry} (h : startRequests a ≠ 0) : startRequests (a ++ l) ≠ 0 := by
  rw [startRequests_append]; omega

/-- Events which do not start a process. -/
theorem AfterEof.prim {cfg m s s'} (hk : m.k = false) (h0 : AfterEof m.s0) (ht0 : TtyOk m.s0) (ho0 : Ord cfg m.s0)
    (hn : NoWill m.s0 → NoWill s) (hlog : ∃ l, s.log = m.s0.log ++ l)
    (g : Prim cfg m s s') (ho : Orderly s'.log) (hm : NoMessage s'.log) (h : AfterEof s ∧ Silent s.log) : AfterEof s' ∧ Silent s'.log := by
  obtain ⟨h, hsil⟩ := h
  obtain ⟨l0, e0⟩ := hlog
  have hd : ∀ {l}, s'.log = s.log ++ l → Handed s' → NoWill s' ∧ startRequests s'.log ≠ 0 := by
    intro l e hh
    obtain ⟨h1, h2⟩ := h.handed (hh.prim g (by rw [hk]; simp))
    exact ⟨h1.prim hk g, by rw [e]; exact startRequests_mono h2⟩
  have hold : ∀ {l}, s'.log = s.log ++ l → .io (.tx .eof) ∈ s.log → NoSource s' ∧ startRequests s'.log ≠ 0 ∧ NoWill s' := by
    intro l e he
    obtain ⟨h1, h2, h3⟩ := h.over he
    refine ⟨?_, by rw [e]; exact startRequests_mono h2, h3.prim hk g⟩
    rcases g.shape with (g | g) | ⟨t, rfl, hk', _⟩ | ⟨text, rfl, hk'⟩ | ⟨_, hk', _⟩ | ⟨b, rfl, hk'⟩ |
      ⟨p, o, t, rfl, hk', _⟩ | ⟨e, _⟩ | ⟨rfl, hk', _⟩ | ⟨f, x, rfl, _⟩
    · exact h1.misc g
    · exact h1.shape g
    · rw [hk] at hk'; simp at hk'
    · rw [hk] at hk'; simp at hk'
    · rw [hk] at hk'; simp at hk'
    · rw [hk] at hk'; simp at hk'
    · rw [hk] at hk'; simp at hk'
    · exact absurd (ho.2 s.log [] (by rw [e])) h2
    · rw [hk] at hk'; simp at hk'
    · cases f
      · exact ⟨rfl, h1.stderr, h1.tty⟩
      · exact ⟨h1.stdout, rfl, h1.tty⟩
      · exact ⟨h1.stdout, h1.stderr, rfl⟩
  rcases g.silent with ⟨l, e, hl⟩ | ⟨_, ⟨f, bs, e⟩, hns⟩ | ⟨_, rfl, hns, ⟨f, x, hx, hw⟩, hc⟩
  · refine ⟨⟨fun he => ?_, hd e⟩, by rw [e]; exact hsil.append hl⟩
    rw [e] at he
    rcases List.mem_append.mp he with he | he
    · exact hold e he
    · have := hl _ he; simp [outEntry] at this
  · have hne : .io (.tx .eof) ∉ s.log := fun he => hns (h.over he).1
    refine ⟨⟨fun he => ?_, hd e⟩, by rw [e]; exact .one hne _⟩
    rw [e] at he
    rcases List.mem_append.mp he with he | he
    · exact absurd he hne
    · simp at he
  · have hne0 : .io (.tx .eof) ∉ m.s0.log := by
      intro he
      have := (h0.over he).1
      cases f <;> simp [Sess.source, this.stdout, this.stderr, this.tty] at hx
    have hne : .io (.tx .eof) ∉ s.log := by
      rw [← List.count_eq_zero, hc, List.count_eq_zero]; exact hne0
    have h00 : NoWill m.s0 ∧ startRequests m.s0.log ≠ 0 := by
      have hu : ¬ Fresh m.s0 → NoWill m.s0 ∧ startRequests m.s0.log ≠ 0 := by
        intro hf
        refine ⟨?_, fun hz => hf (ho0.before hz).2.fresh⟩
        rcases ho0.will with h | h
        · exact h
        · exact absurd h.fresh hf
      cases f
      · exact hu fun hf => by simp [Sess.source, hf.stdout] at hx
      · exact hu fun hf => by simp [Sess.source, hf.stderr] at hx
      · simp only [Sess.source] at hx
        exact h0.handed ⟨by rw [hx]; rfl, ht0 x hx hw⟩
    have h3 : startRequests s.log ≠ 0 := by rw [e0]; exact startRequests_mono h00.2
    exact ⟨⟨fun _ => ⟨⟨hns.stdout, hns.stderr, hns.tty⟩, startRequests_mono h3, hn h00.1⟩, hd rfl⟩, .one hne _⟩

theorem AfterEof.other {cfg m s'} (hk : m.k = false) (h0 : AfterEof m.s0) (hsil : Silent m.s0.log) (ht0 : TtyOk m.s0) (ho0 : Ord cfg m.s0)
    (g : Prims cfg m m.s0 s') (ho : Orderly s'.log) (hm : NoMessage s'.log) : AfterEof s' ∧ Silent s'.log := by
  have := Prims.induct (P := fun s => (NoWill m.s0 → NoWill s) ∧ (∃ l, s.log = m.s0.log ++ l) ∧
    (Orderly s.log → NoMessage s.log → AfterEof s ∧ Silent s.log)) ?_ g ⟨id, ⟨[], by simp⟩, fun _ _ => ⟨h0, hsil⟩⟩
  · exact this.2.2 ho hm
  · intro s s' g ⟨h1, ⟨l, e⟩, h2⟩
    obtain ⟨l', e'⟩ := g.log
    refine ⟨fun h => (h1 h).prim hk g, ⟨l ++ l', by rw [e', e, List.append_assoc]⟩, fun ho hm => ?_⟩
    refine AfterEof.prim hk h0 ht0 ho0 h1 ⟨l, e⟩ g ho hm (h2 ?_ ?_)
    · rw [e'] at ho; exact ho.prefix
    · rw [e'] at hm; exact hm.prefix

/-- Events which start a process send nothing. -/
theorem start_silent {cfg m s s'} (hk : m.k = true) (g : Prims cfg m s s') : ∃ l, s'.log = s.log ++ l ∧ ∀ e ∈ l, outEntry e = false := by
  induction g with
  | refl => exact ⟨[], by simp, by simp⟩
  | tail _ g ih =>
    obtain ⟨l, e, h⟩ := ih
    rcases g.silent with ⟨l', e', h'⟩ | ⟨hk', _⟩ | ⟨hk', _⟩
    · refine ⟨l ++ l', by rw [e', e, List.append_assoc], fun x hx => ?_⟩
      rcases List.mem_append.mp hx with hx | hx
      · exact h x hx
      · exact h' x hx
    · rw [hk] at hk'; simp at hk'
    · rw [hk] at hk'; simp at hk'

/-- … and if nothing is going to be started, they do not open anything. -/
theorem start_idle {cfg m s'} (hk : m.k = true) (hw : NoWill m.s0) (g : Prims cfg m m.s0 s') :
    (Handed s' → Handed m.s0) ∧ (NoMessage s'.log → NoSource m.s0 → NoSource s') := by
  refine Prims.induct (P := fun s => (Handed s → Handed m.s0) ∧ (NoMessage s.log → NoSource m.s0 → NoSource s)) ?_ g ⟨id, fun _ => id⟩
  intro s s' g ⟨h1, h2⟩
  refine ⟨fun h => h1 (h.prim g fun _ => hw), fun hm hn => ?_⟩
  obtain ⟨l, e⟩ := g.log
  refine NoSource.prim g (h2 ?_ hn) hm hw (by rw [hk]; simp)
  rw [e] at hm; exact hm.prefix

theorem AfterEof.handle {cfg r0} {y : SessCh} (hi : SessInv cfg r0 y.s) (hrd : y.s.reading = true → 0 < y.s.sendWin) (ho0 : Ord cfg y.s)
    (ht0 : TtyOk y.s) (h : AfterEof y.s) (hsil : Silent y.s.log) (ev) (ho : Orderly (y.handle cfg ev).s.log) (hm : NoMessage (y.handle cfg ev).s.log) :
    ((y.handle cfg ev).stop = none → AfterEof (y.handle cfg ev).s) ∧ Silent (y.handle cfg ev).s.log := by
  have hp := Prims.handle (cfg := cfg) (m := ⟨startEvent ev, true, true, y.s, received ev⟩) y ev rfl rfl (fun _ => rfl) rfl hrd (fun _ => ho0.fresh)
  cases hk : startEvent ev with
  | false =>
    obtain ⟨h1, h2⟩ := AfterEof.other (m := ⟨startEvent ev, true, true, y.s, received ev⟩) hk h hsil ht0 ho0 hp ho hm
    exact ⟨fun _ => h1, h2⟩
  | true =>
    obtain ⟨l, e, hl⟩ := start_silent (m := ⟨startEvent ev, true, true, y.s, received ev⟩) hk hp
    refine ⟨fun hs => ?_, by rw [e]; exact hsil.append hl⟩
    have hord := Ord.handle hi hrd ho0 ev ho hs
    have hmem : .io (.tx .eof) ∈ (y.handle cfg ev).s.log → .io (.tx .eof) ∈ y.s.log := by
      intro he
      rw [e] at he
      rcases List.mem_append.mp he with he | he
      · exact he
      · have := hl _ he; simp [outEntry] at this
    have hidle := fun hw => start_idle (cfg := cfg) (s' := (y.handle cfg ev).s) (m := ⟨startEvent ev, true, true, y.s, received ev⟩) hk hw hp
    cases ev with
    | request name data ok =>
      have hn : startRequests [.asked name data] ≠ 0 := by simpa [startEvent] using hk
      have hlog1 : ∃ l, (y.handle cfg (.request name data ok)).s.log = (y.s.log ++ [.asked name data]) ++ l :=
        (Prims.request (cfg := cfg) (m := ⟨true, true, true, y.s, none⟩) ⟨y.s.emit (.asked name data), y.buf, y.stop⟩ name data ok hk.symm).log
      obtain ⟨l1, e1⟩ := hlog1
      have h0 := startRequests_asked (by rw [e1] at ho; exact ho.prefix) hn
      obtain ⟨h1, h2⟩ := ho0.before h0
      refine ⟨fun he => absurd h0 (h.over (hmem he)).2.1, fun hh => absurd h0 (h.handed ((hidle h1).1 hh)).2⟩
    | enqueued id r =>
      by_cases hx : ∀ t, y.s.tasks.lookup id = some t → willStart (id, t) = false
      · show AfterEof (y.enqueued cfg id r).s
        rw [enqueued_idle hx]; exact h
      · have : ∃ t, y.s.tasks.lookup id = some t ∧ willStart (id, t) = true := by
          apply Classical.byContradiction
          intro hc
          apply hx
          intro t ht
          cases hw : willStart (id, t) with
          | false => rfl
          | true => exact absurd ⟨t, ht, hw⟩ hc
        obtain ⟨t, ht, hwt⟩ := this
        have hmem' : (id, t) ∈ y.s.tasks := by
          obtain ⟨a, b, h1, _⟩ := List.lookup_eq_some_iff.mp ht
          rw [h1]; simp
        have hsr : startRequests y.s.log ≠ 0 := by
          intro hz
          have := (ho0.before hz).1 _ hmem'
          rw [hwt] at this; simp at this
        refine ⟨fun he => ?_, fun hh => ⟨?_, by rw [e]; exact startRequests_mono hsr⟩⟩
        · have := (h.over (hmem he)).2.2 _ hmem'
          rw [hwt] at this; simp at this
        · have hop := finish_open hi ht hwt
          have hle : startRequests y.s.log ≤ 1 := by
            have := ho.1; rw [e, startRequests_append] at this; omega
          have hnw : NoWill (y.finish id).s := by
            apply NoWill.of
            have h1 : (processes (y.finish id).s.log).length + ((y.finish id).s.tasks.filter willStart).length < startRequests (y.finish id).s.log := hop
            have h2 : (y.finish id).s.log = y.s.log := rfl
            rw [h2] at h1
            omega
          exact hnw.enqueued ht hwt hs
    | completed id err =>
      cases hc : y.s.child with
      | none =>
        show AfterEof (y.completed cfg id err).s
        rw [completed_idle hc]; exact h
      | some pid =>
        have hnw : NoWill y.s := by
          rcases ho0.will with h1 | h1
          · exact h1
          · have := h1.child; rw [hc] at this; simp at this
        have hi := hidle hnw
        refine ⟨fun he => ?_, fun hh => ?_⟩
        · obtain ⟨h1, h2, h3⟩ := h.over (hmem he)
          exact ⟨hi.2 hm h1, by rw [e]; exact startRequests_mono h2, hnw.completed⟩
        · exact ⟨hnw.completed, by rw [e]; exact startRequests_mono (h.handed (hi.1 hh)).2⟩
    | _ => simp [startEvent] at hk

theorem sess_ttyOk (cfg r w evs) : TtyOk ((SessCh.init r w).run cfg evs).s := by
  induction evs using Aux.snoc_ind with
  | h0 => intro x hx; simp [SessCh.run, SessCh.init] at hx
  | h1 evs ev ih =>
    rw [SessCh.run_snoc]
    unfold SessCh.step
    split
    · exact ih
    · have hp := Prims.handle (cfg := cfg) (m := ⟨startEvent ev, false, true, ((SessCh.init r w).run cfg evs).s, received ev⟩)
        ((SessCh.init r w).run cfg evs) ev rfl rfl (fun _ => rfl) rfl (sess_acc cfg r w evs).rd (by simp)
      exact Prims.induct (P := TtyOk) (fun _ _ g h => h.prim g) hp ih

theorem sess_after (cfg r w evs) (ho : Orderly ((SessCh.init r w).run cfg evs).s.log) (hm : NoMessage ((SessCh.init r w).run cfg evs).s.log) :
    (((SessCh.init r w).run cfg evs).stop = none → AfterEof ((SessCh.init r w).run cfg evs).s) ∧ Silent ((SessCh.init r w).run cfg evs).s.log := by
  induction evs using Aux.snoc_ind with
  | h0 =>
    refine ⟨fun _ => ⟨fun h => ?_, fun h => ?_⟩, fun a b e => ?_⟩
    · simp [SessCh.run, SessCh.init] at h
    · have := h.1; simp [SessCh.run, SessCh.init] at this
    · simp [SessCh.run, SessCh.init] at e
  | h1 evs ev ih =>
    obtain ⟨l, e⟩ := step_log cfg r w evs ev
    have ho1 : Orderly ((SessCh.init r w).run cfg evs).s.log := by rw [e] at ho; exact ho.prefix
    have hm1 : NoMessage ((SessCh.init r w).run cfg evs).s.log := by rw [e] at hm; exact hm.prefix
    obtain ⟨h1, h2⟩ := ih ho1 hm1
    rw [SessCh.run_snoc] at ho hm ⊢
    unfold SessCh.step at ho hm ⊢
    split
    · rename_i h
      exact ⟨h1, h2⟩
    · rename_i h
      simp only [h] at ho hm
      exact AfterEof.handle (sess_inv cfg r w evs) (sess_acc cfg r w evs).rd (sess_ord cfg r w evs ho1 h) (sess_ttyOk cfg r w evs) (h1 h) h2 ev ho hm

/-! ## Terminals -/

/-- If a terminal is allocated once. -/
structure TermOut (s : Sess) : Prop where
  open_ : ∀ x, s.tty = some x → sentFrom .terminal s.log ++ x.content = writtenTo .terminal s.log
  le : sentFrom .terminal s.log <+: writtenTo .terminal s.log
  before : .terminalAllocated ∉ s.log → s.tty = none ∧ sentFrom .terminal s.log = [] ∧ writtenTo .terminal s.log = []

/-- Entries which do not concern the terminal. -/
def termIdle : SessEntry → Bool
  | .wrote f _ => f != .terminal
  | .sent f _ => f != .terminal
  | _ => true

theorem termIdle_bytes {l : List SessEntry} (h : ∀ e ∈ l, termIdle e = true) : writtenTo .terminal l = [] ∧ sentFrom .terminal l = [] := by
  induction l with
  | nil => exact ⟨rfl, rfl⟩
  | cons e l ih =>
    obtain ⟨h1, h2⟩ := ih fun x hx => h x (List.mem_cons_of_mem _ hx)
    have he := h e List.mem_cons_self
    have ea : writtenTo .terminal (e :: l) = writtenTo .terminal [e] ++ writtenTo .terminal l := writtenTo_append _ [e] l
    have eb : sentFrom .terminal (e :: l) = sentFrom .terminal [e] ++ sentFrom .terminal l := sentFrom_append _ [e] l
    rw [ea, eb, h1, h2]
    cases e <;> simp_all [termIdle, writtenTo, sentFrom]

theorem outIdle_term {e : SessEntry} (h : outIdle e = true) : termIdle e = true := by
  cases e <;> first | rfl | simp [outIdle] at h

theorem TermOut.idle {s s' : Sess} (h : TermOut s) (hl : ∃ l, s'.log = s.log ++ l ∧ ∀ e ∈ l, termIdle e = true)
    (hc : s'.tty = none ∨ ∃ g : Source → Source, s'.tty = s.tty.map g ∧ ∀ x, (g x).content = x.content) : TermOut s' := by
  obtain ⟨l, e, hi⟩ := hl
  obtain ⟨h1, h2⟩ := termIdle_bytes hi
  have e1 : sentFrom .terminal s'.log = sentFrom .terminal s.log := by rw [e, sentFrom_append, h2, List.append_nil]
  have e2 : writtenTo .terminal s'.log = writtenTo .terminal s.log := by rw [e, writtenTo_append, h1, List.append_nil]
  refine ⟨?_, ?_, ?_⟩
  · intro x hx
    rcases hc with hc | ⟨g, hc, hg⟩
    · rw [hc] at hx; simp at hx
    · rw [hc] at hx
      obtain ⟨y, hy, rfl⟩ := Option.map_eq_some_iff.mp hx
      rw [e1, e2, hg]; exact h.open_ y hy
  · rw [e1, e2]; exact h.le
  · intro hn
    rw [e] at hn
    obtain ⟨a, b, c⟩ := h.before fun hx => hn (List.mem_append_left _ hx)
    refine ⟨?_, e1.trans b, e2.trans c⟩
    rcases hc with hc | ⟨g, hc, hg⟩
    · exact hc
    · rw [hc, a]; rfl

theorem same_tty {s s' : Sess} (h : s'.tty = s.tty) : s'.tty = none ∨ ∃ g : Source → Source, s'.tty = s.tty.map g ∧ ∀ x, (g x).content = x.content :=
  .inr ⟨id, by rw [h]; simp, fun _ => rfl⟩

theorem maybe_tty (s : Sess) : ∃ g : Source → Source, s.maybeScheduleRead.tty = s.tty.map g ∧ ∀ x, (g x).content = x.content := by
  unfold Sess.maybeScheduleRead
  split
  · exact ⟨_, rfl, fun _ => rfl⟩
  · exact ⟨id, by simp, fun _ => rfl⟩

theorem TermOut.prim {cfg m s s'} (g : Prim cfg m s s') (hc : s'.log.count .terminalAllocated ≤ 1) (h : TermOut s) : TermOut s' := by
  have none : s'.log = s.log → ∃ l, s'.log = s.log ++ l ∧ ∀ e ∈ l, termIdle e = true := fun h => ⟨[], by simp [h], by simp⟩
  cases g with
  | misc g =>
    obtain ⟨l, e, hi, _⟩ := g.log
    exact h.idle ⟨l, e, fun x hx => outIdle_term (inert_outIdle (hi x hx))⟩ (same_tty g.tty)
  | rx e h1 he => exact h.idle ⟨[e], rfl, by rcases he with rfl | ⟨bs, rfl⟩ <;> simp [termIdle]⟩ (same_tty rfl)
  | ask => exact h.idle ⟨_, rfl, by simp [termIdle]⟩ (same_tty rfl)
  | suspend => exact h.idle (none rfl) (same_tty rfl)
  | setStderr text =>
    obtain ⟨l, e, hl, _⟩ := setStderr_log s text
    refine h.idle ⟨l ++ [.message text], by rw [e, List.append_assoc], ?_⟩ (.inl rfl)
    intro x hx
    rcases List.mem_append.mp hx with hx | hx
    · rcases hl x hx with rfl | rfl <;> rfl
    · rw [List.mem_singleton.mp hx]; rfl
  | pipes => exact h.idle (none rfl) (same_tty rfl)
  | agent => exact h.idle (none rfl) (same_tty rfl)
  | handTty => exact h.idle (none rfl) (same_tty rfl)
  | spawn program original terminal =>
    obtain ⟨p, l, e, _, hl⟩ := spawn_log cfg s program original terminal
    refine h.idle ⟨_, e, ?_⟩ (.inr ?_)
    · intro x hx
      rcases List.mem_cons.mp hx with rfl | hx
      · rfl
      · rw [hl x hx]; rfl
    · have hd : ∀ t : Sess, t.dropChild.tty = t.tty := by
        intro t; unfold Sess.dropChild; split <;> rfl
      have e1 : (s.spawn cfg program original terminal).tty = s.maybeScheduleRead.tty := by
        unfold Sess.spawn
        simp only
        rw [hd]
      rw [e1]; exact maybe_tty s
  | sched => exact h.idle (none (maybeScheduleRead_log s)) (.inr (maybe_tty s))
  | term =>
    simp only [List.count_append, List.count_cons_self, List.count_nil] at hc
    have h0 : .terminalAllocated ∉ s.log := by rw [← List.count_eq_zero]; omega
    obtain ⟨h1, h2, h3⟩ := h.before h0
    have e1 : sentFrom .terminal (s.log ++ [SessEntry.terminalAllocated]) = [] := by rw [sentFrom_append, h2]; rfl
    have e2 : writtenTo .terminal (s.log ++ [SessEntry.terminalAllocated]) = [] := by rw [writtenTo_append, h3]; rfl
    refine ⟨fun x hx => ?_, ?_, fun hn => absurd (by simp) hn⟩
    · simp only [Option.some.injEq] at hx
      subst hx
      simp only [e1, e2]; rfl
    · simp only [e1, e2]; exact List.prefix_rfl
  | enable => exact h.idle (none rfl) (same_tty rfl)
  | adjust n =>
    refine h.idle ⟨_, rfl, by simp [termIdle]⟩ (.inr ?_)
    split
    · exact ⟨_, rfl, fun _ => rfl⟩
    · exact ⟨id, by simp, fun _ => rfl⟩
  | kexinit =>
    refine h.idle ⟨_, rfl, by simp [termIdle]⟩ (.inr ?_)
    split
    · exact ⟨_, rfl, fun _ => rfl⟩
    · exact ⟨id, by simp, fun _ => rfl⟩
  | newkeys => exact h.idle ⟨[.io .newkeys], by rw [maybeScheduleRead_log]; rfl, by simp [termIdle]⟩ (.inr (maybe_tty (s.emit (.io .newkeys))))
  | wrote f x bs hx hw =>
    by_cases hf : f = .terminal
    · subst hf
      simp only [Sess.source] at hx
      have hw2 : writtenTo .terminal (s.log ++ [SessEntry.wrote .terminal bs]) = writtenTo .terminal s.log ++ bs := by
        rw [writtenTo_append]; simp [writtenTo]
      have hs2 : sentFrom .terminal (s.log ++ [SessEntry.wrote .terminal bs]) = sentFrom .terminal s.log := by
        rw [sentFrom_append]; simp [sentFrom]
      have ho := h.open_ x hx
      refine ⟨fun y hy => ?_, ?_, fun hn => ?_⟩ <;> simp only [Sess.emit, Sess.setSource] at *
      · simp only [Option.some.injEq] at hy
        subst hy
        rw [hw2, hs2, ← ho, List.append_assoc]
      · rw [hw2, hs2]; exact h.le.trans (List.prefix_append _ _)
      · have := (h.before fun hx => hn (List.mem_append_left _ hx)).1
        rw [hx] at this; simp at this
    · refine h.idle ⟨[.wrote f bs], by simp only [Sess.emit, setSource_log], by simp [termIdle, hf]⟩ (same_tty ?_)
      cases f <;> first | rfl | exact absurd rfl hf
  | closes f x hx hs =>
    refine h.idle (none (setSource_log _ _ _)) ?_
    cases f
    · exact same_tty rfl
    · exact same_tty rfl
    · refine .inr ⟨fun x => { x with writers := false }, ?_, fun _ => rfl⟩
      simp only [Sess.source] at hx
      simp [Sess.setSource, hx]
  | send f x len hx hr hcn h0 =>
    have hlog := sendFrom_log s f x (x.content.take (min (len + 1) (min 4096 s.sendWin)))
    have hpre : ∃ rest, x.content = x.content.take (min (len + 1) (min 4096 s.sendWin)) ++ rest := ⟨_, (List.take_append_drop _ _).symm⟩
    generalize x.content.take (min (len + 1) (min 4096 s.sendWin)) = bs at *
    obtain ⟨rest, hrest⟩ := hpre
    by_cases hf : f = .terminal
    · subst hf
      simp only [Sess.source] at hx
      have hcont := sendFrom_content s .terminal .terminal x bs
      rw [if_pos rfl] at hcont
      have hdrop : x.content.drop bs.length = rest := by rw [hrest]; simp
      have hw2 : writtenTo .terminal (s.log ++ [SessEntry.sent .terminal bs]) = writtenTo .terminal s.log := by
        rw [writtenTo_append]; simp [writtenTo]
      have hs2 : sentFrom .terminal (s.log ++ [SessEntry.sent .terminal bs]) = sentFrom .terminal s.log ++ bs := by
        rw [sentFrom_append]; simp [sentFrom]
      have ho := h.open_ x hx
      have h3 : sentFrom .terminal (s.sendFrom .terminal x bs).log ++ rest = writtenTo .terminal (s.sendFrom .terminal x bs).log := by
        rw [hlog, hw2, hs2, ← ho, hrest, List.append_assoc]
      refine ⟨fun y hy => ?_, ⟨rest, h3⟩, fun hn => ?_⟩
      · have : (s.sendFrom .terminal x bs).content .terminal = y.content := by simp [Sess.content, Sess.source, hy]
        rw [← this, hcont, hdrop]; exact h3
      · rw [hlog] at hn
        have := (h.before fun hx => hn (List.mem_append_left _ hx)).1
        rw [hx] at this; simp at this
    · refine h.idle ⟨[.sent f bs], hlog, by simp [termIdle, hf]⟩ (.inr ?_)
      unfold Sess.sendFrom Sess.cancelIfExhausted
      simp only
      split
      · refine ⟨fun x => { x with rd := false }, ?_, fun _ => rfl⟩
        cases f <;> first | rfl | exact absurd rfl hf
      · refine ⟨id, ?_, fun _ => rfl⟩
        cases f <;> first | exact absurd rfl hf | simp [Sess.setSource]
  | srcEnd f x hx hw hcn =>
    refine h.idle (none (setSource_log _ _ _)) ?_
    cases f
    · exact same_tty rfl
    · exact same_tty rfl
    · exact .inl rfl
  | eofOut => exact h.idle ⟨_, rfl, by simp [termIdle]⟩ (same_tty rfl)
  | closeOut => exact h.idle ⟨_, rfl, by simp [termIdle]⟩ (same_tty rfl)

theorem sess_termOut (cfg r w evs) (hc : ((SessCh.init r w).run cfg evs).s.log.count .terminalAllocated ≤ 1) :
    TermOut ((SessCh.init r w).run cfg evs).s := by
  induction evs using Aux.snoc_ind with
  | h0 => exact ⟨fun x hx => by simp [SessCh.run, SessCh.init] at hx, List.prefix_rfl, fun _ => ⟨rfl, rfl, rfl⟩⟩
  | h1 evs ev ih =>
    obtain ⟨l, e⟩ := step_log cfg r w evs ev
    have hc1 : ((SessCh.init r w).run cfg evs).s.log.count .terminalAllocated ≤ 1 := by
      rw [e, List.count_append] at hc; omega
    rw [SessCh.run_snoc] at hc ⊢
    unfold SessCh.step at hc ⊢
    split
    · exact ih hc1
    · rename_i h
      simp only [h] at hc
      have hp := Prims.handle (cfg := cfg) (m := ⟨startEvent ev, false, true, ((SessCh.init r w).run cfg evs).s, received ev⟩)
        ((SessCh.init r w).run cfg evs) ev rfl rfl (fun _ => rfl) rfl (sess_acc cfg r w evs).rd (by simp)
      refine Prims.induct (P := fun s => s.log.count .terminalAllocated ≤ 1 → TermOut s) ?_ hp ih hc
      intro s s' g ih hc
      obtain ⟨l, e⟩ := g.log
      exact .prim g hc (ih (by rw [e, List.count_append] at hc; omega))

end Lukko
