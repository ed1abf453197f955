import Verif.Proof.SessionFlow
/-
  Input of session channels never gets stuck.
-/
namespace Lukko
open Model Spec

/-- Somebody will resume reading from the buffer. -/
structure Waits (s : Sess) : Prop where
  deferred : s.stdinEnabled = false → s.stdinDeferred = true
  ready : s.stdinEnabled = true → (s.stdin.isSome = true ∨ s.tty.isSome = true) →
    s.stdin = some true ∨ (s.stdin = none ∧ s.ttyWr = true)

theorem Waits.congr {s s' : Sess} (h : Waits s) (h1 : s'.stdinEnabled = s.stdinEnabled) (h2 : s'.stdinDeferred = s.stdinDeferred)
    (h3 : s'.stdin = s.stdin) (h4 : s'.tty.isSome = s.tty.isSome) (h5 : s'.ttyWr = s.ttyWr) : Waits s' :=
  ⟨by rw [h1, h2]; exact h.deferred, by rw [h1, h3, h4, h5]; exact h.ready⟩

/-- There is nowhere to write to. -/
theorem Waits.none_ {s s' : Sess} (h : Waits s) (h1 : s'.stdinEnabled = s.stdinEnabled) (h2 : s'.stdinDeferred = s.stdinDeferred)
    (h3 : s'.stdin = none) (h4 : s'.tty = none) : Waits s' :=
  ⟨by rw [h1, h2]; exact h.deferred, by simp [h3, h4]⟩

theorem Waits.scheduleRead {s : Sess} (h : Waits s) : Waits s.scheduleRead := h.congr rfl rfl rfl (by simp [Sess.scheduleRead]) rfl
theorem Waits.cancelRead {s : Sess} (h : Waits s) : Waits s.cancelRead := h.congr rfl rfl rfl (by simp [Sess.cancelRead]) rfl
theorem Waits.maybeScheduleRead {s : Sess} (h : Waits s) : Waits s.maybeScheduleRead := by
  unfold Sess.maybeScheduleRead; split
  · exact h.scheduleRead
  · exact h
theorem Waits.dropChild {s : Sess} (h : Waits s) : Waits s.dropChild := by
  unfold Sess.dropChild; split
  · exact h.congr rfl rfl rfl rfl rfl
  · exact h
theorem Waits.emit {s : Sess} (h : Waits s) (e) : Waits (s.emit e) := h.congr rfl rfl rfl rfl rfl

theorem Waits.setSource {s : Sess} {f x y} (h : Waits s) (hx : s.source f = some x) : Waits (s.setSource f (some y)) := by
  cases f
  · exact h.congr rfl rfl rfl rfl rfl
  · exact h.congr rfl rfl rfl rfl rfl
  · have hx : s.tty = some x := hx
    exact h.congr rfl rfl rfl (by simp [Sess.setSource, hx]) rfl

theorem Waits.setStderr {s : Sess} (h : Waits s) (text) : Waits (s.setStderr text) := by
  have hd : s.dropChild.stdinEnabled = s.stdinEnabled ∧ s.dropChild.stdinDeferred = s.stdinDeferred := by
    unfold Sess.dropChild; split <;> exact ⟨rfl, rfl⟩
  have hc : ∀ t : Sess, t.closeStdin.stdinEnabled = t.stdinEnabled ∧ t.closeStdin.stdinDeferred = t.stdinDeferred := by
    intro t; unfold Sess.closeStdin; split <;> exact ⟨rfl, rfl⟩
  obtain ⟨h1, h2, _⟩ := setStderr_facts s text
  refine h.none_ ?_ ?_ h2 h1
  · show s.dropChild.closeStdin.stdinEnabled = _
    rw [(hc _).1, hd.1]
  · show s.dropChild.closeStdin.stdinDeferred = _
    rw [(hc _).2, hd.2]

theorem Waits.prim {cfg m s s'} (hw : m.w = false) (g : Prim cfg m s s') (he : m.s0.stdinEnabled = false ∨ m.k = false)
    (ho : Orderly s'.log) (hord : m.k = false → Ord cfg s) (h : Waits s) : Waits s' := by
  cases g with
  | misc g =>
    obtain ⟨h1, h2, h3, _⟩ := g.same hw
    exact h.congr g.enabled h3 h1 (by rw [g.tty]) h2
  | rx e => exact h.emit _
  | ask => exact h.emit _
  | suspend t => exact h.congr rfl rfl rfl rfl rfl
  | setStderr text => exact h.setStderr text
  | pipes hk hf h0 =>
    rcases he with he | he
    · have hen : s.stdinEnabled = false := by rw [h0]; exact he
      refine ⟨h.deferred, ?_⟩
      intro h1; rw [hen] at h1; simp at h1
    · rw [hk] at he; simp at he
  | agent b => exact h.congr rfl rfl rfl rfl rfl
  | handTty => exact h.congr rfl rfl rfl rfl rfl
  | spawn program original terminal =>
    unfold Sess.spawn
    simp only
    generalize Proc.mk _ _ _ _ _ = p
    have h1 : Waits { s.maybeScheduleRead with log := s.maybeScheduleRead.log ++ [SessEntry.started p] } :=
      h.maybeScheduleRead.congr rfl rfl rfl rfl rfl
    exact h1.dropChild.congr rfl rfl rfl rfl rfl
  | sched => exact h.maybeScheduleRead
  | term hk hx hc =>
    have h0 := ho.2 s.log [] rfl
    have hu := ((hord hk).before h0).2.enabled
    refine ⟨h.deferred, ?_⟩
    intro h1; rw [hu] at h1; simp at h1
  | enable hk hw' => rw [hw] at hw'; simp at hw'
  | adjust n =>
    split
    · exact h.scheduleRead.congr rfl rfl rfl rfl rfl
    · exact h.congr rfl rfl rfl rfl rfl
  | kexinit =>
    split
    · exact h.cancelRead.congr rfl rfl rfl rfl rfl
    · exact h.congr rfl rfl rfl rfl rfl
  | newkeys => exact (h.emit _).maybeScheduleRead
  | wrote f x bs hx => exact (h.setSource hx).emit _
  | closes f x hx => exact h.setSource hx
  | send f x len hx =>
    unfold Sess.sendFrom Sess.cancelIfExhausted
    simp only
    have h1 := h.setSource (y := { x with content := x.content.drop (x.content.take (min (len + 1) (min 4096 s.sendWin))).length }) hx
    split
    · exact Waits.cancelRead (Waits.congr h1 rfl rfl rfl rfl rfl)
    · exact Waits.congr h1 rfl rfl rfl rfl rfl
  | srcEnd f x hx =>
    cases f
    · exact h.congr rfl rfl rfl rfl (by simp [Sess.setSource])
    · exact h.congr rfl rfl rfl rfl (by simp [Sess.setSource])
    · refine ⟨h.deferred, ?_⟩
      intro h1 h2
      have h2 : s.stdin.isSome = true := by simpa [Sess.setSource] using h2
      rcases h.ready h1 (.inl h2) with h3 | h3
      · exact .inl h3
      · rw [h3.1] at h2; simp at h2
  | eofOut => exact h.emit _
  | closeOut => exact h.emit _

/-! ## The consumer -/

theorem consume_in {s s' : Sess} {n} (h : s.consume n = some s') : s'.stdinEnabled = s.stdinEnabled ∧
    s'.stdinDeferred = s.stdinDeferred ∧ s'.stdin = s.stdin ∧ s'.tty = s.tty ∧ s'.ttyWr = s.ttyWr := by
  unfold Sess.consume at h
  split at h
  · split at h <;> simp only [Option.some.injEq] at h <;> subst h <;> exact ⟨rfl, rfl, rfl, rfl, rfl⟩
  · simp at h

theorem Waits.scheduleWrite {s : Sess} (hen : s.stdinEnabled = true) : Waits s.scheduleWrite := by
  unfold Sess.scheduleWrite
  split
  · exact ⟨by simp [hen], fun _ _ => .inl rfl⟩
  · rename_i hs
    refine ⟨by simp [hen], fun _ h => .inr ⟨hs, ?_⟩⟩
    simp only [hs, Option.isSome_none, Bool.false_eq_true, false_or] at h
    simp [h]

theorem data_waits {s s' : Sess} {pl : Bytes} {k n} (h : Sess.ops.data s pl k = (s', .ok n)) :
    n ≤ pl.length ∧ (n < pl.length → Waits s') := by
  unfold Sess.ops at h
  simp only at h
  cases hen : s.stdinEnabled
  · rw [hen] at h
    simp only [Bool.not_false, cond_true, Prod.mk.injEq, Except.ok.injEq] at h
    obtain ⟨rfl, rfl⟩ := h
    refine ⟨Nat.zero_le _, fun _ => ⟨fun _ => rfl, ?_⟩⟩
    intro h; simp only [hen] at h; simp at h
  · rw [hen] at h
    simp only [Bool.not_true, cond_false] at h
    cases hno : !s.stdin.isSome && !s.tty.isSome
    · rw [hno] at h
      simp only [cond_false] at h
      cases k with
      | wouldBlock =>
        simp only [Sess.writeInput, Prod.mk.injEq, Except.ok.injEq] at h
        obtain ⟨rfl, rfl⟩ := h
        exact ⟨Nat.zero_le _, fun _ => .scheduleWrite hen⟩
      | failed =>
        simp only [Sess.writeInput, Prod.mk.injEq, Except.ok.injEq] at h
        obtain ⟨rfl, rfl⟩ := h
        exact ⟨Nat.le_refl _, fun h => absurd h (Nat.lt_irrefl _)⟩
      | wrote m =>
        simp only [Sess.writeInput] at h
        split at h
        · simp at h
        · rename_i s1 hc
          simp only [Prod.mk.injEq, Except.ok.injEq] at h
          obtain ⟨rfl, rfl⟩ := h
          refine ⟨Nat.min_le_right _ _, fun hn => ?_⟩
          obtain ⟨c1, c2, c3, c4, c5⟩ := consume_in hc
          unfold Sess.wroteInput at c1 c2 c3 c4 c5
          rw [if_pos hn] at c1 c2 c3 c4 c5
          exact (Waits.scheduleWrite (s := s.emit (.input (pl.take (min m pl.length)))) hen).congr c1 c2 c3 (by rw [c4]) c5
    · rw [hno] at h
      simp only [cond_true, Prod.mk.injEq, Except.ok.injEq] at h
      obtain ⟨rfl, rfl⟩ := h
      exact ⟨Nat.le_refl _, fun h => absurd h (Nat.lt_irrefl _)⟩

def QueueWaits (s : Sess) (b : Buf) : Prop := b.queue ≠ [] → Waits s

theorem finish_queue {s : Sess} {b : Buf} (h : b.queue = []) : QueueWaits (b.finish Sess.ops s).1 (b.finish Sess.ops s).2.1 := by
  unfold Buf.finish
  cases b.eofPending
  · exact fun hn => absurd h hn
  · exact fun hn => absurd h hn

theorem read_waits {ks : List (Nat × Wrote)} : ∀ {s : Sess} {b : Buf}, b.queue.length ≤ ks.length →
    (b.read Sess.ops s ks).2.2 = none → QueueWaits (b.read Sess.ops s ks).1 (b.read Sess.ops s ks).2.1 := by
  induction ks with
  | nil =>
    intro s b h _
    have hq : b.queue = [] := List.length_eq_zero_iff.mp (by simpa using h)
    unfold Buf.read
    rw [if_pos hq]
    exact finish_queue hq
  | cons x ks ih =>
    obtain ⟨len, k⟩ := x
    intro s b h
    unfold Buf.read
    split
    · rename_i hq; exact fun _ => finish_queue hq
    · rename_i hq
      simp only
      split
      · simp
      · rename_i g' n hd
        obtain ⟨h1, h2⟩ := data_waits hd
        split
        · rename_i hn
          exact fun _ _ => h2 hn
        · rename_i hn
          apply ih
          have hpos : b.queue.length ≠ 0 := fun h0 => hq (List.length_eq_zero_iff.mp h0)
          simp only [Buf.emit, List.length_drop, List.length_take, List.length_cons] at h hn ⊢
          omega

theorem onData_waits {s : Sess} {b : Buf} {pl k} (h : QueueWaits s b) (hs : (b.onData Sess.ops s pl k).2.2 = none) :
    QueueWaits (b.onData Sess.ops s pl k).1 (b.onData Sess.ops s pl k).2.1 := by
  revert hs
  unfold Buf.onData
  simp only
  cases (b.emit (.recv pl)).eofPending
  · simp only [cond_false]
    split
    · rename_i hq
      exact fun _ _ => h hq
    · split
      · simp
      · rename_i g' n hd
        obtain ⟨h1, h2⟩ := data_waits hd
        intro _ hn
        apply h2
        simp only [ne_eq] at hn
        rcases Nat.lt_or_ge n pl.length with h3 | h3
        · exact h3
        · exact absurd (List.drop_of_length_le h3) hn
  · simp

theorem closeStdin_waits {s : Sess} (h : Waits s) (hin : s.stdin.isSome = true → s.tty = none) : Waits s.closeStdin := by
  unfold Sess.closeStdin
  split
  · rename_i d hd
    exact h.none_ rfl rfl rfl (hin (by rw [hd]; rfl))
  · exact h

theorem onEof_waits {s : Sess} {b : Buf} (h : QueueWaits s b) (hs : (b.onEof Sess.ops s).2.2 = none) :
    QueueWaits (b.onEof Sess.ops s).1 (b.onEof Sess.ops s).2.1 := by
  revert hs
  unfold Buf.onEof
  simp only
  cases (b.emit .recvEof).eofPending
  · simp only [cond_false]
    split
    · rename_i hq
      exact fun _ hn => absurd hq hn
    · exact fun _ => h
  · simp

theorem closeIfInactive_waits {y : SessCh} (h : Waits y.s) : Waits y.closeIfInactive.s := by
  unfold SessCh.closeIfInactive SessCh.close
  cases !(y.s.stdout.isSome || y.s.stderr.isSome || y.s.tty.isSome || y.s.child.isSome)
  · exact h
  · exact h.dropChild.emit _

theorem Waits.enableStdin {s : Sess} (h : Waits s) : Waits s.enableStdin := by
  unfold Sess.enableStdin
  simp only [Bool.cond_eq_ite]
  split
  · exact .scheduleWrite rfl
  · rename_i hd
    refine ⟨by simp, fun _ => h.ready ?_⟩
    cases hen : s.stdinEnabled with
    | true => rfl
    | false => exact absurd (h.deferred hen) hd

theorem Waits.refuse {y : SessCh} (h : Waits y.s) (v text) : Waits (y.refuse v text).s := by
  unfold SessCh.refuse
  cases v
  · exact h.emit _
  · exact (h.setStderr text).emit _

theorem Waits.completed {cfg} {y : SessCh} (h : Waits y.s) (id err) : Waits (y.completed cfg id err).s := by
  have hf : Waits (y.finish id).s := h.congr rfl rfl rfl rfl rfl
  unfold SessCh.completed
  split
  · split
    · split
      · exact hf.enableStdin.emit _
      · exact hf.refuse _ _
    · exact h
  · exact h

theorem Waits.exited {y : SessCh} (h : Waits y.s) (hin : y.s.stdin.isSome = true → y.s.tty = none) : Waits y.exited.s := by
  unfold SessCh.exited
  split
  · exact h
  · refine closeIfInactive_waits (y := ⟨_, y.buf, y.stop⟩) ?_
    refine Waits.emit ?_ _
    exact closeStdin_waits (h.congr rfl rfl rfl rfl rfl) hin

theorem Waits.prims {cfg m s s'} (hw : m.w = false) (g : Prims cfg m s s') (hno : m.s0.stdinEnabled = false ∨ m.k = false)
    (ho : Orderly s'.log) (hord : Ord cfg s) (h : Waits s) : Waits s' := by
  refine (Prims.induct (P := fun s => Orderly s.log → Waits s ∧ (m.k = false → Ord cfg s)) ?_ g (fun _ => ⟨h, fun _ => hord⟩) ho).1
  intro s s' g ih ho
  obtain ⟨l, e⟩ := g.log
  have ho1 : Orderly s.log := by rw [e] at ho; exact ho.prefix
  obtain ⟨h1, h2⟩ := ih ho1
  refine ⟨.prim hw g hno ho h2 h1, fun hk => .prim hk g (by rw [e, startRequests_append]; omega) ho (h2 hk)⟩

/-! ## All events -/

theorem QueueWaits.handle {cfg r0} {y : SessCh} (hi : SessInv cfg r0 y.s) (hrd : y.s.reading = true → 0 < y.s.sendWin) (hord : Ord cfg y.s)
    (hst : y.stop = none) (h : QueueWaits y.s y.buf) (ev) (ho : Orderly (y.handle cfg ev).s.log)
    (hs : (y.handle cfg ev).stop = none) : QueueWaits (y.handle cfg ev).s (y.handle cfg ev).buf := by
  have hf : ∀ id t, y.s.tasks.lookup id = some t → willStart (id, t) = true → Unused y.s := by
    intro id t ht hw
    have hmem : (id, t) ∈ y.s.tasks := by
      obtain ⟨a, b, h1, _⟩ := List.lookup_eq_some_iff.mp ht
      rw [h1]; simp
    rcases hord.will with h1 | h1
    · have := h1 _ hmem; rw [hw] at this; simp at this
    · exact h1
  cases hin : inputEvent ev with
  | false =>
    have hb : bufEvent ev = false := by cases ev <;> first | rfl | simp [inputEvent] at hin
    rw [QueueWaits, handle_buf y hb]
    intro hq
    have hp := Prims.handle (cfg := cfg) (m := ⟨startEvent ev, false, false, y.s, received ev⟩) y ev rfl rfl (by simp [hin]) rfl hrd (by simp)
    by_cases hk : startEvent ev = false
    · exact Waits.prims rfl hp (.inr hk) ho hord (h hq)
    · cases ev with
      | request name data ok =>
        have hn : startRequests [.asked name data] ≠ 0 := by simpa [startEvent] using hk
        have hlog1 : ∃ l, (y.handle cfg (.request name data ok)).s.log = (y.s.log ++ [.asked name data]) ++ l :=
          (Prims.request (cfg := cfg) (m := ⟨true, true, true, y.s, none⟩) ⟨y.s.emit (.asked name data), y.buf, y.stop⟩ name data ok
            (by simpa [startEvent] using hn)).log
        obtain ⟨l, e⟩ := hlog1
        have h0 := startRequests_asked (by rw [e] at ho; exact ho.prefix) hn
        exact Waits.prims rfl hp (.inl (hord.before h0).2.enabled) ho hord (h hq)
      | enqueued id r =>
        by_cases hx : ∀ t, y.s.tasks.lookup id = some t → willStart (id, t) = false
        · show Waits (y.enqueued cfg id r).s
          rw [enqueued_idle hx]; exact h hq
        · have : ∃ t, y.s.tasks.lookup id = some t ∧ willStart (id, t) = true := by
            apply Classical.byContradiction
            intro hc
            apply hx
            intro t ht
            cases hw : willStart (id, t) with
            | false => rfl
            | true => exact absurd ⟨t, ht, hw⟩ hc
          obtain ⟨t, ht, hwt⟩ := this
          exact Waits.prims rfl hp (.inl (hf id t ht hwt).enabled) ho hord (h hq)
      | completed id err => simp [inputEvent] at hin
      | _ => exact absurd rfl hk
  | true =>
    cases ev with
    | completed id err =>
      rw [QueueWaits, handle_buf y rfl]
      intro hq
      exact (h hq).completed id err
    | exited =>
      rw [QueueWaits, handle_buf y rfl]
      intro hq
      exact (h hq).exited hord.in_
    | recvData bs k =>
      simp only [SessCh.handle] at hs ⊢
      split at hs
      · simp [SessCh.halt] at hs
      · rename_i hn
        rw [if_neg hn]
        exact onData_waits (s := y.s.emit (.data bs)) (fun hq => (h hq).emit _) (ofBuf_stop hs)
    | recvEof =>
      simp only [SessCh.handle] at hs ⊢
      exact onEof_waits (s := y.s.emit (.io (.rx .eof))) (fun hq => (h hq).emit _) (ofBuf_stop hs)
    | stdinReady ks =>
      simp only [SessCh.handle, SessCh.stdinReady] at hs ⊢
      split at hs
      · rename_i hsd
        cases hen : y.buf.enough ks
        · exact h
        · rw [hen] at hs
          simp only [cond_true] at hs ⊢
          exact read_waits (by simpa [Buf.enough] using hen) (ofBuf_stop hs)
      · exact h
    | ttyReady wr len =>
      obtain ⟨y1, g⟩ := ttyReady_split (cfg := cfg) (m := ⟨false, false, false, y.s, none⟩) y rfl hst hrd wr len
      have h1 : QueueWaits y1.s y1.buf ∧ Ord cfg y1.s := by
        have hs1 := g.stop hs
        rcases g.mid with e | ⟨ks, _, _, hen, e⟩
        · rw [e]; exact ⟨h, hord⟩
        · rw [e] at hs1 ⊢
          refine ⟨read_waits (by simpa [Buf.enough] using hen) (ofBuf_stop hs1), ?_⟩
          have hm : Misc true y.s (y.buf.read Sess.ops { y.s with ttyWr := false } ks).1 :=
            (Misc.keeps y.s).read (g := { y.s with ttyWr := false }) ⟨rfl, rfl, rfl, rfl, rfl, rfl, rfl, id, id, fun _ h => .inl h,
            ⟨[], by simp, by simp, fun h1 h2 => by rw [show y.s.stdin = none from h2] at h1; simp at h1⟩, by simp,
            fun _ h => .same h⟩
          have ho1 : Orderly (y.buf.read Sess.ops { y.s with ttyWr := false } ks).1.log := by
            obtain ⟨l, el⟩ := g.prims.log
            rw [show (y.handle cfg (.ttyReady wr len)).s.log = _ from el, e] at ho
            exact ho.prefix
          exact hord.other (m := ⟨false, false, true, y.s, none⟩) rfl (.one (.misc hm)) ho1
      show QueueWaits (y.ttyReady cfg wr len).s (y.ttyReady cfg wr len).buf
      rw [g.buf]
      intro hq
      exact Waits.prims rfl g.prims (.inr rfl) ho h1.2 (h1.1 hq)
    | _ => simp [inputEvent] at hin

theorem sess_waits (cfg r w evs) (ho : Orderly ((SessCh.init r w).run cfg evs).s.log)
    (hs : ((SessCh.init r w).run cfg evs).stop = none) :
    QueueWaits ((SessCh.init r w).run cfg evs).s ((SessCh.init r w).run cfg evs).buf := by
  induction evs using Aux.snoc_ind with
  | h0 => exact fun h => absurd rfl h
  | h1 evs ev ih =>
    obtain ⟨l, e⟩ := step_log cfg r w evs ev
    rw [e] at ho
    have ho1 := ho.prefix
    rw [SessCh.run_snoc] at e hs ⊢
    rw [← e] at ho
    unfold SessCh.step at ho hs ⊢
    split at hs
    · rename_i h; rw [h] at hs; simp at hs
    · rename_i h
      simp only [h] at ho ⊢
      exact QueueWaits.handle (sess_inv cfg r w evs) (sess_acc cfg r w evs).rd (sess_ord cfg r w evs ho1 h) h (ih ho1 h) ev ho hs

end Lukko
