import Verif.Proof.SessionOrd
/-
  Input of session channels: from the client through the buffer to the process.
-/
namespace Lukko
open Model Spec

section
variable {γ κ : Type} {ops : BufOps γ κ}

/-! ## Nothing is lost in the buffer -/

def BufEq (b : Buf) : Prop := taken b.log ++ b.queue = bufBytes b.log

def BufExact (r : γ × Buf × Option BufStop) : Prop :=
  (r.2.2 = none → BufEq r.2.1) ∧ taken r.2.1.log <+: bufBytes r.2.1.log

theorem BufEq.le {b} (h : BufEq b) : taken b.log <+: bufBytes b.log := ⟨_, h⟩

theorem BufEq.exact {g : γ} {b : Buf} {o} (h : BufEq b) : BufExact (g, b, o) := ⟨fun _ => h, h.le⟩

theorem BufEq.onData {b : Buf} (h : BufEq b) (g : γ) (pl : Bytes) (k : κ) : BufExact (b.onData ops g pl k) := by
  unfold Buf.onData
  have hle : taken (b.emit (.recv pl)).log <+: bufBytes (b.emit (.recv pl)).log := by
    simp only [Buf.emit, taken_snoc, bufBytes_snoc, List.append_nil]
    exact h.le.trans (List.prefix_append _ _)
  simp only
  cases (b.emit (.recv pl)).eofPending
  · simp only [cond_false]
    split
    · refine ⟨fun _ => ?_, hle⟩
      simp only [BufEq, Buf.emit, taken_snoc, bufBytes_snoc, List.append_nil, ← List.append_assoc]
      rw [h]
    · rename_i hq
      have hq : b.queue = [] := by simpa [Buf.emit] using hq
      split
      · exact ⟨by simp, hle⟩
      · rename_i g' n _
        refine BufEq.exact ?_
        unfold BufEq at h ⊢
        rw [hq, List.append_nil] at h
        simp only [Buf.emit, taken_snoc, bufBytes_snoc, List.append_nil]
        rw [List.append_assoc, List.take_append_drop, h]
  · exact ⟨by simp, hle⟩

theorem BufEq.onEof {b : Buf} (h : BufEq b) (g : γ) : BufExact (b.onEof ops g) := by
  unfold BufEq at h
  unfold Buf.onEof
  have h1 : BufEq (b.emit .recvEof) := by simpa [BufEq, Buf.emit, taken_snoc, bufBytes_snoc] using h
  simp only
  cases (b.emit .recvEof).eofPending
  · simp only [cond_false]
    split
    · refine BufEq.exact ?_
      simp only [BufEq, Buf.emit, taken_snoc, bufBytes_snoc, List.append_nil]
      exact h
    · exact BufEq.exact h1
  · exact BufEq.exact h1

theorem BufEq.finish {b : Buf} (h : BufEq b) (g : γ) : BufExact (b.finish ops g) := by
  unfold BufEq at h
  unfold Buf.finish
  cases b.eofPending
  · exact BufEq.exact h
  · refine BufEq.exact ?_
    simpa [BufEq, Buf.emit, taken_snoc, bufBytes_snoc] using h

theorem BufEq.read {ks : List (Nat × κ)} : ∀ {b : Buf}, BufEq b → ∀ g : γ, BufExact (b.read ops g ks) := by
  induction ks with
  | nil =>
    intro b h g
    unfold Buf.read
    split
    · exact h.finish g
    · exact h.exact
  | cons x ks ih =>
    obtain ⟨len, k⟩ := x
    intro b h g
    unfold Buf.read
    split
    · exact h.finish g
    · simp only
      split
      · exact h.exact
      · rename_i g' n _
        have hb : BufEq { b.emit (.took ((b.queue.take (len + 1)).take n)) with
            queue := b.queue.drop ((b.queue.take (len + 1)).take n).length } := by
          unfold BufEq at h ⊢
          have hpre : (b.queue.take (len + 1)).take n <+: b.queue :=
            (List.take_prefix n _).trans (List.take_prefix _ _)
          obtain ⟨rest, hr⟩ := hpre
          generalize (b.queue.take (len + 1)).take n = c at *
          rw [← hr] at h ⊢
          simpa [Buf.emit, taken_snoc, bufBytes_snoc] using h
        split
        · exact hb.exact
        · exact ih hb g'

/-! ## Whether the consumer is told about end-of-file -/

/-- End-of-file which was received is still in the buffer. -/
def EofHeld (b : Buf) : Prop := .recvEof ∈ b.log → b.eofPending = true

theorem Model.Buf.onEof_recvEof {b : Buf} {g : γ} : BufEntry.recvEof ∈ (b.onEof ops g).2.1.log := by
  unfold Buf.onEof
  simp only
  cases (b.emit .recvEof).eofPending
  · simp only [cond_false]
    split <;> simp [Buf.emit]
  · simp [Buf.emit]

end

/-! ## The terminal's readiness -/

section
variable {cfg : SessCfg} {m : PMode}

theorem closeIfInactive_ub (y : SessCh) (h : y.stop = none) : y.closeIfInactive.stop ≠ some .ub := by
  unfold SessCh.closeIfInactive SessCh.close
  cases !(y.s.stdout.isSome || y.s.stderr.isSome || y.s.tty.isSome || y.s.child.isSome) <;> simp [h]

theorem endOfSource_ub (y : SessCh) (h : y.stop = none) (f) : (y.endOfSource f).stop ≠ some .ub := by
  unfold SessCh.endOfSource
  generalize ({ y.s.setSource f none with ttyWr := y.s.ttyWr && f != Stream.terminal } : Sess) = s
  unfold SessCh.maybeSendEof
  cases s.stdout.isSome || s.stderr.isSome || s.tty.isSome
  · exact closeIfInactive_ub ⟨_, y.buf, y.stop⟩ h
  · simp [h]

theorem readSource_ub (y : SessCh) (h : y.stop = none) (hs : 0 < y.s.sendWin) (f x len) :
    (y.readSource cfg f x len).stop ≠ some .ub := by
  unfold SessCh.readSource
  simp only
  rw [if_neg (by omega)]
  split
  · exact endOfSource_ub y h f
  · simp [h]

theorem sendFrom_recvWin (s : Sess) (f x bs) : (s.sendFrom f x bs).recvWin = s.recvWin := by
  unfold Sess.sendFrom Sess.cancelIfExhausted
  simp only
  split <;> cases f <;> rfl

theorem readSource_recvWin (y : SessCh) (f x len) : (y.readSource cfg f x len).s.recvWin = y.s.recvWin := by
  unfold SessCh.readSource
  simp only
  split
  · cases cfg.ndebug
    · rfl
    · exact (Idle.endOfSource (b := true) y f).recvWin
  · split
    · exact (Idle.endOfSource (b := true) y f).recvWin
    · exact sendFrom_recvWin _ _ _ _

/-- The result of a readiness event of the terminal. -/
structure TtySplit (cfg : SessCfg) (m : PMode) (y : SessCh) (wr : Option (List (Nat × Wrote))) (z y1 : SessCh) : Prop where
  mid : y1 = y ∨ ∃ ks, wr = some ks ∧ y.s.ttyWr = true ∧ y.buf.enough ks = true ∧
    y1 = SessCh.ofBuf (y.buf.read Sess.ops { y.s with ttyWr := false } ks)
  buf : z.buf = y1.buf
  prims : Prims cfg m y1.s z.s
  stop : z.stop = none → y1.stop = none
  ub : y1.stop ≠ some .ub → z.stop ≠ some .ub
  win : z.s.recvWin = y1.s.recvWin

theorem ttyReady_split (y : SessCh) (h0 : y.s = m.s0) (hst : y.stop = none) (hrd : y.s.reading = true → 0 < y.s.sendWin) (wr len) (hk : m.k = false := by rfl) :
    ∃ y1, TtySplit cfg m y wr (y.ttyReady cfg wr len) y1 := by
  unfold SessCh.ttyReady
  split
  · exact ⟨y, .inl rfl, rfl, .refl _, id, id, rfl⟩
  · rename_i x hx
    simp only
    cases hc : (!(x.rd && !x.content.isEmpty) && !(y.ttyWritable wr).isSome)
    · simp only [cond_false]
      have h1 : Misc true y.s (y.ttyWrite (y.ttyWritable wr)).s := by
        unfold SessCh.ttyWrite
        split
        · exact .refl _ _
        · refine Misc.ofBuf ((Misc.keeps y.s).read (g := { y.s with ttyWr := false }) ?_)
          exact ⟨rfl, rfl, rfl, rfl, rfl, rfl, rfl, id, id, fun _ h => .inl h,
            ⟨[], by simp, by simp, fun h1 h2 => by rw [show y.s.stdin = none from h2] at h1; simp at h1⟩, by simp,
            fun _ h => .same h⟩
      have h2 : y.ttyWrite (y.ttyWritable wr) = y ∨ ∃ ks, wr = some ks ∧ y.s.ttyWr = true ∧ y.buf.enough ks = true ∧
          y.ttyWrite (y.ttyWritable wr) = SessCh.ofBuf (y.buf.read Sess.ops { y.s with ttyWr := false } ks) := by
        cases wr with
        | none => exact .inl rfl
        | some ks =>
          unfold SessCh.ttyWritable
          simp only [Bool.cond_eq_ite]
          split
          · rename_i h
            rw [Bool.and_eq_true] at h
            exact .inr ⟨ks, rfl, h.1, h.2, rfl⟩
          · exact .inl rfl
      generalize y.ttyWrite (y.ttyWritable wr) = y1 at *
      refine ⟨y1, ?_⟩
      unfold SessCh.ttyRead
      split
      · exact ⟨h2, rfl, .refl _, id, id, rfl⟩
      · rename_i hs1
        split
        · exact ⟨h2, rfl, .refl _, id, id, rfl⟩
        · rename_i x' hx'
          cases hr : x.rd && !x.content.isEmpty
          · exact ⟨h2, rfl, .refl _, id, id, rfl⟩
          · rw [h1.tty, hx] at hx'
            simp only [Option.some.injEq] at hx'
            subst hx'
            simp only [Bool.and_eq_true, Bool.not_eq_true'] at hr
            have hx1 : y1.s.source .terminal = some x := h1.tty.trans hx
            have hsw : 0 < y1.s.sendWin := by rw [h1.sendWin]; exact hrd (source_reading (f := .terminal) hx hr.1)
            refine ⟨h2, readSource_buf _ _ _ _ _, ?_, fun _ => hs1, fun _ => readSource_ub y1 hs1 hsw _ _ _, readSource_recvWin _ _ _ _⟩
            refine .readSource hk y1 (by rw [← h0]; exact hx) hx1 hr.1 hsw ?_ (by rw [h1.txEof, h0]) len
            intro h; rw [h] at hr; simp at hr
    · simp only [cond_true]
      cases hwr : x.writers
      · refine ⟨y, .inl rfl, endOfSource_buf _ _, ?_, fun _ => hst, fun _ => endOfSource_ub y hst _, (Idle.endOfSource (b := true) y _).recvWin⟩
        exact .endOfSource hk y (f := .terminal) (by rw [← h0]; exact hx) hx hwr (fun h => absurd rfl h) (by rw [h0])
      · exact ⟨y, .inl rfl, rfl, .refl _, id, id, rfl⟩

end

/-! ## Data -/

/-- A step which does not receive end-of-file. -/
theorem Prim.eof {cfg m s s'} (h : Prim cfg m s s') :
    .io (.rx .eof) ∈ s'.log → .io (.rx .eof) ∈ s.log ∨ m.rx = some (.io (.rx .eof)) := by
  intro he
  cases h with
  | misc h =>
    obtain ⟨l, e, hp, _⟩ := h.log
    rw [e] at he
    rcases List.mem_append.mp he with he | he
    · exact .inl he
    · have := hp _ he; simp [inert] at this
  | rx e h he' =>
    rcases List.mem_append.mp he with he | he
    · exact .inl he
    · rw [List.mem_singleton.mp he]; exact .inr h
  | ask name data hk =>
    rcases List.mem_append.mp he with he | he
    · exact .inl he
    · simp at he
  | setStderr text =>
    obtain ⟨l, e, hp, _⟩ := setStderr_log s text
    rw [e] at he
    rcases List.mem_append.mp he with he | he
    · rcases List.mem_append.mp he with he | he
      · exact .inl he
      · have := hp _ he; simp at this
    · simp at he
  | spawn program original terminal =>
    obtain ⟨p, l, e, _, hp⟩ := spawn_log cfg s program original terminal
    rw [e] at he
    rcases List.mem_append.mp he with he | he
    · exact .inl he
    · rcases List.mem_cons.mp he with he | he
      · simp at he
      · have := hp _ he; simp at this
  | sched => rw [maybeScheduleRead_log] at he; exact .inl he
  | term =>
    rcases List.mem_append.mp he with he | he
    · exact .inl he
    · simp at he
  | adjust =>
    rcases List.mem_append.mp he with he | he
    · exact .inl he
    · simp at he
  | kexinit =>
    rcases List.mem_append.mp he with he | he
    · exact .inl he
    · simp at he
  | newkeys =>
    rw [maybeScheduleRead_log] at he
    rcases List.mem_append.mp he with he | he
    · exact .inl he
    · simp at he
  | wrote f x bs =>
    rcases List.mem_append.mp he with he | he
    · rw [setSource_log] at he; exact .inl he
    · simp at he
  | closes f x => rw [setSource_log] at he; exact .inl he
  | send f x len =>
    rw [sendFrom_log] at he
    rcases List.mem_append.mp he with he | he
    · exact .inl he
    · simp at he
  | srcEnd f x =>
    simp only [setSource_log] at he; exact .inl he
  | eofOut =>
    rcases List.mem_append.mp he with he | he
    · exact .inl he
    · simp at he
  | closeOut =>
    rcases List.mem_append.mp he with he | he
    · exact .inl he
    · simp at he
  | _ => exact .inl he

theorem Prims.eof {cfg m s s'} (h : Prims cfg m s s') :
    .io (.rx .eof) ∈ s'.log → .io (.rx .eof) ∈ s.log ∨ m.rx = some (.io (.rx .eof)) := by
  induction h with
  | refl => exact .inl
  | tail _ g ih =>
    intro he
    rcases g.eof he with he | he
    · exact ih he
    · exact .inr he

theorem ofBuf_stop {r : Sess × Buf × Option BufStop} (h : (SessCh.ofBuf r).stop = none) : r.2.2 = none := by
  obtain ⟨s, b, st⟩ := r
  cases st with
  | none => rfl
  | some st => simp [SessCh.ofBuf] at h

/-- The record of the channel and that of its buffer. -/
structure SessBuf (y : SessCh) : Prop where
  eq : y.stop = none → BufEq y.buf
  le : taken y.buf.log <+: bufBytes y.buf.log
  eof : .recvEof ∈ y.buf.log → .io (.rx .eof) ∈ y.s.log
  eof' : .io (.rx .eof) ∈ y.s.log → .recvEof ∈ y.buf.log

theorem SessBuf.ofBuf {r : Sess × Buf × Option BufStop} (h : BufExact r)
    (h1 : .recvEof ∈ r.2.1.log → .io (.rx .eof) ∈ r.1.log) (h2 : .io (.rx .eof) ∈ r.1.log → .recvEof ∈ r.2.1.log) :
    SessBuf (SessCh.ofBuf r) := ⟨fun hs => h.1 (ofBuf_stop hs), h.2, h1, h2⟩

theorem log_mono_eof {y z : Sess} (h : ∃ l, z.log = y.log ++ l) (he : .io (.rx .eof) ∈ y.log) : .io (.rx .eof) ∈ z.log := by
  obtain ⟨l, e⟩ := h; rw [e]; exact List.mem_append_left _ he

theorem SessBuf.handle {cfg} {y : SessCh} (h : SessBuf y) (hst : y.stop = none) (hrd : y.s.reading = true → 0 < y.s.sendWin) (ev) :
    SessBuf (y.handle cfg ev) := by
  have hp := Prims.handle (cfg := cfg) (m := ⟨startEvent ev, false, true, y.s, received ev⟩) y ev rfl rfl (fun _ => rfl) rfl hrd (by simp)
  have hl := hp.log
  have he := hp.eof
  have hq := h.eq hst
  cases hb : bufEvent ev with
  | false =>
    have hbuf := handle_buf (cfg := cfg) y hb
    have hr : received ev = none := by cases ev <;> first | rfl | simp [bufEvent] at hb
    rw [hr] at he
    refine ⟨fun _ => by rw [hbuf]; exact hq, by rw [hbuf]; exact h.le, fun h1 => log_mono_eof hl (h.eof (by rw [hbuf] at h1; exact h1)), ?_⟩
    rw [hbuf]
    intro h1
    rcases he h1 with h1 | h1
    · exact h.eof' h1
    · simp at h1
  | true =>
    cases ev with
    | recvData bs k =>
      simp only [SessCh.handle] at hl he ⊢
      split
      · exact ⟨fun _ => hq, h.le, h.eof, h.eof'⟩
      · rename_i hn
        rw [if_neg hn] at hl he
        refine .ofBuf (hq.onData _ _ _) ?_ ?_
        · intro h1; exact log_mono_eof hl (h.eof (Buf.onData_recvEof.mp h1))
        · intro h1
          rcases he h1 with h1 | h1
          · exact Buf.onData_recvEof.mpr (h.eof' h1)
          · simp [received] at h1
    | recvEof =>
      refine .ofBuf (hq.onEof _) ?_ ?_
      · intro _
        have hm : Misc true (y.s.emit (.io (.rx .eof))) (y.buf.onEof Sess.ops (y.s.emit (.io (.rx .eof)))).1 :=
          (Misc.keeps (y.s.emit (.io (.rx .eof)))).onEof (.refl _ _) fun h => h
        obtain ⟨l, e, _⟩ := hm.log
        exact log_mono_eof ⟨l, e⟩ (List.mem_append_right _ (List.mem_singleton.mpr rfl))
      · intro _; exact Buf.onEof_recvEof
    | stdinReady ks =>
      simp only [SessCh.handle, SessCh.stdinReady] at hl he ⊢
      split
      · rename_i hsd
        simp only [hsd] at hl he
        cases hen : y.buf.enough ks
        · exact h
        · rw [hen] at hl he
          simp only [cond_true] at hl he ⊢
          refine .ofBuf (hq.read _) ?_ ?_
          · intro h1; exact log_mono_eof hl (h.eof (Buf.read_recvEof.mp h1))
          · intro h1
            rcases he h1 with h1 | h1
            · exact Buf.read_recvEof.mpr (h.eof' h1)
            · simp [received] at h1
      · exact h
    | ttyReady wr len =>
      obtain ⟨y1, g⟩ := ttyReady_split (cfg := cfg) (m := ⟨false, false, true, y.s, none⟩) y rfl hst hrd wr len
      have h1 : SessBuf y1 := by
        rcases g.mid with e | ⟨ks, _, _, _, e⟩
        · rw [e]; exact h
        · rw [e]
          have hm : Misc true { y.s with ttyWr := false } (y.buf.read Sess.ops { y.s with ttyWr := false } ks).1 :=
            (Misc.keeps _).read (.refl _ _)
          obtain ⟨l, e, hpr, _⟩ := hm.log
          refine .ofBuf (hq.read _) ?_ ?_
          · intro h1; exact log_mono_eof ⟨l, e⟩ (h.eof (Buf.read_recvEof.mp h1))
          · intro h1
            rw [e] at h1
            rcases List.mem_append.mp h1 with h1 | h1
            · exact Buf.read_recvEof.mpr (h.eof' h1)
            · have := hpr _ h1; simp [inert] at this
      refine ⟨fun hs => by rw [show (y.handle cfg (.ttyReady wr len)).buf = y1.buf from g.buf]; exact h1.eq (g.stop hs), ?_, ?_, ?_⟩
      · rw [show (y.handle cfg (.ttyReady wr len)).buf = y1.buf from g.buf]; exact h1.le
      · rw [show (y.handle cfg (.ttyReady wr len)).buf = y1.buf from g.buf]
        intro h2; exact log_mono_eof g.prims.log (h1.eof h2)
      · rw [show (y.handle cfg (.ttyReady wr len)).buf = y1.buf from g.buf]
        intro h2
        rcases g.prims.eof h2 with h2 | h2
        · exact h1.eof' h2
        · simp at h2
    | _ => simp [bufEvent] at hb

theorem sess_buf (cfg r w evs) : SessBuf ((SessCh.init r w).run cfg evs) := by
  induction evs using Aux.snoc_ind with
  | h0 => exact ⟨fun _ => rfl, List.prefix_refl _, by simp [SessCh.run, SessCh.init], by simp [SessCh.run, SessCh.init]⟩
  | h1 evs ev ih =>
    rw [SessCh.run_snoc]
    unfold SessCh.step
    split
    · exact ih
    · rename_i h; exact ih.handle h (sess_acc cfg r w evs).rd ev

end Lukko
