import Verif.Proof.SessionFine
/-
  Session channels: end-of-file from the client.
-/
namespace Lukko
open Model Spec

/-! ## The buffer follows the rules if the client does -/

theorem polite_data {cfg} {y : SessCh} {bs k} (hb : SessBuf y) (hn : ¬ bs.length > y.s.recvWin)
    (hp : Polite (y.handle cfg (.recvData bs k)).s.log) : BufEntry.recvEof ∉ y.buf.log := by
  simp only [SessCh.handle] at hp
  rw [if_neg hn] at hp
  have hm : Misc true (y.s.emit (.data bs)) (y.buf.onData Sess.ops (y.s.emit (.data bs)) bs k).1 :=
    (Misc.keeps (y.s.emit (.data bs))).onData (.refl _ _) fun h => h
  obtain ⟨l, e, _⟩ := hm.log
  intro hc
  refine Spec.Polite.no (a := y.s.log) (b := l) (e := .data bs) ?_ (.inr ⟨bs, rfl⟩) (hb.eof hc)
  have e' : (SessCh.ofBuf (y.buf.onData Sess.ops (y.s.emit (.data bs)) bs k)).s.log = y.s.log ++ .data bs :: l := by
    rw [show (SessCh.ofBuf (y.buf.onData Sess.ops (y.s.emit (.data bs)) bs k)).s.log = _ from e]; simp [Sess.emit]
  rw [← e']; exact hp

theorem polite_eof {cfg} {y : SessCh} (hb : SessBuf y) (hp : Polite (y.handle cfg .recvEof).s.log) : BufEntry.recvEof ∉ y.buf.log := by
  simp only [SessCh.handle] at hp
  have hm : Misc true (y.s.emit (.io (.rx .eof))) (y.buf.onEof Sess.ops (y.s.emit (.io (.rx .eof)))).1 :=
    (Misc.keeps (y.s.emit (.io (.rx .eof)))).onEof (.refl _ _) fun h => h
  obtain ⟨l, e, _⟩ := hm.log
  intro hc
  refine Spec.Polite.no (a := y.s.log) (b := l) (e := .io (.rx .eof)) ?_ (.inl rfl) (hb.eof hc)
  have e' : (SessCh.ofBuf (y.buf.onEof Sess.ops (y.s.emit (.io (.rx .eof))))).s.log = y.s.log ++ .io (.rx .eof) :: l := by
    rw [show (SessCh.ofBuf (y.buf.onEof Sess.ops (y.s.emit (.io (.rx .eof))))).s.log = _ from e]; simp [Sess.emit]
  rw [← e']; exact hp

theorem pipe_handle {cfg} {y : SessCh} (hb : SessBuf y) (hrd : y.s.reading = true → 0 < y.s.sendWin) (hst : y.stop = none)
    (h : BufInv y.buf) (ev) (hs : (y.handle cfg ev).stop = none) (hp : Polite (y.handle cfg ev).s.log) :
    BufInv (y.handle cfg ev).buf := by
  cases hbe : bufEvent ev with
  | false => rw [handle_buf y hbe]; exact h
  | true =>
    cases ev with
    | recvData bs k =>
      by_cases hn : bs.length > y.s.recvWin
      · simp [SessCh.handle, hn, SessCh.halt] at hs
      · have hpol := polite_data hb hn hp
        simp only [SessCh.handle, if_neg hn] at hs ⊢
        exact (h.onData hpol _ _ _).1 (ofBuf_stop hs)
    | recvEof => exact (h.onEof (polite_eof hb hp) _).1 (ofBuf_stop hs)
    | stdinReady ks =>
      simp only [SessCh.handle, SessCh.stdinReady] at hs ⊢
      split at hs
      · cases hen : y.buf.enough ks
        · exact h
        · rw [hen] at hs
          exact (h.read _ _).1 (ofBuf_stop hs)
      · exact h
    | ttyReady wr len =>
      obtain ⟨y1, g⟩ := ttyReady_split (cfg := cfg) (m := ⟨false, false, false, y.s, none⟩) y rfl hst hrd wr len
      show BufInv (y.ttyReady cfg wr len).buf
      rw [g.buf]
      have hs1 := g.stop hs
      rcases g.mid with e | ⟨ks, _, _, _, e⟩
      · rw [e]; exact h
      · rw [e] at hs1 ⊢
        exact (h.read _ _).1 (ofBuf_stop hs1)
    | _ => simp [bufEvent] at hbe

theorem sess_pipe (cfg r w evs) (hp : Polite ((SessCh.init r w).run cfg evs).s.log)
    (hs : ((SessCh.init r w).run cfg evs).stop = none) : BufInv ((SessCh.init r w).run cfg evs).buf := by
  induction evs using Aux.snoc_ind with
  | h0 => exact BufInv.init
  | h1 evs ev ih =>
    obtain ⟨l, e⟩ := step_log cfg r w evs ev
    rw [e] at hp
    have hp1 := hp.prefix
    rw [← e, SessCh.run_snoc] at hp
    rw [SessCh.run_snoc] at hs ⊢
    unfold SessCh.step at hp hs ⊢
    split at hs
    · rename_i h; rw [h] at hs; simp at hs
    · rename_i h
      simp only [h] at hp ⊢
      exact pipe_handle (sess_buf cfg r w evs) (sess_acc cfg r w evs).rd h (ih hp1 h) ev hs hp

/-! ## End-of-file is not forgotten -/

/-- The pipe stays open, or the process sees end-of-file. -/
theorem Prim.stdin {cfg m s s'} (h : Prim cfg m s s') (hs : s.stdin.isSome = true) :
    s'.stdin.isSome = true ∨ ∃ l, s'.log = s.log ++ l ∧ SessEntry.inputClosed ∈ l := by
  have hsame : s'.stdin = s.stdin → s'.stdin.isSome = true := fun e => by rw [e]; exact hs
  rcases h.shape with (g | g) | ⟨t, rfl, _⟩ | ⟨text, rfl, _⟩ | ⟨rfl, _⟩ | ⟨b, rfl, _⟩ | ⟨pr, o, t, rfl, _⟩ | ⟨rfl, _⟩ | ⟨rfl, _⟩ |
    ⟨f, x, rfl, _⟩
  · obtain ⟨l, e, _, h3⟩ := g.log
    cases hs' : s'.stdin with
    | none => exact .inr ⟨l, e, h3 hs hs'⟩
    | some _ => exact .inl rfl
  · exact .inl (hsame g.stdin)
  · exact .inl hs
  · obtain ⟨l, e, _, h3⟩ := setStderr_log s text
    exact .inr ⟨l ++ [.message text], by rw [e]; simp, List.mem_append_left _ (h3 hs)⟩
  · exact .inl rfl
  · exact .inl hs
  · exact .inl (hsame (spawn_facts cfg s pr o t).2.1)
  · exact .inl hs
  · exact .inl hs
  · refine .inl (hsame ?_)
    cases f <;> rfl

theorem Prims.stdin {cfg m s s'} (h : Prims cfg m s s') (hs : s.stdin.isSome = true) :
    s'.stdin.isSome = true ∨ ∃ l, s'.log = s.log ++ l ∧ SessEntry.inputClosed ∈ l := by
  induction h with
  | refl => exact .inl hs
  | tail _ g ih =>
    rcases ih with ih | ⟨l, e, hl⟩
    · rename_i t u hst
      obtain ⟨l1, e1⟩ := hst.log
      rcases g.stdin ih with g | ⟨l, e, hl⟩
      · exact .inl g
      · exact .inr ⟨l1 ++ l, by rw [e, e1]; simp, List.mem_append_right _ hl⟩
    · obtain ⟨l2, e2⟩ := g.log
      exact .inr ⟨l ++ l2, by rw [e2, e]; simp, List.mem_append_left _ hl⟩

theorem finish_held {s : Sess} {b : Buf} (h : EofHeld b) :
    EofHeld (b.finish Sess.ops s).2.1 ∨ (b.finish Sess.ops s).1.stdin = none := by
  unfold Buf.finish
  cases hp : b.eofPending
  · exact .inl h
  · refine .inr ?_
    simp only [cond_true, Sess.ops, Sess.closeStdin]
    split
    · rfl
    · rename_i h; exact h

theorem read_held {ks : List (Nat × Wrote)} : ∀ {s : Sess} {b : Buf}, EofHeld b →
    EofHeld (b.read Sess.ops s ks).2.1 ∨ (b.read Sess.ops s ks).1.stdin = none := by
  induction ks with
  | nil =>
    intro s b h
    unfold Buf.read
    split
    · exact finish_held h
    · exact .inl h
  | cons x ks ih =>
    obtain ⟨len, k⟩ := x
    intro s b h
    unfold Buf.read
    split
    · exact finish_held h
    · simp only
      split
      · exact .inl h
      · rename_i g' n _
        have hb : EofHeld { b.emit (.took ((b.queue.take (len + 1)).take n)) with
            queue := b.queue.drop ((b.queue.take (len + 1)).take n).length } := by
          intro hc; exact h (by simpa [Buf.emit] using hc)
        split
        · exact .inl hb
        · exact ih hb

/-- As long as the pipe is open, end-of-file is in the buffer if it was received. -/
def Held (y : SessCh) : Prop := y.s.stdin.isSome = true ∧ EofHeld y.buf

theorem Held.misc {s : Sess} {r : Sess × Buf × Option BufStop} (hs : s.stdin.isSome = true) (hm : Misc true s r.1)
    (h : EofHeld r.2.1 ∨ r.1.stdin = none) : Held (SessCh.ofBuf r) ∨
      ∃ l, (SessCh.ofBuf r).s.log = s.log ++ l ∧ SessEntry.inputClosed ∈ l := by
  obtain ⟨l, e, _, h3⟩ := hm.log
  cases hn : r.1.stdin with
  | none => exact .inr ⟨l, e, h3 hs hn⟩
  | some d => exact .inl ⟨by show r.1.stdin.isSome = true; rw [hn]; rfl, h.resolve_right (by rw [hn]; simp)⟩

theorem Held.handle {cfg} {y : SessCh} (hb : SessBuf y) (hrd : y.s.reading = true → 0 < y.s.sendWin) (hst : y.stop = none)
    (h : Held y) (ev) (hp : Polite (y.handle cfg ev).s.log) :
    Held (y.handle cfg ev) ∨ ∃ l, (y.handle cfg ev).s.log = y.s.log ++ l ∧ SessEntry.inputClosed ∈ l := by
  obtain ⟨h1, h2⟩ := h
  have hpr := Prims.handle (cfg := cfg) (m := ⟨startEvent ev, false, true, y.s, received ev⟩) y ev rfl rfl (fun _ => rfl) rfl hrd (by simp)
  cases hbe : bufEvent ev with
  | false =>
    rcases hpr.stdin h1 with g | g
    · exact .inl ⟨g, by rw [handle_buf y hbe]; exact h2⟩
    · exact .inr g
  | true =>
    cases ev with
    | recvData bs k =>
      by_cases hn : bs.length > y.s.recvWin
      · simp only [SessCh.handle, if_pos hn]; exact .inl ⟨h1, h2⟩
      · have hpol := polite_data hb hn hp
        rcases hpr.stdin h1 with g | g
        · refine .inl ⟨g, ?_⟩
          simp only [SessCh.handle, if_neg hn]
          intro hc
          exact absurd (Buf.onData_recvEof.mp hc) hpol
        · exact .inr g
    | recvEof =>
      have hm : Misc true (y.s.emit (.io (.rx .eof))) (y.buf.onEof Sess.ops (y.s.emit (.io (.rx .eof)))).1 :=
        (Misc.keeps (y.s.emit (.io (.rx .eof)))).onEof (.refl _ _) fun h => h
      have := Held.misc (r := y.buf.onEof Sess.ops (y.s.emit (.io (.rx .eof)))) (s := y.s.emit (.io (.rx .eof))) h1 hm ?_
      · rcases this with g | ⟨l, e, hl⟩
        · exact .inl g
        · exact .inr ⟨.io (.rx .eof) :: l, by rw [show (y.handle cfg .recvEof).s.log = _ from e]; simp [Sess.emit], List.mem_cons_of_mem _ hl⟩
      · unfold Buf.onEof
        simp only
        cases he : (y.buf.emit .recvEof).eofPending
        · simp only [cond_false]
          split
          · refine .inr ?_
            simp only [Sess.ops, Sess.closeStdin]
            split
            · rfl
            · rename_i h; exact h
          · exact .inl fun _ => rfl
        · exact .inl fun _ => he
    | stdinReady ks =>
      simp only [SessCh.handle, SessCh.stdinReady]
      split
      · rename_i hsd
        cases y.buf.enough ks
        · exact .inl ⟨h1, h2⟩
        · simp only [cond_true]
          have hm : Misc true { y.s with stdin := some false } (y.buf.read Sess.ops { y.s with stdin := some false } ks).1 :=
            (Misc.keeps _).read (.refl _ _)
          exact Held.misc (s := { y.s with stdin := some false }) rfl hm (read_held h2)
      · exact .inl ⟨h1, h2⟩
    | ttyReady wr len =>
      obtain ⟨y1, g⟩ := ttyReady_split (cfg := cfg) (m := ⟨false, false, false, y.s, none⟩) y rfl hst hrd wr len
      have hy : Held y1 ∨ ∃ l, y1.s.log = y.s.log ++ l ∧ SessEntry.inputClosed ∈ l := by
        rcases g.mid with e | ⟨ks, _, _, _, e⟩
        · rw [e]; exact .inl ⟨h1, h2⟩
        · rw [e]
          have hm : Misc true { y.s with ttyWr := false } (y.buf.read Sess.ops { y.s with ttyWr := false } ks).1 :=
            (Misc.keeps _).read (.refl _ _)
          exact Held.misc (s := { y.s with ttyWr := false }) h1 hm (read_held h2)
      show Held (y.ttyReady cfg wr len) ∨ _
      rcases hy with hy | ⟨l, e, hl⟩
      · have hlog : ∃ l, y1.s.log = y.s.log ++ l := by
          rcases g.mid with e | ⟨ks, _, _, _, e⟩
          · exact ⟨[], by rw [e]; simp⟩
          · rw [e]
            have hm : Misc true { y.s with ttyWr := false } (y.buf.read Sess.ops { y.s with ttyWr := false } ks).1 :=
              (Misc.keeps _).read (.refl _ _)
            obtain ⟨l, e, _⟩ := hm.log
            exact ⟨l, e⟩
        obtain ⟨l0, e0⟩ := hlog
        rcases g.prims.stdin hy.1 with g1 | ⟨l, e, hl⟩
        · exact .inl ⟨g1, by rw [g.buf]; exact hy.2⟩
        · exact .inr ⟨l0 ++ l, by rw [show (y.handle cfg (.ttyReady wr len)).s.log = _ from e, e0]; simp, List.mem_append_right _ hl⟩
      · obtain ⟨l2, e2⟩ := g.prims.log
        exact .inr ⟨l ++ l2, by rw [show (y.handle cfg (.ttyReady wr len)).s.log = _ from e2, e]; simp, List.mem_append_left _ hl⟩
    | _ => simp [bufEvent] at hbe

/-! ## When a process is started -/

/-- No process is started. -/
def NoStart (s s' : Sess) : Prop := ∃ l, s'.log = s.log ++ l ∧ ∀ p, .started p ∉ l

theorem NoStart.refl (s : Sess) : NoStart s s := ⟨[], by simp, by simp⟩

theorem NoStart.trans {s t u : Sess} (h : NoStart s t) (g : NoStart t u) : NoStart s u := by
  obtain ⟨l1, e1, h1⟩ := h
  obtain ⟨l2, e2, h2⟩ := g
  refine ⟨l1 ++ l2, by rw [e2, e1]; simp, fun p hp => ?_⟩
  rcases List.mem_append.mp hp with hp | hp
  · exact h1 p hp
  · exact h2 p hp

theorem NoStart.still {s s' : Sess} (h : Still s s') : NoStart s s' := by
  obtain ⟨l, e, h⟩ := h.log
  exact ⟨l, e, fun p hp => by have := h _ hp; simp [sessPlain] at this⟩

theorem NoStart.log {s s' : Sess} (h : s'.log = s.log) : NoStart s s' := ⟨[], by simp [h], by simp⟩

theorem NoStart.emit (s : Sess) {e : SessEntry} (h : ∀ p, e ≠ .started p) : NoStart s (s.emit e) :=
  ⟨[e], rfl, fun p hp => h p (List.mem_singleton.mp hp).symm⟩

section
variable {cfg : SessCfg}

theorem NoStart.exec (y : SessCh) (cmd) : NoStart y.s (y.exec cfg cmd).s := by
  unfold SessCh.exec
  split
  · cases cfg.exec
    · exact .still (.refuse _ _ _)
    · exact .log rfl
  · cases cfg.exec
    · simp only [cond_false]
      split
      · exact .log rfl
      · exact .still (.refuse _ _ _)
      · unfold SessCh.execOther SessCh.execGit
        split
        · split
          · exact .still (.answer _ _)
          · exact .log rfl
        · split
          · split
            · exact .still (.answer _ _)
            · exact .log rfl
          · exact .still (.refuse _ _ _)
    · exact .log rfl

theorem setEnv_log {s s' : Sess} {name value} (h : s.setEnv name value = some s') : s'.log = s.log := by
  unfold Sess.setEnv at h
  split at h
  · simp at h
  · simp only [Option.some.injEq] at h; subst h; rfl

theorem NoStart.request (y : SessCh) (name data ok) : NoStart y.s (y.request cfg name data ok).s := by
  unfold SessCh.request
  cases y.s.child.isSome
  · simp only [cond_false]
    split
    · unfold SessCh.execRequest
      split
      · exact .refl _
      · split
        · exact .still (.refuse _ _ _)
        · exact .exec _ _
    · split
      · exact .exec _ _
      · split
        · unfold SessCh.subsystem
          split
          · exact .refl _
          · split
            · cases !cfg.sftp
              · cases y.s.tty.isSome
                · exact .log rfl
                · exact .still (.answer _ _)
              · exact .still (.answer _ _)
            · exact .still (.answer _ _)
        · split
          · unfold SessCh.ptyReq
            cases !cfg.exec || y.s.restr.noTerminal
            · simp only [cond_false]
              split
              · exact .refl _
              · cases !ok
                · simp only [cond_false]
                  split
                  · exact .refl _
                  · rename_i s' h
                    have h1 : NoStart y.s s' := ⟨[.terminalAllocated], setEnv_log h, by simp⟩
                    exact h1.trans (.emit s' (by simp))
                · exact .refl _
            · exact .still (.answer _ _)
          · split
            · unfold SessCh.envRequest
              cases !cfg.exec
              · simp only [cond_false]
                split
                · exact .refl _
                · split
                  · exact .refl _
                  · rename_i s' h
                    exact NoStart.trans (t := s') (.log (setEnv_log h)) (.emit s' (by simp))
              · exact .still (.answer _ _)
            · split
              · exact NoStart.trans (t := { y.s with agentReq := true }) (.log rfl) (.emit { y.s with agentReq := true } (by simp))
              · exact .still (.answer _ _)
  · unfold SessCh.lateRequest
    simp only [cond_true]
    split
    · cases !y.s.tty.isSome
      · simp only [cond_false]
        split
        · exact .refl _
        · cases ok
          · exact .refl _
          · exact .still (.answer _ _)
      · exact .still (.answer _ _)
    · exact .still (.answer _ _)

/-- A process is started, and if it has no terminal, it has a pipe as its standard input. -/
def Starts (s s' : Sess) : Prop :=
  ∃ p l, s'.log = s.log ++ .started p :: l ∧ (∀ q, .started q ∉ l) ∧ (p.terminal = false → s'.stdin.isSome = true)

theorem launch_starts (y : SessCh) (id program original terminal r) (h : terminal = false → y.s.stdin.isSome = true) :
    NoStart y.s (y.launch cfg id program original terminal r).s ∨ Starts y.s (y.launch cfg id program original terminal r).s := by
  unfold SessCh.launch
  split
  · refine .inl (NoStart.trans (t := (y.finish id).s.maybeScheduleRead) (.log (maybeScheduleRead_log _))
      (.still (.refuse ⟨(y.finish id).s.maybeScheduleRead, y.buf, y.stop⟩ _ _)))
  · refine .inr ?_
    obtain ⟨p, l, e, ht, hl⟩ := spawn_log cfg (y.finish id).s program original terminal
    refine ⟨p, l, e, fun q hq => by have := hl _ hq; simp at this, fun hp => ?_⟩
    show ((y.finish id).s.spawn cfg program original terminal).stdin.isSome = true
    rw [(spawn_facts cfg _ _ _ _).2.1]
    exact h (ht ▸ hp)

theorem enqueued_starts (y : SessCh) (id r) :
    NoStart y.s (y.enqueued cfg id r).s ∨ Starts y.s (y.enqueued cfg id r).s := by
  have pipes : ∀ {s'}, y.s.preparePipes cfg.ndebug = some s' → s'.log = y.s.log ∧ s'.stdin.isSome = true := by
    intro s' h
    unfold Sess.preparePipes at h
    simp only [Bool.cond_eq_ite] at h
    split at h
    · simp at h
    · simp only [Option.some.injEq] at h; subst h; exact ⟨rfl, rfl⟩
  have lift : ∀ {s' : Sess} {z : SessCh}, s'.log = y.s.log → (NoStart s' z.s ∨ Starts s' z.s) → NoStart y.s z.s ∨ Starts y.s z.s := by
    intro s' z e h
    unfold NoStart Starts at h ⊢
    rw [e] at h; exact h
  have service : ∀ program, NoStart y.s (y.resumeService cfg id program r).s ∨ Starts y.s (y.resumeService cfg id program r).s := by
    intro program
    unfold SessCh.resumeService
    split
    · exact .inl (NoStart.trans (t := (y.finish id).s) (.log rfl) (.still (.refuse _ _ _)))
    · split
      · exact .inl (.refl _)
      · rename_i s' hs'
        obtain ⟨h1, h2⟩ := pipes hs'
        split
        · exact .inl (NoStart.trans (t := (SessCh.finish ⟨s', y.buf, y.stop⟩ id).s) (.log h1) (.still (.refuse _ _ _)))
        · exact lift h1 (launch_starts ⟨s', y.buf, y.stop⟩ _ _ _ _ _ fun _ => h2)
  unfold SessCh.enqueued
  split
  · unfold SessCh.resumeExec
    split
    · exact .inl (.refl _)
    · split
      · exact .inl (.refl _)
      · rename_i s' hs'
        have : s'.log = y.s.log ∧ (s'.tty.isSome = false → s'.stdin.isSome = true) := by
          unfold Sess.prepareExec at hs'
          simp only [Bool.cond_eq_ite] at hs'
          split at hs'
          · simp at hs'
          · split at hs'
            · rename_i ht
              simp only [Option.some.injEq] at hs'; subst hs'
              exact ⟨rfl, fun h => by rw [show y.s.tty.isSome = false from h] at ht; simp at ht⟩
            · unfold Sess.preparePipes at hs'
              simp only [Bool.cond_eq_ite] at hs'
              split at hs'
              · simp at hs'
              · simp only [Option.some.injEq] at hs'; subst hs'; exact ⟨rfl, fun _ => rfl⟩
        exact lift this.1 (launch_starts ⟨s', y.buf, y.stop⟩ _ _ _ _ _ this.2)
  · exact service _
  · exact service _
  · unfold SessCh.resumeSftp
    split
    · exact .inl (.refl _)
    · cases y.s.tty.isSome && !cfg.ndebug
      · simp only [cond_false]
        split
        · exact .inl (.refl _)
        · rename_i s' hs'
          obtain ⟨h1, h2⟩ := pipes hs'
          exact lift h1 (launch_starts ⟨s', y.buf, y.stop⟩ _ _ _ _ _ fun _ => h2)
      · exact .inl (.refl _)
  · exact .inl (.refl _)

theorem handle_starts (y : SessCh) (ev) : NoStart y.s (y.handle cfg ev).s ∨ (Starts y.s (y.handle cfg ev).s ∧ bufEvent ev = false) := by
  cases ho : otherEvent ev with
  | true => exact .inl (.still (.handle cfg y ev ho))
  | false =>
    cases ev with
    | request name data ok =>
      exact .inl (NoStart.trans (t := y.s.emit (.asked name data)) (.emit y.s (by simp))
        (.request ⟨y.s.emit (.asked name data), y.buf, y.stop⟩ name data ok))
    | enqueued id r =>
      rcases enqueued_starts (cfg := cfg) y id r with h | h
      · exact .inl h
      · exact .inr ⟨h, rfl⟩
    | restricted r => exact .inl ⟨[.restricted r], rfl, by simp⟩
    | _ => simp [otherEvent] at ho

end

/-! ## The invariant -/

/-- For every process which has no terminal, unless end-of-file was received and
everything was delivered before it was started: it saw end-of-file, or it will. -/
def EofInv (y : SessCh) : Prop :=
  ∀ a p b, y.s.log = a ++ .started p :: b → p.terminal = false → ¬ (.io (.rx .eof) ∈ a ∧ inputOrLost a = clientData a) →
    .inputClosed ∈ b ∨ Held y

theorem EofInv.handle {cfg w} {y : SessCh} (hacc : SessAccCh w y) (hb : SessBuf y) (hpi : BufInv y.buf) (hst : y.stop = none)
    (h : EofInv y) (ev) (hp : Polite (y.handle cfg ev).s.log) : EofInv (y.handle cfg ev) := by
  have hrd := hacc.rd
  intro a p b e ht hn
  have old : ∀ l, (y.handle cfg ev).s.log = y.s.log ++ l → ∀ b', y.s.log = a ++ .started p :: b' →
      .inputClosed ∈ b ∨ Held (y.handle cfg ev) := by
    intro l el b' eb
    rw [el, eb] at e
    have hbb : b' ++ l = b := by simpa using e
    rcases h a p b' eb ht hn with h1 | h1
    · exact .inl (by rw [← hbb]; exact List.mem_append_left _ h1)
    · rcases h1.handle hb hrd hst ev hp with h2 | ⟨l', el', hl'⟩
      · exact .inr h2
      · rw [el] at el'
        have := List.append_cancel_left el'
        subst this
        exact .inl (by rw [← hbb]; exact List.mem_append_right _ hl')
  rcases handle_starts (cfg := cfg) y ev with ⟨l, el, hl⟩ | ⟨⟨q, l, el, hl, hq⟩, hbe⟩
  · rw [el] at e
    rcases split_append e with ⟨b', eb⟩ | ⟨a', _, e2⟩
    · exact old l el b' eb
    · exact absurd (by rw [e2]; simp) (hl p)
  · have e' := e
    rw [el] at e
    rcases split_append e with ⟨b', eb⟩ | ⟨a', ea, e2⟩
    · exact old _ el b' eb
    · cases a' with
      | nil =>
        simp only [List.nil_append, List.cons.injEq, SessEntry.started.injEq] at e2
        obtain ⟨rfl, rfl⟩ := e2
        refine .inr ⟨hq ht, ?_⟩
        rw [List.append_nil] at ea
        subst ea
        rw [handle_buf y hbe]
        intro hc
        obtain ⟨eof, told, h1, h2, h3⟩ := hpi
        have hf := pipe_facts h1
        have he : eof = true := hf.2.1.mpr hc
        cases told with
        | false => rw [h2, he]; rfl
        | true =>
          exfalso
          apply hn
          refine ⟨hb.eof hc, ?_⟩
          have hq0 : y.buf.queue = [] := (hf.2.2.2.1 rfl).2
          have := hb.eq hst
          unfold BufEq at this
          rw [hq0, List.append_nil] at this
          rw [SessAcc.took hacc, SessAcc.got hacc, this]
      | cons x a' =>
        simp only [List.cons_append, List.cons.injEq] at e2
        exact absurd (by rw [e2.2]; simp) (hl p)

theorem sess_eof (cfg r w evs) (hp : Polite ((SessCh.init r w).run cfg evs).s.log) : EofInv ((SessCh.init r w).run cfg evs) := by
  induction evs using Aux.snoc_ind with
  | h0 =>
    intro a p b e
    simp [SessCh.run, SessCh.init] at e
  | h1 evs ev ih =>
    obtain ⟨l, e⟩ := step_log cfg r w evs ev
    rw [e] at hp
    have hp1 := hp.prefix
    rw [← e, SessCh.run_snoc] at hp
    rw [SessCh.run_snoc]
    unfold SessCh.step at hp ⊢
    split
    · exact ih hp1
    · rename_i h
      simp only [h] at hp
      exact EofInv.handle (sess_acc cfg r w evs) (sess_buf cfg r w evs) (sess_pipe cfg r w evs hp1 h) h (ih hp1) ev hp

/-! ## End-of-file is not made up -/

/-- The standard input of processes is closed only for a reason. -/
def Closes (log : List SessEntry) : Prop := ∀ a c, log = a ++ .inputClosed :: c → CloseReason a c

theorem Spec.CloseReason.append {a c} (h : CloseReason a c) (l) : CloseReason a (c ++ l) := by
  rcases h with h | h | ⟨bs, c', rfl⟩ | ⟨t, c', rfl⟩
  · exact .inl h
  · exact .inr (.inl h)
  · exact .inr (.inr (.inl ⟨bs, c' ++ l, rfl⟩))
  · exact .inr (.inr (.inr ⟨t, c' ++ l, rfl⟩))

theorem Closes.append {log l : List SessEntry} (h : Closes log)
    (hl : ∀ a c, l = a ++ .inputClosed :: c → CloseReason (log ++ a) c) : Closes (log ++ l) := by
  intro a c e
  rcases split_append e with ⟨c', rfl⟩ | ⟨a', rfl, e2⟩
  · have : c = c' ++ l := by simpa using e.symm
    rw [this]; exact (h a c' rfl).append l
  · exact hl a' c e2

theorem Closes.plain {log l : List SessEntry} (h : Closes log) (hl : .inputClosed ∉ l) : Closes (log ++ l) :=
  h.append fun a c e => absurd (by rw [e]; simp) hl

theorem dropChild_log (s : Sess) : ∃ l, s.dropChild.log = s.log ++ l ∧ ∀ e ∈ l, e = SessEntry.killed := by
  unfold Sess.dropChild
  split
  · exact ⟨[.killed], rfl, by simp⟩
  · exact ⟨[], by simp, by simp⟩

theorem closeStdin_log (s : Sess) : s.closeStdin.log = s.log ∨ s.closeStdin.log = s.log ++ [.inputClosed] := by
  unfold Sess.closeStdin
  split
  · exact .inr rfl
  · exact .inl rfl

theorem single_split {α} {x y : α} {a c : List α} (h : [x] = a ++ y :: c) : a = [] ∧ c = [] ∧ x = y := by
  cases a with
  | nil => simp at h; exact ⟨rfl, h.2, h.1⟩
  | cons z a => simp at h

theorem Closes.setStderr {s : Sess} (h : Closes s.log) (text) : Closes (s.setStderr text).log := by
  have e0 : (s.setStderr text).log = s.dropChild.closeStdin.log ++ [.message text] := rfl
  obtain ⟨l, e, hl⟩ := dropChild_log s
  have h1 : Closes s.dropChild.log := by
    rw [e]; exact h.plain fun hc => by have := hl _ hc; simp at this
  rw [e0]
  rcases closeStdin_log s.dropChild with e1 | e1
  · rw [e1]; exact h1.plain (by simp)
  · rw [e1, List.append_assoc]
    refine h1.append fun a c ec => ?_
    cases a with
    | nil =>
      simp only [List.cons_append, List.nil_append, List.cons.injEq, true_and] at ec
      exact .inr (.inr (.inr ⟨text, [], ec.symm⟩))
    | cons x a =>
      simp only [List.cons_append, List.nil_append, List.cons.injEq] at ec
      have := single_split ec.2
      simp at this

/-- A step in which nothing happens to the input side. -/
theorem Closes.prim {cfg m s s'} (hw : m.w = false) (g : Prim cfg m s s') (h : Closes s.log) : Closes s'.log := by
  cases g with
  | misc g =>
    obtain ⟨l, e, _⟩ := g.log
    have hc := (g.same hw).2.2.2
    rw [e, List.count_append] at hc
    rw [e]
    exact h.plain fun hm => by
      have := List.count_pos_iff.mpr hm
      omega
  | rx e h1 he =>
    refine h.plain fun hc => ?_
    rcases he with rfl | ⟨bs, rfl⟩ <;> simp at hc
  | ask => exact h.plain (by simp)
  | setStderr text => exact h.setStderr text
  | spawn program original terminal =>
    obtain ⟨p, l, e, _, hl⟩ := spawn_log cfg s program original terminal
    rw [e]
    refine h.plain fun hc => ?_
    rcases List.mem_cons.mp hc with hc | hc
    · simp at hc
    · have := hl _ hc; simp at this
  | sched => rw [maybeScheduleRead_log]; exact h
  | term => exact h.plain (by simp)
  | adjust => exact h.plain (by simp)
  | kexinit => exact h.plain (by simp)
  | newkeys => rw [maybeScheduleRead_log]; exact h.plain (by simp)
  | wrote f x bs => simp only [Sess.emit, setSource_log]; exact h.plain (by simp)
  | closes f x => rw [setSource_log]; exact h
  | send f x len => rw [sendFrom_log]; exact h.plain (by simp)
  | srcEnd f x => simp only [setSource_log]; exact h
  | eofOut => exact h.plain (by simp)
  | closeOut => exact h.plain (by simp)
  | _ => exact h

theorem Closes.prims {cfg m s s'} (hw : m.w = false) (g : Prims cfg m s s') (h : Closes s.log) : Closes s'.log :=
  Prims.induct (P := fun s => Closes s.log) (fun _ _ g h => .prim hw g h) g h

theorem consume_log {s s' : Sess} {n} (h : s.consume n = some s') : ∃ l, s'.log = s.log ++ l ∧ .inputClosed ∉ l := by
  unfold Sess.consume at h
  split at h
  · split at h <;> simp only [Option.some.injEq] at h <;> subst h
    · exact ⟨_, rfl, by simp⟩
    · exact ⟨[], by simp, by simp⟩
  · simp at h

theorem scheduleWrite_log (s : Sess) : s.scheduleWrite.log = s.log := by
  unfold Sess.scheduleWrite; split <;> rfl

theorem Closes.data {s s' : Sess} {pl : Bytes} {k n} (h : Closes s.log) (hd : Sess.ops.data s pl k = (s', n)) : Closes s'.log := by
  unfold Sess.ops at hd
  simp only [Bool.cond_eq_ite] at hd
  split at hd
  · simp only [Prod.mk.injEq] at hd; obtain ⟨rfl, _⟩ := hd; exact h
  · split at hd
    · simp only [Prod.mk.injEq] at hd; obtain ⟨rfl, _⟩ := hd; exact h.plain (by simp)
    · cases k with
      | wouldBlock =>
        simp only [Sess.writeInput, Prod.mk.injEq] at hd; obtain ⟨rfl, _⟩ := hd
        rw [scheduleWrite_log]; exact h
      | failed =>
        simp only [Sess.writeInput, Prod.mk.injEq] at hd; obtain ⟨rfl, _⟩ := hd
        simp only [Sess.emit]
        rcases closeStdin_log s with e1 | e1
        · rw [e1]; exact h.plain (by simp)
        · rw [e1, List.append_assoc]
          refine h.append fun a c ec => ?_
          cases a with
          | nil =>
            simp only [List.cons_append, List.nil_append, List.cons.injEq, true_and] at ec
            exact .inr (.inr (.inl ⟨pl, [], ec.symm⟩))
          | cons x a =>
            simp only [List.cons_append, List.nil_append, List.cons.injEq] at ec
            have := single_split ec.2
            simp at this
      | wrote m =>
        simp only [Sess.writeInput] at hd
        split at hd
        · simp only [Prod.mk.injEq] at hd; obtain ⟨rfl, _⟩ := hd; exact h
        · rename_i s1 hc
          simp only [Prod.mk.injEq] at hd; obtain ⟨rfl, _⟩ := hd
          obtain ⟨l, e, hl⟩ := consume_log hc
          rw [e]
          refine Closes.plain ?_ hl
          unfold Sess.wroteInput
          split
          · rw [scheduleWrite_log]; exact h.plain (by simp)
          · exact h.plain (by simp)

/-- What holds while the buffer is being emptied. -/
structure Flow (w : Nat) (s : Sess) (b : Buf) : Prop where
  acc : SessAcc w s b
  eq : BufEq b
  eof : b.eofPending = true → .io (.rx .eof) ∈ s.log
  closes : Closes s.log

theorem closeStdin_closes {s : Sess} (h : Closes s.log) (he : .io (.rx .eof) ∈ s.log) (hq : inputOrLost s.log = clientData s.log) :
    Closes s.closeStdin.log := by
  rcases closeStdin_log s with e1 | e1
  · rw [e1]; exact h
  · rw [e1]
    refine h.append fun a c ec => ?_
    obtain ⟨rfl, _⟩ := single_split ec
    rw [List.append_nil]; exact .inl ⟨he, hq⟩

theorem Flow.all {w s b} (h : Flow w s b) (hq : b.queue = []) : inputOrLost s.log = clientData s.log := by
  have := h.eq
  unfold BufEq at this
  rw [hq, List.append_nil] at this
  rw [h.acc.took, h.acc.got, this]

theorem Flow.finish {w s b} (h : Flow w s b) (hq : b.queue = []) : Closes (b.finish Sess.ops s).1.log := by
  unfold Buf.finish
  cases he : b.eofPending
  · exact h.closes
  · exact closeStdin_closes h.closes (h.eof he) (h.all hq)

theorem data_log {s s' : Sess} {pl : Bytes} {k n} (hd : Sess.ops.data s pl k = (s', n)) : ∃ l, s'.log = s.log ++ l := by
  have := Misc.data s pl k
  rw [hd] at this
  obtain ⟨l, e, _⟩ := this.log
  exact ⟨l, e⟩

theorem Flow.read {w} {ks : List (Nat × Wrote)} : ∀ {s : Sess} {b : Buf}, Flow w s b → Closes (b.read Sess.ops s ks).1.log := by
  induction ks with
  | nil =>
    intro s b h
    unfold Buf.read
    split
    · rename_i hq; exact h.finish hq
    · exact h.closes
  | cons x ks ih =>
    obtain ⟨len, k⟩ := x
    intro s b h
    unfold Buf.read
    split
    · rename_i hq; exact h.finish hq
    · simp only
      split
      · rename_i hd; exact h.closes.data hd
      · rename_i g' n hd
        have h1 := h.closes.data hd
        split
        · exact h1
        · refine ih ⟨(SessAcc.keeps w).data _ _ h.acc hd, ?_, ?_, h1⟩
          · have := h.eq
            unfold BufEq at this ⊢
            have hpre : (b.queue.take (len + 1)).take n <+: b.queue :=
              (List.take_prefix n _).trans (List.take_prefix _ _)
            obtain ⟨rest, hr⟩ := hpre
            generalize (b.queue.take (len + 1)).take n = c at *
            rw [← hr] at this ⊢
            simpa [Buf.emit, taken_snoc, bufBytes_snoc] using this
          · intro he
            obtain ⟨l, e⟩ := data_log hd
            rw [e]; exact List.mem_append_left _ (h.eof he)

/-- End-of-file is in the buffer only if it was received. -/
def PendEof (b : Buf) : Prop := b.eofPending = true → .recvEof ∈ b.log

theorem PendEof.finish {b : Buf} (h : PendEof b) (s : Sess) : PendEof (b.finish Sess.ops s).2.1 := by
  unfold Buf.finish
  cases he : b.eofPending
  · exact h
  · intro hc; simp at hc

theorem PendEof.read {ks : List (Nat × Wrote)} : ∀ {b : Buf}, PendEof b → ∀ s, PendEof (b.read Sess.ops s ks).2.1 := by
  induction ks with
  | nil =>
    intro b h s
    unfold Buf.read
    split
    · exact h.finish s
    · exact h
  | cons x ks ih =>
    obtain ⟨len, k⟩ := x
    intro b h s
    unfold Buf.read
    split
    · exact h.finish s
    · simp only
      split
      · exact h
      · rename_i g' n _
        have hb : PendEof { b.emit (.took ((b.queue.take (len + 1)).take n)) with
            queue := b.queue.drop ((b.queue.take (len + 1)).take n).length } := by
          intro hc; simpa [Buf.emit] using h hc
        split
        · exact hb
        · exact ih hb _

theorem PendEof.handle {cfg} {y : SessCh} (hrd : y.s.reading = true → 0 < y.s.sendWin) (hst : y.stop = none)
    (h : PendEof y.buf) (ev) : PendEof (y.handle cfg ev).buf := by
  cases hbe : bufEvent ev with
  | false => rw [handle_buf y hbe]; exact h
  | true =>
    cases ev with
    | recvData bs k =>
      simp only [SessCh.handle]
      split
      · exact h
      · have he : (y.buf.onData Sess.ops (y.s.emit (.data bs)) bs k).2.1.eofPending = y.buf.eofPending := by
          unfold Buf.onData
          simp only
          cases hep : (y.buf.emit (.recv bs)).eofPending
          · simp only [cond_false]
            split
            · exact hep ▸ rfl
            · split <;> exact hep ▸ rfl
          · rfl
        intro hc
        exact Buf.onData_recvEof.mpr (h (he ▸ hc))
    | recvEof => exact fun _ => Buf.onEof_recvEof
    | stdinReady ks =>
      simp only [SessCh.handle, SessCh.stdinReady]
      split
      · cases y.buf.enough ks
        · exact h
        · exact h.read _
      · exact h
    | ttyReady wr len =>
      obtain ⟨y1, g⟩ := ttyReady_split (cfg := cfg) (m := ⟨false, false, false, y.s, none⟩) y rfl hst hrd wr len
      show PendEof (y.ttyReady cfg wr len).buf
      rw [g.buf]
      rcases g.mid with e | ⟨ks, _, _, _, e⟩
      · rw [e]; exact h
      · rw [e]; exact h.read _
    | _ => simp [bufEvent] at hbe

theorem Closes.handle {cfg w} {y : SessCh} (hacc : SessAccCh w y) (hb : SessBuf y) (hpe : PendEof y.buf) (hst : y.stop = none)
    (h : Closes y.s.log) (ev) : Closes (y.handle cfg ev).s.log := by
  have hrd := hacc.rd
  cases hin : inputEvent ev with
  | false =>
    have hp := Prims.handle (cfg := cfg) (m := ⟨startEvent ev, false, false, y.s, received ev⟩) y ev rfl rfl (by simp [hin]) rfl hrd (by simp)
    exact h.prims rfl hp
  | true =>
    have hflow : Flow w y.s y.buf := ⟨hacc, hb.eq hst, fun he => hb.eof (hpe he), h⟩
    cases ev with
    | completed id err =>
      simp only [SessCh.handle, SessCh.completed]
      split
      · split
        · split
          · refine Closes.plain (l := [.answered true]) ?_ (by simp)
            unfold Sess.enableStdin
            simp only [Bool.cond_eq_ite]
            split
            · rw [scheduleWrite_log]; exact h
            · exact h
          · unfold SessCh.refuse
            cases cfg.verboseErrors
            · exact h.plain (by simp)
            · exact (Closes.setStderr (s := (y.finish id).s) h _).plain (by simp)
        · exact h
      · exact h
    | exited =>
      simp only [SessCh.handle, SessCh.exited]
      split
      · exact h
      · have h1 : Closes ((({ y.s with child := none, log := y.s.log ++ [SessEntry.exited] } : Sess).closeStdin).emit (.io (.tx (.request false)))).log := by
          refine Closes.plain ?_ (by simp)
          have h0 : Closes (y.s.log ++ [SessEntry.exited]) := h.plain (by simp)
          rcases closeStdin_log ({ y.s with child := none, log := y.s.log ++ [SessEntry.exited] } : Sess) with e1 | e1
          · rw [e1]; exact h0
          · rw [e1]
            refine h0.append fun a c ec => ?_
            obtain ⟨rfl, _⟩ := single_split ec
            exact .inr (.inl ⟨y.s.log, by simp⟩)
        generalize (({ y.s with child := none, log := y.s.log ++ [SessEntry.exited] } : Sess).closeStdin).emit (.io (.tx (.request false))) = t at *
        unfold SessCh.closeIfInactive SessCh.close
        simp only [Bool.cond_eq_ite]
        split
        · obtain ⟨l, e, hl⟩ := dropChild_log t
          simp only [Sess.emit, e]
          refine (h1.plain fun hc => ?_).plain (by simp)
          have := hl _ hc; simp at this
        · exact h1
    | recvData bs k =>
      simp only [SessCh.handle]
      split
      · exact h
      · have h1 : Closes (y.s.emit (.data bs)).log := h.plain (by simp)
        unfold Buf.onData
        simp only
        cases (y.buf.emit (.recv bs)).eofPending
        · simp only [cond_false]
          split
          · exact h1
          · split
            · rename_i hd; exact h1.data hd
            · rename_i hd; exact h1.data hd
        · exact h1
    | recvEof =>
      have h1 : Closes (y.s.emit (.io (.rx .eof))).log := h.plain (by simp)
      simp only [SessCh.handle]
      unfold Buf.onEof
      simp only
      cases (y.buf.emit .recvEof).eofPending
      · simp only [cond_false]
        split
        · rename_i hq
          refine closeStdin_closes h1 (by simp [Sess.emit]) ?_
          have := hflow.all hq
          simp only [Sess.emit, inputOrLost_append, clientData_append, this]
          rfl
        · exact h1
      · exact h1
    | stdinReady ks =>
      simp only [SessCh.handle, SessCh.stdinReady]
      split
      · cases y.buf.enough ks
        · exact h
        · refine Flow.read (w := w) (s := { y.s with stdin := some false }) ⟨?_, hflow.eq, hflow.eof, hflow.closes⟩
          exact SessAcc.idle hacc (Idle.quiet rfl rfl (by rw [reading_eq rfl rfl rfl]; exact id) rfl)
      · exact h
    | ttyReady wr len =>
      obtain ⟨y1, g⟩ := ttyReady_split (cfg := cfg) (m := ⟨false, false, false, y.s, none⟩) y rfl hst hrd wr len
      refine Closes.prims rfl g.prims ?_
      rcases g.mid with e | ⟨ks, _, _, _, e⟩
      · rw [e]; exact h
      · rw [e]
        refine Flow.read (w := w) (s := { y.s with ttyWr := false }) ⟨?_, hflow.eq, hflow.eof, hflow.closes⟩
        exact SessAcc.idle hacc (Idle.quiet rfl rfl (by rw [reading_eq rfl rfl rfl]; exact id) rfl)
    | _ => simp [inputEvent] at hin

theorem sess_closes (cfg r w evs) : Closes ((SessCh.init r w).run cfg evs).s.log := by
  suffices Closes ((SessCh.init r w).run cfg evs).s.log ∧ PendEof ((SessCh.init r w).run cfg evs).buf from this.1
  induction evs using Aux.snoc_ind with
  | h0 =>
    refine ⟨?_, by simp [PendEof, SessCh.run, SessCh.init]⟩
    intro a c e
    simp [SessCh.run, SessCh.init] at e
  | h1 evs ev ih =>
    rw [SessCh.run_snoc]
    unfold SessCh.step
    split
    · exact ih
    · rename_i h
      exact ⟨Closes.handle (sess_acc cfg r w evs) (sess_buf cfg r w evs) ih.2 h ih.1 ev, ih.2.handle (sess_acc cfg r w evs).rd h ev⟩

end Lukko
